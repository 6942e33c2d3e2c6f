import Verif.Spec.Db
import Verif.Common.Util
import Verif.Db.Util

/-!
# Specification of recorded histories

The value that something had at the beginning of every block is a function of the block number; `last` is the last block.
-/

namespace Silkworm.Spec

open Silkworm.Db

/-- The block changed the value. -/
def ChangedAt {α : Type} (value : Nat → α) (last b : Nat) : Prop := b ≤ last ∧ value b ≠ value (b + 1)

/-- An index in chunks: the chunk named `n` lists blocks up to `n` at which the value changed and ends with `n`, but for the
last one, which is named by the largest number; all such blocks are listed. -/
structure Indexed (bitmapRead : Bytes → Option (List Nat)) (chunk : Nat → List Bytes) (changed : Nat → Prop) : Prop where
  listed : ∀ n v, n < 2 ^ 64 → v ∈ chunk n → ∃ bm, bitmapRead v = some bm ∧ bm.Pairwise (· < ·) ∧
    (∀ b ∈ bm, changed b ∧ b ≤ n) ∧ (n = 2 ^ 64 - 1 ∨ n ∈ bm)
  covered : ∀ b, changed b → ∃ n v bm, b ≤ n ∧ n < 2 ^ 64 ∧ v ∈ chunk n ∧ bitmapRead v = some bm ∧ b ∈ bm

/-- The tables hold the history of a storage slot of a contract with a single incarnation. -/
structure SlotRecorded (bitmapRead : Bytes → Option (List Nat)) (plainState changeSet history : List (Bytes × Bytes))
    (a : Bytes) (i : Nat) (loc : Bytes) (value : Nat → Bytes) (last : Nat) : Prop where
  ordered : MultiOrdered plainState ∧ MultiOrdered changeSet
  fits : ∀ n, (value n).length = 32
  current : ∀ x, loc ++ x ∈ stored plainState (storagePrefix a i) ↔
    value (last + 1) ≠ zero32 ∧ x = zerolessView (value (last + 1))
  changes : ∀ b, ChangedAt value last b →
    ∀ x, loc ++ x ∈ stored changeSet (storageChangeKey b a i) ↔ x = zerolessView (value b)
  index : Indexed bitmapRead (fun n => stored history (storageHistoryKey a loc n)) (ChangedAt value last)

/-- What a change set holds of an account: nothing of an absent one, no code hash unless the account was deleted. -/
def recordOf (before after : Option Account) : Bytes :=
  match before with
  | none => []
  | some acc => acc.encodeForStorage after.isSome

/-- The tables hold the history of an account. -/
structure AccountRecorded (bitmapRead : Bytes → Option (List Nat)) (plainState changeSet history : List (Bytes × Bytes))
    (a : Bytes) (value : Nat → Option Account) (last : Nat) : Prop where
  fits : ∀ n acc, value n = some acc → acc.WF
  current : stored plainState a = match value (last + 1) with
    | none => []
    | some acc => [acc.encodeForStorage]
  changes : ∀ b, ChangedAt value last b →
    ∀ x, a ++ x ∈ stored changeSet (blockKey b) ↔ x = recordOf (value b) (value (b + 1))
  index : Indexed bitmapRead (fun n => stored history (accountHistoryKey a n)) (ChangedAt value last)

end Silkworm.Spec
