import Verif.State.IntraBlockState
import Verif.Spec.Account

/-!
# Specification of tables
-/

namespace Silkworm.Spec

/-- The entries of a multi-value table are in increasing order, by key and then by value. -/
def MultiOrdered (t : List (Bytes × Bytes)) : Prop := t.Pairwise fun e f => e.1 < f.1 ∨ (e.1 = f.1 ∧ e.2 < f.2)

instance (t : List (Bytes × Bytes)) : Decidable (MultiOrdered t) :=
  inferInstanceAs (Decidable (List.Pairwise _ t))

/-- The values stored under a key, in order. -/
def stored (t : List (Bytes × Bytes)) (k : Bytes) : List Bytes := (t.filter fun e => e.1 = k).map (·.2)

/-- The entries of a table with one value per key are in increasing order of their keys. -/
def Ordered (t : List (Bytes × Bytes)) : Prop := t.Pairwise fun e f => e.1 < f.1

instance (t : List (Bytes × Bytes)) : Decidable (Ordered t) :=
  inferInstanceAs (Decidable (List.Pairwise _ t))

/-- The arguments of a call have the values their types allow. -/
def CallFits : BufferCall → Prop
  | .beginBlock n => n < 2 ^ 64
  | .updateAccount a i c => a.length = 20 ∧ (∀ x, i = some x → x.WF) ∧ (∀ x, c = some x → x.WF)
  | .updateAccountCode a n h _ => a.length = 20 ∧ n < 2 ^ 64 ∧ h.length = 32
  | .updateStorage a n k i c => a.length = 20 ∧ n < 2 ^ 64 ∧ k.length = 32 ∧ i.length = 32 ∧ c.length = 32

/-- A write of a value to a storage slot. -/
structure SlotWrite where
  address : Bytes
  incarnation : Nat
  location : Bytes
  value : Bytes

/-- The arguments have the values their types allow. -/
def SlotWrite.Fits (w : SlotWrite) : Prop :=
  w.address.length = 20 ∧ w.incarnation < 2 ^ 64 ∧ w.location.length = 32 ∧ w.value.length = 32

/-- The last value written to a slot. -/
def lastWritten (address : Bytes) (incarnation : Nat) (location : Bytes) : List SlotWrite → Option Bytes
  | [] => none
  | w :: ws =>
    match lastWritten address incarnation location ws with
    | some v => some v
    | none =>
      if w.address = address ∧ w.incarnation = incarnation ∧ w.location = location then some w.value else none

end Silkworm.Spec
