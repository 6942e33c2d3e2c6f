import Verif.Spec.Blocks
import Verif.Spec.Unwind
import Verif.Spec.Transaction
import Mathlib.Data.List.Forall2

/-!
# Senders of the transactions of canonical blocks
-/

namespace Silkworm.Spec

open Silkworm.Db

/-- Whose transaction it is: the last 20 bytes of the hash of the public key that signed it. -/
def SenderIs (keccak : Bytes → Bytes) (recover : Bytes → Bytes → Bool → Option Bytes) (t : Transaction) (a : Bytes) : Prop :=
  ∃ key, recover (keccak (txSigningPayload t)) (beFixed 32 t.r ++ beFixed 32 t.s) t.oddYParity = some (4 :: key) ∧
    a = (keccak key).drop 12

/-- The blocks after `done`, each with its hash, are stored and canonical; senders are stored of earlier ones only. -/
structure SendersDue (db : Database) (done : Nat) (bs : List (Bytes × Block)) : Prop where
  stored : ∀ i b, bs[i]? = some b → ∃ base, BlockStored db (done + 1 + i) b.1 base b.2
  hashKeys : ∀ e ∈ db.canonicalHashes, e.1.length = 8
  bodyKeys : ∀ e ∈ db.blockBodies, e.1.length = 40
  senderKeys : ∀ e ∈ db.senders, e.1.length = 40 ∧ recordBlock e ≤ done
  range : done + bs.length < 2 ^ 64
  progress : getStageProgress db (ascii "Senders") = .ok done
  bodies : getStageProgress db (ascii "Bodies") = .ok (done + bs.length)

/-- The number of transactions. -/
def transactionCount (bs : List (Bytes × Block)) : Nat := (bs.map fun b => b.2.transactions.length).sum

/-- The blocks that have transactions, with their numbers. -/
def withTransactions (done : Nat) (bs : List (Bytes × Block)) : List (Nat × Block) :=
  ((bs.zipIdx (done + 1)).filter fun b => decide (b.1.2.transactions ≠ [])).map fun b => (b.2, b.1.2)

/-- The senders of a block are stored under its number and this hash. -/
def SendersUnder (keccak : Bytes → Bytes) (recover : Bytes → Bytes → Bool → Option Bytes) (db : Database) (n : Nat) (hash : Bytes)
    (b : Block) : Prop :=
  ∃ ss, List.Forall₂ (SenderIs keccak recover) b.transactions ss ∧ SendersStored db n hash ss

end Silkworm.Spec
