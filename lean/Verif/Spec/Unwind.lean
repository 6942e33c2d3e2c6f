import Verif.Base.Bytes

/-!
# What the change sets say about an earlier state

The record of a block holds what an account or a slot was before the block; the state after block `n` is what the earliest
record of a later block says, or the present one if there is no such record.
-/

namespace Silkworm.Spec

/-- The block of a change-set entry: the first eight bytes of its key. -/
def recordBlock (e : Bytes × Bytes) : Nat := beToNat (e.1.take 8)

/-- What is recorded of an account after block `n`, the earliest first. -/
def accountRecords (t : List (Bytes × Bytes)) (n : Nat) (address : Bytes) : List Bytes :=
  (t.filter fun e => decide (n < recordBlock e ∧ e.2.take 20 = address)).map fun e => e.2.drop 20

/-- What is recorded of the slots of a contract after block `n`, the earliest first: location and value. -/
def contractRecords (t : List (Bytes × Bytes)) (n : Nat) (contract : Bytes) : List (Bytes × Bytes) :=
  (t.filter fun e => decide (n < recordBlock e ∧ e.1.drop 8 = contract)).map fun e => (e.2.take 32, e.2.drop 32)

/-- What is recorded of a slot after block `n`, the earliest first. -/
def slotRecords (t : List (Bytes × Bytes)) (n : Nat) (contract location : Bytes) : List Bytes :=
  ((contractRecords t n contract).filter fun r => decide (r.1 = location)).map (·.2)

end Silkworm.Spec
