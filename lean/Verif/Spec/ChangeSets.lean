import Verif.Spec.History

/-!
# Specification of change sets
-/

namespace Silkworm.Spec

/-- What the calls record of account `a` for block `n`: what the last effective call said about the account before it. A call
is effective if it changes or deletes the account, or if storage of the account was changed before in the block. `current` is
the present block, `touched` tells whether storage of the account was changed in it. -/
def accountEntry (n : Nat) (a : Bytes) (current : Nat) (touched : Bool) (record : Option Bytes) : List BufferCall → Option Bytes
  | [] => record
  | .beginBlock m :: calls => accountEntry n a m false record calls
  | .updateAccount x before after :: calls =>
    if x = a ∧ current = n ∧ (before ≠ after ∨ after = none ∨ touched = true) then
      accountEntry n a current touched (some (recordOf before after)) calls
    else accountEntry n a current touched record calls
  | .updateAccountCode .. :: calls => accountEntry n a current touched record calls
  | .updateStorage x _ _ before after :: calls =>
    if x = a ∧ before ≠ after then accountEntry n a current true record calls
    else accountEntry n a current touched record calls

/-- What the calls record of a storage slot for block `n`: the value before the last change, without leading zeros. -/
def slotEntry (n : Nat) (a : Bytes) (i : Nat) (loc : Bytes) (current : Nat) (record : Option Bytes) :
    List BufferCall → Option Bytes
  | [] => record
  | .beginBlock m :: calls => slotEntry n a i loc m record calls
  | .updateAccount .. :: calls => slotEntry n a i loc current record calls
  | .updateAccountCode .. :: calls => slotEntry n a i loc current record calls
  | .updateStorage x j k before after :: calls =>
    if x = a ∧ j = i ∧ k = loc ∧ current = n ∧ before ≠ after then
      slotEntry n a i loc current (some (zerolessView before)) calls
    else slotEntry n a i loc current record calls

end Silkworm.Spec
