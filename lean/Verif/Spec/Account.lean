import Verif.Spec.Rlp
import Verif.Types.Account

/-!
# Specification of account records

In the database an account is a flag byte followed by the present fields, each preceded by its length; in the state
trie it is the RLP list of the Yellow Paper.
-/

namespace Silkworm.Spec

open Silkworm

/-- A field of a record: nothing, or a length byte and the contents. -/
def recordField : Option (List UInt8) → List UInt8
  | none => []
  | some c => UInt8.ofNat c.length :: c

/-- A record with the given fields (nonce, balance, incarnation, code hash); `junk` is the unused upper half of the
flag byte. -/
def record (junk : Nat) (n b i c : Option (List UInt8)) : List UInt8 :=
  UInt8.ofNat (16 * junk + 8 * c.isSome.toNat + 4 * i.isSome.toNat + 2 * b.isSome.toNat + n.isSome.toNat) ::
    (recordField n ++ recordField b ++ recordField i ++ recordField c)

/-- A number as a field: absent when zero. -/
def numField (n : Nat) : Option (List UInt8) := if n = 0 then none else some (be n)

/-- The record of an account. -/
def accountRecord (a : Account) (omitCodeHash : Bool) : List UInt8 :=
  record 0 (numField a.nonce) (numField a.balance) (numField a.incarnation)
    (if a.codeHash = kEmptyHash ∨ omitCodeHash = true then none else some a.codeHash)

/-- YP (12): an account in the state trie is `[nonce, balance, storage root, code hash]`. -/
def accountItem (a : Account) (storageRoot : List UInt8) : Item :=
  .list [num a.nonce, num a.balance, .str storageRoot, .str a.codeHash]

end Silkworm.Spec

namespace Silkworm

/-- Values a C++ `Account` can hold. -/
structure Account.WF (a : Account) : Prop where
  nonce : a.nonce < 2 ^ 64
  balance : a.balance < 2 ^ 256
  codeHash : a.codeHash.length = 32
  incarnation : a.incarnation < 2 ^ 64

end Silkworm
