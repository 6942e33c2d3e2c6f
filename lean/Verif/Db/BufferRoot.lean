import Verif.Db.StateBuffer
import Verif.Trie.StateRoot

/-!
# Model of the roots computed by db/silkworm/db/buffer.cpp
-/

namespace Silkworm.Db.Buffer

open Silkworm.Rlp

/-- db/silkworm/db/buffer.cpp:106-137 (`account_storage_root`): zeros are not left out. -/
def accountStorageRoot (keccak : Bytes → Bytes) (b : Buffer) (address : Bytes) (incarnation : Nat) : Outcome Empty Bytes :=
  match b.storage.get? address with
  | none => .ok kEmptyRoot
  | some m =>
    match m.get? incarnation with
    | none => .ok kEmptyRoot
    | some storage =>
      if storage = [] then .ok kEmptyRoot
      else Trie.rootOfTable keccak (Trie.insertAll [] (storage.map fun e => (keccak e.1, encodeBytes (zerolessView e.2))))

/-- db/silkworm/db/buffer.cpp:289-296: the RLP of the accounts that are not deleted. -/
def accountEntries (keccak : Bytes → Bytes) (b : Buffer) :
    List (Bytes × Option Account) → Outcome Empty (List (Bytes × Bytes))
  | [] => .ok []
  | (_, none) :: es => accountEntries keccak b es
  | (address, some account) :: es =>
    (accountStorageRoot keccak b address account.incarnation).bind fun root =>
      (accountEntries keccak b es).bind fun r => .ok ((keccak address, account.rlp root) :: r)

/-- db/silkworm/db/buffer.cpp:284-303 (`state_root_hash`): of the accounts and slots in the buffer only. -/
def stateRootHash (keccak : Bytes → Bytes) (b : Buffer) : Outcome Empty Bytes :=
  if b.accounts = [] then .ok kEmptyRoot
  else (accountEntries keccak b b.accounts).bind fun es => Trie.rootOfTable keccak (Trie.insertAll [] es)

end Silkworm.Db.Buffer
