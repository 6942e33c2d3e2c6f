import Verif.Trie.HashBuilder
import Verif.State.MemoryBuffer
import Verif.Common.Util

/-!
# Model of the roots computed by core/silkworm/state/memory_buffer.cpp

`std::map<evmc::bytes32, Bytes>` is a table ordered bytewise, with one entry for a key.
-/

namespace Silkworm.Trie

open Silkworm.Rlp

/-- `m[key] = value` for all pairs, in order. -/
def insertAll (m : Db.Table) (entries : List (Bytes × Bytes)) : Db.Table := entries.foldl (fun m e => m.upsert e.1 e.2) m

/-- core/silkworm/state/memory_buffer.cpp:253-258 and 272-277: the root of the entries of a map, in its order. -/
def rootOfTable (keccak : Bytes → Bytes) (m : Db.Table) : Outcome Empty Bytes :=
  (buildRoot keccak false m).bind fun r => .ok r.1

/-- core/silkworm/state/memory_buffer.cpp:228-242: the storage of an incarnation, empty if there is none. -/
def storageOf (b : MemoryBuffer) (address : Bytes) (incarnation : Nat) : List (Bytes × Bytes) :=
  match b.storage.get? address with
  | none => []
  | some m1 => (m1.get? incarnation).getD []

/-- core/silkworm/state/memory_buffer.cpp:226-258 (`account_storage_root`). -/
def accountStorageRoot (keccak : Bytes → Bytes) (b : MemoryBuffer) (address : Bytes) (incarnation : Nat) :
    Outcome Empty Bytes :=
  let storage := storageOf b address incarnation
  if storage = [] then .ok kEmptyRoot
  else rootOfTable keccak (insertAll [] (storage.map (fun e => (keccak e.1, encodeBytes (zerolessView e.2)))))

/-- core/silkworm/state/memory_buffer.cpp:265-270: the RLP of the accounts. -/
def accountEntries (keccak : Bytes → Bytes) (b : MemoryBuffer) : List (Bytes × Account) → Outcome Empty (List (Bytes × Bytes))
  | [] => .ok []
  | e :: es =>
    (accountStorageRoot keccak b e.1 e.2.incarnation).bind fun root =>
      (accountEntries keccak b es).bind fun r => .ok ((keccak e.1, e.2.rlp root) :: r)

/-- core/silkworm/state/memory_buffer.cpp:260-278 (`state_root_hash`). -/
def stateRootHash (keccak : Bytes → Bytes) (b : MemoryBuffer) : Outcome Empty Bytes :=
  if b.accounts = [] then .ok kEmptyRoot
  else (accountEntries keccak b b.accounts).bind fun es => rootOfTable keccak (insertAll [] es)

end Silkworm.Trie
