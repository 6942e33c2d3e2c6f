import Verif.Spec.Trie
import Verif.Spec.Account

/-!
# Specification of the state root (Yellow Paper, section 4.1)

A world state is a list of addresses with their account and storage. `L_S` and `L_I` map hashes of addresses and of
locations to RLP; locations with the value zero do not belong to the storage trie.
-/

namespace Silkworm.Spec

/-- A number from its big-endian bytes. -/
def fromBe : List UInt8 → Nat
  | [] => 0
  | b :: bs => b.toNat * 256 ^ bs.length + fromBe bs

/-- The root of the storage trie, YP (7)-(9). -/
def storageRoot (keccak : List UInt8 → List UInt8) (storage : List (List UInt8 × List UInt8)) : List UInt8 :=
  trieRoot keccak ((storage.filter (fun e => fromBe e.2 ≠ 0)).map (fun e => (keccak e.1, rlp (num (fromBe e.2)))))

/-- The root of the state trie, YP (10)-(12). -/
def stateRoot (keccak : List UInt8 → List UInt8) (world : List (List UInt8 × Account × List (List UInt8 × List UInt8))) :
    List UInt8 :=
  trieRoot keccak (world.map (fun e => (keccak e.1, rlp (accountItem e.2.1 (storageRoot keccak e.2.2)))))

end Silkworm.Spec
