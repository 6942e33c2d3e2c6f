import Verif.Trie.HashBuilder

/-!
# Model of the database form of trie nodes, db/silkworm/trie/db_trie.cpp

Node records are byte strings; the 16-bit masks of a node are natural numbers below `2^16`.
-/

namespace Silkworm.Trie

/-- The exceptions of `unmarshal_node`. -/
inductive NodeError where
  | tooShort
  | invalidLength
  deriving DecidableEq, Repr

/-- db/silkworm/trie/db_trie.cpp:187-215 (`marshal_node`). -/
def marshalNode (n : Node) : Bytes :=
  beFixed 2 n.stateMask ++ beFixed 2 n.treeMask ++ beFixed 2 n.hashMask ++ n.rootHash.getD [] ++ n.hashes.flatten

/-- db/silkworm/trie/db_trie.cpp:243-248: the remaining bytes as hashes of 32 bytes. -/
def splitHashes : Nat → Bytes → List Bytes
  | 0, _ => []
  | n + 1, v => v.take 32 :: splitHashes n (v.drop 32)

/-- The assertions of the constructor of `Node` called at db/silkworm/trie/db_trie.cpp:250. -/
def constructNode (stateMask treeMask hashMask : Nat) (hashes : List Bytes) (rootHash : Option Bytes) :
    Outcome NodeError Node :=
  match mkNode stateMask treeMask hashMask hashes rootHash with
  | .ok n => .ok n
  | _ => .ub

/-- db/silkworm/trie/db_trie.cpp:217-251 (`unmarshal_node`). -/
def unmarshalNode (v : Bytes) : Outcome NodeError Node :=
  if v.length < 6 then .err .tooShort
  else if (v.length - 6) % 32 ≠ 0 then .err .invalidLength
  else
    let stateMask := beToNat (v.take 2)
    let treeMask := beToNat ((v.drop 2).take 2)
    let hashMask := beToNat ((v.drop 4).take 2)
    let rest := v.drop 6
    if popcount hashMask + 1 = rest.length / 32 then
      constructNode stateMask treeMask hashMask (splitHashes (rest.length / 32 - 1) (rest.drop 32)) (some (rest.take 32))
    else constructNode stateMask treeMask hashMask (splitHashes (rest.length / 32) rest) none

end Silkworm.Trie
