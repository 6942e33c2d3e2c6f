import Verif.Spec.Trie

/-!
# Specification of the trie records kept in the database

A trie is a list of paths, lists of nibbles, with values, as in `Spec/Trie.lean`. A record belongs to a branch node and
says which children there are, which of them are branch nodes, together with their hashes, and which have records below.
The description follows the comment at the beginning of db/silkworm/trie/db_trie.hpp.
-/

namespace Silkworm.Spec

/-- Some path begins with `p`. -/
def Occurs (T : List (List UInt8 × List UInt8)) (p : List UInt8) : Prop := ∃ e ∈ T, p <+: e.1

/-- There is a branch node at `p`: the paths that begin with `p` go on with different nibbles. -/
def BranchAt (T : List (List UInt8 × List UInt8)) (p : List UInt8) : Prop :=
  ∃ a b : UInt8, a ≠ b ∧ Occurs T (p ++ [a]) ∧ Occurs T (p ++ [b])

/-- At `p` or below it there is a branch node one of whose children is a branch node. -/
def PairBelow (T : List (List UInt8 × List UInt8)) (p : List UInt8) : Prop :=
  ∃ (q : List UInt8) (d : UInt8), p <+: q ∧ BranchAt T q ∧ BranchAt T (q ++ [d])

/-- A branch node has a record if it or a branch node below it has a child that is a branch node. -/
def Recorded (T : List (List UInt8 × List UInt8)) (p : List UInt8) : Prop := BranchAt T p ∧ PairBelow T p

/-- The entries whose path begins with `p`, without `p`. -/
def below (T : List (List UInt8 × List UInt8)) (p : List UInt8) : List (List UInt8 × List UInt8) :=
  T.filterMap (fun e => if p.isPrefixOf e.1 then some (e.1.drop p.length, e.2) else none)

/-- The RLP of the node that a set of entries makes. -/
def nodeRlp (keccak : List UInt8 → List UInt8) (es : List (List UInt8 × List UInt8)) : List UInt8 :=
  rlp (trieNode keccak (depthBound es) es)

/-- Each branch node that is the child of a branch node takes at least 32 bytes, so that its parent refers to it by its
hash. -/
def BranchesHashed (keccak : List UInt8 → List UInt8) (T : List (List UInt8 × List UInt8)) : Prop :=
  ∀ (p : List UInt8) (d : UInt8), BranchAt T p → BranchAt T (p ++ [d]) → 32 ≤ (nodeRlp keccak (below T (p ++ [d]))).length

/-- What the record at `p` has to say: three masks, the hashes and, at the root, the root hash. -/
structure IsRecord (keccak : List UInt8 → List UInt8) (T : List (List UInt8 × List UInt8)) (p : List UInt8)
    (stateMask treeMask hashMask : Nat) (hashes : List (List UInt8)) (rootHash : Option (List UInt8)) : Prop where
  /-- a bit for each child -/
  state : ∀ i, stateMask.testBit i = true ↔ i < 16 ∧ Occurs T (p ++ [UInt8.ofNat i])
  /-- a bit for each child with a record at it or below it -/
  tree : ∀ i, treeMask.testBit i = true ↔ i < 16 ∧ ∃ q, p ++ [UInt8.ofNat i] <+: q ∧ Recorded T q
  /-- a bit for each child that is a branch node -/
  hash : ∀ i, hashMask.testBit i = true ↔ i < 16 ∧ BranchAt T (p ++ [UInt8.ofNat i])
  /-- the hashes of these branch nodes in their order -/
  hashes : hashes = ((List.range 16).filter (fun i => hashMask.testBit i)).map
    (fun i => keccak (nodeRlp keccak (below T (p ++ [UInt8.ofNat i]))))
  /-- the root hash at the root only -/
  root : rootHash = if p = [] then some (keccak (nodeRlp keccak T)) else none

end Silkworm.Spec
