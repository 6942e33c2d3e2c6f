import Verif.Spec.Rlp

/-!
# Specification of the Merkle-Patricia trie (Yellow Paper, appendices C and D)

A trie is given by a finite list of pairs of a path, a list of nibbles, and a value. Nothing here depends on the order of
the list.
-/

namespace Silkworm.Spec

/-- The nibbles of a key, high half first, YP (203). -/
def nibbles : List UInt8 → List UInt8
  | [] => []
  | b :: bs => UInt8.ofNat (b.toNat / 16) :: UInt8.ofNat (b.toNat % 16) :: nibbles bs

/-- Two nibbles to a byte. -/
def joinNibbles : List UInt8 → List UInt8
  | a :: b :: rest => UInt8.ofNat (16 * a.toNat + b.toNat) :: joinNibbles rest
  | _ => []

/-- `HP`: hex-prefix encoding, YP (190)-(191): the first nibble is `2 * leaf + odd`. -/
def hexPrefix (path : List UInt8) (leaf : Bool) : List UInt8 :=
  let f := if leaf then 2 else 0
  if path.length % 2 = 0 then joinNibbles (UInt8.ofNat f :: 0 :: path)
  else joinNibbles (UInt8.ofNat (f + 1) :: path)

/-- The longest common prefix of two paths. -/
def lcp : List UInt8 → List UInt8 → List UInt8
  | a :: as, b :: bs => if a = b then a :: lcp as bs else []
  | _, _ => []

/-- The longest common prefix of the paths of a nonempty list, YP (200). -/
def commonPrefix : List (List UInt8 × List UInt8) → List UInt8
  | [] => []
  | [e] => e.1
  | e :: es => lcp e.1 (commonPrefix es)

/-- The entries whose path starts with `d`, without that nibble, YP (199). -/
def children (d : UInt8) : List (List UInt8 × List UInt8) → List (List UInt8 × List UInt8)
  | [] => []
  | ([], _) :: es => children d es
  | (x :: k, v) :: es => if x = d then (k, v) :: children d es else children d es

/-- The value stored at the end of the path in a branch, YP (199): empty if there is none. -/
def branchValue : List (List UInt8 × List UInt8) → List UInt8
  | [] => []
  | ([], v) :: _ => v
  | _ :: es => branchValue es

/-- The nibbles `0` to `15`. -/
def digits : List UInt8 := (List.range 16).map UInt8.ofNat

/-- `n`: how a node is referred to by its parent, YP (196): by itself if its RLP is shorter than 32 bytes, otherwise by
its hash. -/
def reference (keccak : List UInt8 → List UInt8) (node : Item) : Item :=
  if (rlp node).length < 32 then node else .str (keccak (rlp node))

/-- `c`: the node of a set of entries, YP (197)-(200); the empty string if there are none. The first argument bounds the
depth. -/
def trieNode (keccak : List UInt8 → List UInt8) : Nat → List (List UInt8 × List UInt8) → Item
  | _, [] => .str []
  | _, [(k, v)] => .list [.str (hexPrefix k true), .str v]
  | 0, _ => .str []
  | n + 1, es =>
    if commonPrefix es ≠ [] then
      let l := commonPrefix es
      .list [.str (hexPrefix l false),
        reference keccak (trieNode keccak n (es.map (fun e => (e.1.drop l.length, e.2))))]
    else
      .list (digits.map (fun d => reference keccak (trieNode keccak n (children d es))) ++ [.str (branchValue es)])

/-- A bound on the depth of the trie: each node takes at least one nibble off the paths of two or more entries. -/
def depthBound (es : List (List UInt8 × List UInt8)) : Nat := (es.map (fun e => e.1.length)).sum + 1

/-- `TRIE`: the root hash of a map from keys to values, YP (195). -/
def trieRoot (keccak : List UInt8 → List UInt8) (entries : List (List UInt8 × List UInt8)) : List UInt8 :=
  let es := entries.map (fun e => (nibbles e.1, e.2))
  keccak (rlp (trieNode keccak (depthBound es) es))

/-- No key is a prefix of another one and no key occurs twice. -/
def PrefixFree (entries : List (List UInt8 × List UInt8)) : Prop :=
  entries.Pairwise (fun a b => ¬ a.1 <+: b.1 ∧ ¬ b.1 <+: a.1)

/-- The bytewise order of keys: at the first difference the smaller byte, or a proper prefix. -/
def KeyLt (a b : List UInt8) : Prop :=
  (∃ x xs, b = a ++ x :: xs) ∨ ∃ p x y as bs, a = p ++ x :: as ∧ b = p ++ y :: bs ∧ x < y

/-- Keys are strictly increasing. -/
def Increasing (entries : List (List UInt8 × List UInt8)) : Prop := entries.Pairwise (fun a b => KeyLt a.1 b.1)

end Silkworm.Spec
