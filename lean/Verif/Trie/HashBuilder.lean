import Verif.Base.Outcome
import Verif.Base.Bytes
import Verif.Rlp.Model
import Verif.Common.Util
import Verif.Db.Table
import Verif.Types.Account

/-!
# Model of core/silkworm/trie/hash_builder.{hpp,cpp} and vector_root.hpp

The hash function is a parameter. `std::vector<uint16_t>` masks are lists of natural numbers below `2^16`. The node
collector, a callback, is a flag saying whether one is set and a list of what it was called with. Indexing a vector or a
string outside its bounds, taking more children from the stack than it has, and a failed `assert` are undefined
behaviour.
-/

namespace Silkworm.Trie

open Silkworm.Rlp

/-- core/silkworm/trie/hash_builder.hpp:33-56 (`Node`). -/
structure Node where
  stateMask : Nat
  treeMask : Nat
  hashMask : Nat
  hashes : List Bytes
  rootHash : Option Bytes := none
  deriving DecidableEq, Repr

/-- core/silkworm/trie/hash_builder.cpp:30-34 (`assert_subset`). -/
def subset (sub sup : Nat) : Bool := sub &&& sup == sub

/-- `std::bitset<16>(mask).count()`. -/
def popcount (mask : Nat) : Nat := (List.range 16).countP (fun i => mask.testBit i)

/-- core/silkworm/trie/hash_builder.cpp:39-49, the constructor of `Node` with its assertions. -/
def mkNode (stateMask treeMask hashMask : Nat) (hashes : List Bytes) (rootHash : Option Bytes := none) :
    Outcome Empty Node :=
  if subset treeMask stateMask && subset hashMask stateMask && popcount hashMask == hashes.length then
    .ok ⟨stateMask, treeMask, hashMask, hashes, rootHash⟩
  else .ub

/-- core/silkworm/trie/hash_builder.cpp:58-65 (`unpack_nibbles`). -/
def unpackNibbles (packed : Bytes) : Bytes := packed.flatMap (fun (b : UInt8) => [b >>> 4, b &&& 0xF])

/-- The loops of core/silkworm/trie/hash_builder.cpp:82-84 and 86-88: two nibbles to a byte. -/
def packPairs : Bytes → Bytes
  | a :: b :: rest => ((a <<< 4) + b) :: packPairs rest
  | _ => []

/-- core/silkworm/trie/hash_builder.cpp:67-93 (`encode_path`). -/
def encodePath (path : Bytes) (terminating : Bool) : Bytes :=
  if path.length % 2 ≠ 0 then
    match path with
    | [] => []
    | a :: rest => ((if terminating then 0x30 else 0x10) ||| a) :: packPairs rest
  else (if terminating then 0x20 else 0x00) :: packPairs path

/-- core/silkworm/trie/hash_builder.cpp:95-105 (`leaf_node_rlp`). -/
def leafNodeRlp (path value : Bytes) : Bytes :=
  let encodedPath := encodePath path true
  encodeHeader ⟨true, lengthBytes encodedPath + lengthBytes value⟩ ++ encodeBytes encodedPath ++ encodeBytes value

/-- core/silkworm/trie/hash_builder.cpp:107-117 (`extension_node_rlp`). -/
def extensionNodeRlp (path childRef : Bytes) : Bytes :=
  let encodedPath := encodePath path false
  encodeHeader ⟨true, lengthBytes encodedPath + childRef.length⟩ ++ encodeBytes encodedPath ++ childRef

/-- core/silkworm/trie/hash_builder.cpp:119-129 (`node_ref`). -/
def nodeRef (keccak : Bytes → Bytes) (rlp : Bytes) : Bytes :=
  if rlp.length < 32 then rlp else UInt8.ofNat (0x80 + 32) :: keccak rlp

/-- core/silkworm/trie/hash_builder.hpp:89-95, the members of `HashBuilder`, and the calls made to the collector, the
last one first. The back of the stack is the end of the list. -/
structure HashBuilder where
  key : Bytes := []
  value : Bytes := []
  groups : List Nat := []
  treeMasks : List Nat := []
  hashMasks : List Nat := []
  stack : List Bytes := []
  collected : List (Bytes × Node) := []
  deriving DecidableEq, Repr

/-- `std::vector<uint16_t>::resize`. -/
def resize (l : List Nat) (n : Nat) : List Nat := l.take n ++ List.replicate (n - l.length) 0

/-- `v[i]` of a vector. -/
def at? {α : Type} (l : List α) (i : Nat) : Outcome Empty α :=
  match l[i]? with
  | some m => .ok m
  | none => .ub

/-- `1u << digit`, stored in a `uint16_t`. -/
def flag (digit : UInt8) : Nat := 2 ^ digit.toNat % 2 ^ 16

/-- `v[i] |= bits`. -/
def orAt (l : List Nat) (i bits : Nat) : Outcome Empty (List Nat) :=
  (at? l i).bind fun m => .ok (l.set i (m ||| bits))

/-- `v[i] &= ~bits`. -/
def clearAt (l : List Nat) (i bits : Nat) : Outcome Empty (List Nat) :=
  (at? l i).bind fun m => .ok (l.set i (m &&& (2 ^ 16 - 1 - bits)))

/-- core/silkworm/trie/hash_builder.cpp:286-292 and 298-306: the concatenation of the children of a branch, taken from
the stack in the order of the digits, `kEmptyStringCode` where there is none. -/
def branchChildren (mask : Nat) : List Nat → List Bytes → Outcome Empty Bytes
  | [], _ => .ok []
  | d :: ds, stack =>
    if mask.testBit d then
      match stack with
      | [] => .ub
      | x :: xs => (branchChildren mask ds xs).bind fun r => .ok (x ++ r)
    else (branchChildren mask ds stack).bind fun r => .ok (0x80 :: r)

/-- core/silkworm/trie/hash_builder.cpp:300-302: the children whose bit is in `hash_mask`. -/
def childHashes (mask hashMask : Nat) : List Nat → List Bytes → List Bytes
  | [], _ => []
  | d :: ds, stack =>
    if mask.testBit d then
      match stack with
      | [] => []
      | x :: xs => if hashMask.testBit d then x :: childHashes mask hashMask ds xs else childHashes mask hashMask ds xs
    else childHashes mask hashMask ds stack

/-- core/silkworm/trie/hash_builder.cpp:274-314 (`branch_ref`): the new stack and the hashes of children. -/
def branchRef (keccak : Bytes → Bytes) (stack : List Bytes) (stateMask hashMask : Nat) :
    Outcome Empty (List Bytes × List Bytes) :=
  if ¬ subset hashMask stateMask then .ub
  else if stack.length < popcount stateMask then .ub
  else
    let first := stack.length - popcount stateMask
    (branchChildren stateMask (List.range 16) (stack.drop first)).bind fun children =>
      let payload := children ++ [0x80]
      .ok (stack.take first ++ [nodeRef keccak (encodeHeader ⟨true, payload.length⟩ ++ payload)],
        childHashes stateMask hashMask (List.range 16) (stack.drop first))

/-- core/silkworm/trie/hash_builder.cpp:154-168, the part of `root_hash` after finalizing. -/
def rootOfStack (keccak : Bytes → Bytes) (stack : List Bytes) : Bytes :=
  match stack.getLast? with
  | none => kEmptyRoot
  | some ref => if ref.length = 33 then ref.drop 1 else keccak ref

/-- core/silkworm/trie/hash_builder.cpp:245-248: the hash inside a reference of 33 bytes. -/
def hashInRef (ref : Bytes) : Outcome Empty Bytes := if ref.length = 33 then .ok (ref.drop 1) else .ub

/-- core/silkworm/trie/hash_builder.cpp:243-248. -/
def hashesInRefs : List Bytes → Outcome Empty (List Bytes)
  | [] => .ok []
  | r :: rs => (hashInRef r).bind fun h => (hashesInRefs rs).bind fun hs => .ok (h :: hs)

/-- core/silkworm/trie/hash_builder.cpp:198-208: masks when an extension node is made and a collector is set. -/
def extensionMasks (s : HashBuilder) (current : Bytes) (from_ : Nat) : Outcome Empty HashBuilder :=
  (at? current (from_ - 1)).bind fun digit =>
    (clearAt s.hashMasks (from_ - 1) (flag digit)).bind fun hashMasks =>
      (at? s.treeMasks (current.length - 1)).bind fun t =>
        if t ≠ 0 then
          (orAt s.treeMasks (from_ - 1) (flag digit)).bind fun treeMasks =>
            .ok { s with hashMasks := hashMasks, treeMasks := treeMasks }
        else .ok { s with hashMasks := hashMasks }

/-- core/silkworm/trie/hash_builder.cpp:193-215: push a leaf or turn the back of the stack into an extension node. -/
def pushShortNode (keccak : Bytes → Bytes) (collect buildExtensions : Bool) (s : HashBuilder) (current value : Bytes)
    (from_ : Nat) : Outcome Empty HashBuilder :=
  let shortNodeKey := current.drop from_
  if ¬ buildExtensions then .ok { s with stack := s.stack ++ [nodeRef keccak (leafNodeRlp shortNodeKey value)] }
  else if shortNodeKey ≠ [] then
    (if collect ∧ 0 < from_ then extensionMasks s current from_ else .ok s).bind fun s =>
      match s.stack.getLast? with
      | none => .ub
      | some back =>
        let back := nodeRef keccak (extensionNodeRlp shortNodeKey back)
        .ok { s with
          stack := s.stack.dropLast ++ [back]
          hashMasks := resize s.hashMasks from_
          treeMasks := resize s.treeMasks from_ }
  else .ok s

/-- core/silkworm/trie/hash_builder.cpp:238-256: store the node of a branch. -/
def storeNode (keccak : Bytes → Bytes) (s : HashBuilder) (current : Bytes) (len : Nat) (hashes : List Bytes) :
    Outcome Empty HashBuilder :=
  (if 0 < len then
    (at? current (len - 1)).bind fun digit =>
      (orAt s.treeMasks (len - 1) (flag digit)).bind fun treeMasks => .ok { s with treeMasks := treeMasks }
   else .ok s).bind fun s =>
    (hashesInRefs hashes).bind fun hs =>
      (at? s.groups len).bind fun g =>
        (at? s.treeMasks len).bind fun t =>
          (at? s.hashMasks len).bind fun h =>
            (mkNode g t h hs).bind fun n =>
              let n := if len = 0 then { n with rootHash := some (rootOfStack keccak s.stack) } else n
              .ok { s with collected := (current.take len, n) :: s.collected }

/-- core/silkworm/trie/hash_builder.cpp:230-257: what happens to a new branch when a collector is set. -/
def collectBranch (keccak : Bytes → Bytes) (s : HashBuilder) (current : Bytes) (len : Nat) (hashes : List Bytes) :
    Outcome Empty HashBuilder :=
  (if 0 < len then
    (at? current (len - 1)).bind fun digit =>
      (orAt s.hashMasks (len - 1) (flag digit)).bind fun hashMasks => .ok { s with hashMasks := hashMasks }
   else .ok s).bind fun s =>
    (at? s.treeMasks len).bind fun t =>
      (at? s.hashMasks len).bind fun h =>
        if t ≠ 0 ∨ h ≠ 0 then storeNode keccak s current len hashes else .ok s

/-- core/silkworm/trie/hash_builder.cpp:225-258: close the prefix group of length `len`. -/
def closeGroup (keccak : Bytes → Bytes) (collect : Bool) (s : HashBuilder) (current : Bytes) (len : Nat) :
    Outcome Empty HashBuilder :=
  (at? s.groups len).bind fun g =>
    (at? s.hashMasks len).bind fun h =>
      (branchRef keccak s.stack g h).bind fun r =>
        let s := { s with stack := r.1 }
        if collect then collectBranch keccak s current len r.2 else .ok s

/-- core/silkworm/trie/hash_builder.cpp:268-270: drop zero masks at the back. -/
def popZeros (groups : List Nat) : List Nat := (groups.reverse.dropWhile (fun g => g == 0)).reverse

/-- core/silkworm/trie/hash_builder.cpp:172-271: one iteration of the loop of `gen_struct_step`. The second component of
the result is the new value of `current` if the loop goes on. -/
def genStructIteration (keccak : Bytes → Bytes) (collect buildExtensions : Bool) (s : HashBuilder)
    (current succeeding value : Bytes) : Outcome Empty (HashBuilder × Option Bytes) :=
  let precedingExists : Bool := s.groups ≠ []
  let precedingLen := if s.groups = [] then 0 else s.groups.length - 1
  let commonPrefixLen := prefixLength succeeding current
  let len := max precedingLen commonPrefixLen
  -- assert(len < current.length())
  (at? current len).bind fun extraDigit =>
    (orAt (if s.groups.length ≤ len then resize s.groups (len + 1) else s.groups) len (flag extraDigit)).bind fun groups =>
      let s := { s with groups := groups }
      let s := if s.treeMasks.length < current.length then
          { s with treeMasks := resize s.treeMasks current.length, hashMasks := resize s.hashMasks current.length }
        else s
      let inBranch : Bool := succeeding ≠ [] || precedingExists
      let from_ := if inBranch then len + 1 else len
      (pushShortNode keccak collect buildExtensions s current value from_).bind fun s =>
        if precedingLen ≤ commonPrefixLen ∧ succeeding ≠ [] then .ok (s, none)
        else
          (if inBranch then closeGroup keccak collect s current len else .ok s).bind fun s =>
            let s := { s with
              groups := resize s.groups len
              treeMasks := resize s.treeMasks len
              hashMasks := resize s.hashMasks len }
            if precedingLen = 0 then .ok (s, none)
            else .ok ({ s with groups := popZeros s.groups }, some (current.take precedingLen))

/-- core/silkworm/trie/hash_builder.cpp:171-272 (`gen_struct_step`): the loop. `current` gets shorter in each iteration,
so that its length plus one is enough fuel. -/
def genStructLoop (keccak : Bytes → Bytes) (collect : Bool) :
    Nat → Bool → HashBuilder → Bytes → Bytes → Bytes → Outcome Empty HashBuilder
  | 0, _, _, _, _, _ => .ub
  | fuel + 1, buildExtensions, s, current, succeeding, value =>
    (genStructIteration keccak collect buildExtensions s current succeeding value).bind fun r =>
      match r.2 with
      | none => .ok r.1
      | some next => genStructLoop keccak collect fuel true r.1 next succeeding value

/-- core/silkworm/trie/hash_builder.cpp:171-272 (`gen_struct_step`). -/
def genStructStep (keccak : Bytes → Bytes) (collect : Bool) (s : HashBuilder) (current succeeding value : Bytes) :
    Outcome Empty HashBuilder :=
  genStructLoop keccak collect (current.length + 1) false s current succeeding value

/-- core/silkworm/trie/hash_builder.cpp:131-139 (`add`). -/
def add (keccak : Bytes → Bytes) (collect : Bool) (s : HashBuilder) (packed value : Bytes) :
    Outcome Empty HashBuilder :=
  let key := unpackNibbles packed
  if ¬ Db.lexLt s.key key then .ub
  else
    (if s.key ≠ [] then genStructStep keccak collect s s.key key s.value else .ok s).bind fun s =>
      .ok { s with key := key, value := value }

/-- core/silkworm/trie/hash_builder.cpp:141-147 (`finalize`). -/
def finalize (keccak : Bytes → Bytes) (collect : Bool) (s : HashBuilder) : Outcome Empty HashBuilder :=
  if s.key ≠ [] then
    (genStructStep keccak collect s s.key [] s.value).bind fun s => .ok { s with key := [], value := [] }
  else .ok s

/-- core/silkworm/trie/hash_builder.cpp:149-168 (`root_hash`). -/
def rootHash (keccak : Bytes → Bytes) (collect : Bool) (s : HashBuilder) : Outcome Empty (Bytes × HashBuilder) :=
  (finalize keccak collect s).bind fun s => .ok (rootOfStack keccak s.stack, s)

/-- A sequence of calls of `add`. -/
def addAll (keccak : Bytes → Bytes) (collect : Bool) (s : HashBuilder) : List (Bytes × Bytes) → Outcome Empty HashBuilder
  | [] => .ok s
  | e :: es => (add keccak collect s e.1 e.2).bind fun s => addAll keccak collect s es

/-- `add` all entries to a new builder and take the root. -/
def buildRoot (keccak : Bytes → Bytes) (collect : Bool) (entries : List (Bytes × Bytes)) :
    Outcome Empty (Bytes × HashBuilder) :=
  (addAll keccak collect {} entries).bind fun s => rootHash keccak collect s

/-- core/silkworm/trie/vector_root.hpp:27-35 (`adjust_index_for_rlp`). -/
def adjustIndexForRlp (i len : Nat) : Nat :=
  if 0x7f < i then i
  else if i = 0x7f ∨ i + 1 = len then 0
  else i + 1

/-- core/silkworm/trie/vector_root.hpp:46-54: the entries passed to the builder, in order. -/
def vectorEntries {α : Type} (encode : α → Bytes) (v : List α) : Outcome Empty (List (Bytes × Bytes)) :=
  (List.range v.length).foldr (fun j acc =>
    (at? v (adjustIndexForRlp j v.length)).bind fun x =>
      acc.bind fun es => .ok ((encodeUint 8 (adjustIndexForRlp j v.length), encode x) :: es)) (.ok [])

/-- core/silkworm/trie/vector_root.hpp:37-57 (`root_hash`). -/
def vectorRoot {α : Type} (keccak : Bytes → Bytes) (encode : α → Bytes) (v : List α) : Outcome Empty Bytes :=
  (vectorEntries encode v).bind fun es => (buildRoot keccak false es).bind fun r => .ok r.1

end Silkworm.Trie
