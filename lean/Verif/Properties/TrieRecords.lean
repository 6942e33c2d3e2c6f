import Verif.Trie.CollectRoot
import Verif.Trie.RecordSize
import Verif.Properties.Trie

/-!
# Properties C100 and C101: the records of trie nodes that the hash builder collects
-/

namespace Silkworm.Properties

open Silkworm Silkworm.Rlp Silkworm.Trie
open Silkworm.Spec (nibbles trieRoot Increasing PrefixFree Occurs BranchAt PairBelow Recorded IsRecord BranchesHashed below
  nodeRlp)

/-- The entries with the nibbles of their keys as paths. -/
def pathsOf (entries : List (Bytes × Bytes)) : List (Bytes × Bytes) := entries.map (fun e => (nibbles e.1, e.2))

/-! ## C100 -/

/-- C100: what the collector gets is exactly one record for each branch node with a branch node under itself or under a
branch node below it, and each record says what the comment in db_trie.hpp describes: the children, the children with
records, the children that are branch nodes, their hashes, and at the root the root hash. -/
theorem c100_collected_records (keccak : Bytes → Bytes) (hk : ∀ x, (keccak x).length = 32) (entries : List (Bytes × Bytes))
    (h1 : Increasing entries) (h2 : PrefixFree entries) (h3 : ∀ e ∈ entries, e.1 ≠ [])
    (hz : ∀ e ∈ entries, 2 * e.1.length + e.2.length < 2 ^ 63) (root : Bytes) (s : HashBuilder)
    (h : buildRoot keccak true entries = .ok (root, s)) :
    (s.collected.map (·.1)).Nodup ∧
    (∀ p n, (p, n) ∈ s.collected → Recorded (pathsOf entries) p ∧
      IsRecord keccak (pathsOf entries) p n.stateMask n.treeMask n.hashMask n.hashes n.rootHash) ∧
    (∀ p, Recorded (pathsOf entries) p → ∃ n, (p, n) ∈ s.collected) := by
  obtain ⟨_, hc⟩ := (buildRoot_collect hk hz h1 h2 h3).2 root s h
  exact ⟨hc.keys, fun p n hm => (hc.sound p n hm).2, fun p hr => hc.complete p trivial hr⟩

/-- C100: there is only one record with the right contents. -/
theorem c100_record_unique (keccak : Bytes → Bytes) (T : List (Bytes × Bytes)) (p : Bytes) (m n : Node)
    (hm : IsRecord keccak T p m.stateMask m.treeMask m.hashMask m.hashes m.rootHash)
    (hn : IsRecord keccak T p n.stateMask n.treeMask n.hashMask n.hashes n.rootHash) : m = n := by
  have bits : ∀ {a b : Nat}, (∀ i, a.testBit i = true ↔ b.testBit i = true) → a = b := by
    intro a b h
    apply Nat.eq_of_testBit_eq
    intro i
    rw [Bool.eq_iff_iff]
    exact h i
  have e1 := bits (fun i => (hm.state i).trans (hn.state i).symm)
  have e2 := bits (fun i => (hm.tree i).trans (hn.tree i).symm)
  have e3 := bits (fun i => (hm.hash i).trans (hn.hash i).symm)
  have e4 := hm.hashes
  rw [e3, ← hn.hashes] at e4
  have e5 := hm.root.trans hn.root.symm
  obtain ⟨a, b, c, d, e⟩ := m
  obtain ⟨a', b', c', d', e'⟩ := n
  simp only at e1 e2 e3 e4 e5
  subst e1 e2 e3 e4 e5
  rfl

/-- C100: a record keeps the invariants that db_trie.hpp and hash_builder.hpp list: its masks have 16 bits, the tree and the
hash mask are subsets of the state mask, there is one hash for each bit of the hash mask, the state mask is not zero, and
not both of the other masks are. -/
theorem c100_record_invariants (keccak : Bytes → Bytes) (hk : ∀ x, (keccak x).length = 32) (T : List (Bytes × Bytes))
    (hT : ∀ e ∈ T, ∀ x ∈ e.1, x.toNat < 16) (p : Bytes) (n : Node) (hr : Recorded T p)
    (h : IsRecord keccak T p n.stateMask n.treeMask n.hashMask n.hashes n.rootHash) :
    ValidNode n ∧ n.stateMask ≠ 0 ∧ (n.treeMask ≠ 0 ∨ n.hashMask ≠ 0) := by
  have hocc : ∀ i q, p ++ [UInt8.ofNat i] <+: q → BranchAt T q → Occurs T (p ++ [UInt8.ofNat i]) := by
    rintro i q hq ⟨a, b, _, ⟨e, he, h1⟩, _⟩
    exact ⟨e, he, hq.trans ((List.prefix_append q [a]).trans h1)⟩
  have digit : ∀ (d : UInt8) (q : Bytes), p ++ [d] <+: q → Occurs T q → d.toNat < 16 := by
    rintro d q hq ⟨e, he, h1⟩
    apply hT e he
    exact (hq.trans h1).sublist.subset (by simp)
  refine ⟨⟨?_, ?_, ?_, ?_, ?_, ?_⟩, ?_, ?_⟩
  · apply Nat.lt_pow_two_of_testBit
    intro i hi
    by_contra h0
    have := ((h.state i).mp (by simpa using h0)).1
    omega
  · intro i hi
    obtain ⟨h1, q, h2, h3⟩ := (h.tree i).mp hi
    exact (h.state i).mpr ⟨h1, hocc i q h2 h3.1⟩
  · intro i hi
    obtain ⟨h1, h2⟩ := (h.hash i).mp hi
    exact (h.state i).mpr ⟨h1, hocc i _ (List.prefix_refl _) h2⟩
  · rw [h.hashes, List.length_map]
  · intro x hx
    rw [h.hashes] at hx
    obtain ⟨i, _, rfl⟩ := List.mem_map.mp hx
    exact hk _
  · intro x hx
    have := h.root
    rw [hx] at this
    split at this
    · cases this; exact hk _
    · cases this
  · intro h0
    obtain ⟨⟨a, b, _, ha, _⟩, _⟩ := hr
    have := (h.state a.toNat).mpr ⟨digit a _ (List.prefix_refl _) ha, by rw [uint8_ofNat_toNat_id]; exact ha⟩
    rw [h0, Nat.zero_testBit] at this
    cases this
  · obtain ⟨hb, q, d, hq, h1, h2⟩ := hr
    have hoccq : Occurs T (q ++ [d]) := by
      obtain ⟨a, _, _, ⟨e, he, h3⟩, _⟩ := h2
      exact ⟨e, he, (List.prefix_append _ [a]).trans h3⟩
    obtain ⟨r, rfl⟩ := hq
    cases r with
    | nil =>
      rw [List.append_nil] at *
      refine Or.inr fun h0 => ?_
      have := (h.hash d.toNat).mpr ⟨digit d _ (List.prefix_refl _) hoccq, by rw [uint8_ofNat_toNat_id]; exact h2⟩
      rw [h0, Nat.zero_testBit] at this
      cases this
    | cons x r =>
      refine Or.inl fun h0 => ?_
      have hpre : p ++ [x] <+: p ++ x :: r := by simp
      have := (h.tree x.toNat).mpr ⟨digit x _ (hpre.trans (List.prefix_append _ [d])) hoccq, p ++ x :: r,
        by rw [uint8_ofNat_toNat_id]; exact hpre, h1, p ++ x :: r, d, List.prefix_refl _, h1, h2⟩
      rw [h0, Nat.zero_testBit] at this
      cases this

/-- C100: every branch node above a record has a record itself, and its bit of the tree mask for the way to that record is
set. -/
theorem c100_ancestors_of_records (keccak : Bytes → Bytes) (T : List (Bytes × Bytes)) (hT : ∀ e ∈ T, ∀ x ∈ e.1, x.toNat < 16)
    (p r : Bytes) (d : UInt8) (hr : Recorded T (p ++ d :: r)) (hb : BranchAt T p) (n : Node)
    (h : IsRecord keccak T p n.stateMask n.treeMask n.hashMask n.hashes n.rootHash) :
    Recorded T p ∧ n.treeMask.testBit d.toNat = true := by
  have hpre : p ++ [d] <+: p ++ d :: r := by simp
  obtain ⟨hb', q, x, hq, h1, h2⟩ := hr
  refine ⟨⟨hb, q, x, (List.prefix_append _ _).trans hq, h1, h2⟩, ?_⟩
  obtain ⟨a, b, hab, ⟨e, he, h3⟩, h4⟩ := hb'
  refine (h.tree d.toNat).mpr ⟨hT e he d ((hpre.trans ((List.prefix_append _ [a]).trans h3)).sublist.subset (by simp)), _, ?_,
    ⟨a, b, hab, ⟨e, he, h3⟩, h4⟩, q, x, hq, h1, h2⟩
  rw [uint8_ofNat_toNat_id]
  exact hpre

/-- Keys as in the test "Account trie around extension node", with short values. -/
def recordEntries : List (Bytes × Bytes) :=
  [([0x30, 0xaf, 0x56, 0x10], List.replicate 32 1), ([0x30, 0xaf, 0x56, 0x90], List.replicate 32 2),
   ([0x30, 0xaf, 0x65, 0x00], List.replicate 32 3), ([0x30, 0xaf, 0x6f, 0x00], List.replicate 32 4),
   ([0x30, 0xaf, 0x8f, 0x00], List.replicate 32 5), ([0x31, 0x00, 0x00, 0x00], List.replicate 32 6)]

/-- Two records, as in that test: at `3` and, below an extension node, at `30af`. -/
example : (match buildRoot toyHash true recordEntries with
    | .ok (_, s) => s.collected.map (fun e => (e.1, e.2.stateMask, e.2.treeMask, e.2.hashMask, e.2.hashes.length))
    | _ => []) = [([3], 0b11, 0b01, 0, 0), ([3, 0, 0xa, 0xf], 0b101100000, 0, 0b001000000, 1)] := by decide +kernel

/-! ## C101 -/

/-- C101: with a collector, valid keys do not make an assertion fail if and only if each branch node that is a child of a
branch node takes at least 32 bytes. Otherwise the assertion at hash_builder.cpp:244 fails, and without it the copy at line
245 reads beyond the end of the reference or copies a part of the node instead of a hash. -/
theorem c101_collector_succeeds_iff (keccak : Bytes → Bytes) (hk : ∀ x, (keccak x).length = 32)
    (entries : List (Bytes × Bytes)) (h1 : Increasing entries) (h2 : PrefixFree entries) (h3 : ∀ e ∈ entries, e.1 ≠ [])
    (hz : ∀ e ∈ entries, 2 * e.1.length + e.2.length < 2 ^ 63) (h0 : entries = [] → keccak [0x80] = kEmptyRoot) :
    (BranchesHashed keccak (pathsOf entries) → ∃ s, buildRoot keccak true entries = .ok (trieRoot keccak entries, s)) ∧
    (¬ BranchesHashed keccak (pathsOf entries) → buildRoot keccak true entries = .ub) := by
  obtain ⟨a1, a2⟩ := buildRoot_collect hk hz h1 h2 h3
  constructor
  · intro hb
    obtain ⟨r, s, h⟩ := a1 hb
    refine ⟨s, ?_⟩
    by_cases hne : entries = []
    · subst hne
      have hroot : trieRoot keccak [] = kEmptyRoot := h0 rfl
      rw [hroot]
      cases h
      rfl
    · rw [h, (buildRoot_ok hk hz hne h).1]
  · intro hb
    cases hr : buildRoot keccak true entries with
    | ok p => exact absurd (a2 p.1 p.2 hr).1 hb
    | err e => cases e
    | ub => rfl

theorem paths_free {entries : List (Bytes × Bytes)} (h : PrefixFree entries) :
    Free (pathsOf entries) ∧ ∀ e ∈ pathsOf entries, IsPath e.1 := by
  refine ⟨free_nib h, fun e he => ?_⟩
  obtain ⟨x, _, rfl⟩ := List.mem_map.mp he
  exact nibbles_path _

/-- C101: values of at least 6 bytes suffice, for instance accounts. -/
theorem c101_long_values (keccak : Bytes → Bytes) (hk : ∀ x, (keccak x).length = 32) (entries : List (Bytes × Bytes))
    (h2 : PrefixFree entries) (hv : ∀ e ∈ entries, 6 ≤ e.2.length) : BranchesHashed keccak (pathsOf entries) := by
  intro p d _ hb
  obtain ⟨f1, f2⟩ := paths_free h2
  refine branch_size hk f1 f2 hb fun e he _ => ?_
  obtain ⟨x, hx, rfl⟩ := List.mem_map.mp he
  have := hv x hx
  dsimp only
  omega

/-- C101: for keys of 32 bytes it suffices that no two of them agree in their first 27 bytes. -/
theorem c101_distinct_keys (keccak : Bytes → Bytes) (hk : ∀ x, (keccak x).length = 32) (entries : List (Bytes × Bytes))
    (h2 : PrefixFree entries) (hl : ∀ e ∈ entries, e.1.length = 32)
    (hd : entries.Pairwise (fun a b => a.1.take 27 ≠ b.1.take 27)) : BranchesHashed keccak (pathsOf entries) := by
  intro p d _ hb
  obtain ⟨f1, f2⟩ := paths_free h2
  refine branch_size hk f1 f2 hb fun e he hpe => ?_
  have hlen : (p ++ [d]).length ≤ 53 := by
    by_contra hlong
    obtain ⟨a, b, hab, ⟨x, hx, h3⟩, ⟨y, hy, h4⟩⟩ := hb
    obtain ⟨x', hx', rfl⟩ := List.mem_map.mp hx
    obtain ⟨y', hy', rfl⟩ := List.mem_map.mp hy
    have hne : x' ≠ y' := by
      rintro rfl
      have h5 := List.prefix_of_prefix_length_le h3 h4 (by simp)
      have h6 := h5.eq_of_length (by simp)
      exact hab (by simpa using h6)
    have htake : ∀ z : Bytes, p ++ [d] <+: nibbles z → nibbles (z.take 27) = (p ++ [d]).take 54 := by
      intro z hz
      have e1 : nibbles z = nibbles (z.take 27) ++ nibbles (z.drop 27) := by
        rw [← nibbles_append, List.take_append_drop]
      have hz' : 54 ≤ (nibbles z).length := Nat.le_trans (by omega) hz.length_le
      rw [nibbles_length] at hz'
      have e2 : (nibbles (z.take 27)).length = 54 := by rw [nibbles_length, List.length_take]; omega
      rw [List.prefix_iff_eq_take.mp ((List.take_prefix 54 _).trans hz), e1, List.length_take, Nat.min_eq_left (by omega),
        List.take_left' e2]
    have heq : x'.1.take 27 = y'.1.take 27 := nibbles_inj ((htake _ ((List.prefix_append _ [a]).trans h3)).trans
      (htake _ ((List.prefix_append _ [b]).trans h4)).symm)
    exact pairwise_mem (fun _ _ h => Ne.symm h) hd hx' hy' hne heq
  obtain ⟨x, hx, rfl⟩ := List.mem_map.mp he
  have h7 : (nibbles x.1).length = 64 := by rw [nibbles_length, hl x hx]
  dsimp only
  omega

/-- Keys of 32 bytes that differ early, with values of one byte: the builder with a collector returns the root. -/
example : ∃ s, buildRoot toyHash true [(0x12 :: List.replicate 31 0, [1]), (0x14 :: List.replicate 31 0, [2]),
    (0x30 :: List.replicate 31 0, [3])] = .ok (trieRoot toyHash [(0x12 :: List.replicate 31 0, [1]),
      (0x14 :: List.replicate 31 0, [2]), (0x30 :: List.replicate 31 0, [3])], s) ∧ s.collected.map (·.1) = [[]] := by
  refine ⟨(match buildRoot toyHash true [(0x12 :: List.replicate 31 0, [1]), (0x14 :: List.replicate 31 0, [2]),
    (0x30 :: List.replicate 31 0, [3])] with | .ok (_, s) => s | _ => {}), ?_⟩
  decide +kernel

/-- Three keys of 32 bytes whose common prefix is long, so that their nodes are short. -/
def smallBranchEntries : List (Bytes × Bytes) :=
  [(List.replicate 31 0xab ++ [0x00], [1]), (List.replicate 31 0xab ++ [0x01], [2]), (List.replicate 31 0xab ++ [0x10], [3])]

theorem smallBranch_valid : Increasing smallBranchEntries ∧ PrefixFree smallBranchEntries ∧
    (∀ e ∈ smallBranchEntries, e.1 ≠ []) ∧ (∀ e ∈ smallBranchEntries, e.1.length = 32) ∧
    ∀ e ∈ smallBranchEntries, 2 * e.1.length + e.2.length < 2 ^ 63 := by
  refine ⟨?_, ?_, ?_, ?_, ?_⟩
  · unfold Increasing
    refine List.Pairwise.imp (R := fun (a b : Bytes × Bytes) => Db.lexLt a.1 b.1 = true) (fun h => keyLt_iff.mpr h) ?_
    decide +kernel
  · unfold PrefixFree; decide +kernel
  · decide +kernel
  · decide +kernel
  · decide +kernel

/-- C101 does not hold for all valid keys: three keys of 32 bytes with one-byte values, for which the builder without a
collector returns the root, make an assertion fail with a collector, whatever the hash function is. -/
theorem c101_collector_total_violated : ¬ ∀ (keccak : Bytes → Bytes) (entries : List (Bytes × Bytes)),
    (∀ x, (keccak x).length = 32) → Increasing entries → PrefixFree entries → (∀ e ∈ entries, e.1.length = 32) →
    (∃ s, buildRoot keccak false entries = .ok (trieRoot keccak entries, s)) → buildRoot keccak true entries ≠ .ub := by
  intro h
  obtain ⟨h1, h2, h3, h4, h5⟩ := smallBranch_valid
  refine h toyHash smallBranchEntries toyHash_length h1 h2 h4
    (c34_hash_builder_root toyHash toyHash_length _ h1 h2 h3 h5 (fun h0 => by cases h0)) ?_
  decide +kernel

/-- The same for every hash function. -/
theorem c101_small_branches_fail (keccak : Bytes → Bytes) (hk : ∀ x, (keccak x).length = 32) :
    buildRoot keccak true smallBranchEntries = .ub := by
  obtain ⟨h1, h2, h3, _, h5⟩ := smallBranch_valid
  refine (c101_collector_succeeds_iff keccak hk _ h1 h2 h3 h5 (fun h0 => by cases h0)).2 fun hb => ?_
  have e : pathsOf smallBranchEntries = [((List.replicate 31 [0xa, 0xb]).flatten ++ [0, 0], [1]),
      ((List.replicate 31 [0xa, 0xb]).flatten ++ [0, 1], [2]), ((List.replicate 31 [0xa, 0xb]).flatten ++ [1, 0], [3])] := by
    decide +kernel
  have hpre : ∀ a b : Bytes, (List.replicate 31 ([0xa, 0xb] : Bytes)).flatten ++ a <+:
      (List.replicate 31 ([0xa, 0xb] : Bytes)).flatten ++ (a ++ b) := fun a b => by
    rw [← List.append_assoc]; exact List.prefix_append _ _
  have := hb (List.replicate 31 [0xa, 0xb]).flatten 0
    ⟨0, 1, by decide, ⟨_, by rw [e]; exact List.mem_cons_self .., hpre [0] [0]⟩,
      ⟨_, by rw [e]; exact List.mem_cons_of_mem _ (List.mem_cons_of_mem _ (List.mem_cons_self ..)), hpre [1] [0]⟩⟩
    ⟨0, 1, by decide, ⟨_, by rw [e]; exact List.mem_cons_self .., by rw [List.append_assoc]; exact hpre [0, 0] []⟩,
      ⟨_, by rw [e]; exact List.mem_cons_of_mem _ (List.mem_cons_self ..), by rw [List.append_assoc]; exact hpre [0, 1] []⟩⟩
  have e2 : below (pathsOf smallBranchEntries) ((List.replicate 31 [0xa, 0xb]).flatten ++ [0]) = [([0], [1]), ([1], [2])] := by
    decide +kernel
  rw [e2] at this
  have e3 : (nodeRlp keccak [([0], [1]), ([1], [2])]).length = 22 := rfl
  omega

end Silkworm.Properties
