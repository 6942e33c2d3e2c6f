import Verif.Trie.RecordLemmas

/-!
# The hash builder with a collector

What the masks hold while keys are added, and what has been collected.
-/

namespace Silkworm.Trie

open Silkworm.Rlp Silkworm.Spec

/-! ## Masks by level -/

/-- The mask at a level, zero beyond the end. -/
def lvl (l : List Nat) (i : Nat) : Nat := l[i]?.getD 0

theorem lvl_resize (l : List Nat) (n i : Nat) : lvl (resize l n) i = if i < n then lvl l i else 0 := by
  unfold lvl resize
  by_cases hi : i < n
  · rw [if_pos hi]
    by_cases hl : i < l.length
    · rw [List.getElem?_append_left (by rw [List.length_take]; omega), List.getElem?_take, if_pos hi]
    · rw [List.getElem?_append_right (by rw [List.length_take]; omega), List.getElem?_replicate]
      split
      · rw [List.getElem?_eq_none (by omega)]; rfl
      · rw [List.getElem?_eq_none (by omega)]
  · rw [if_neg hi, List.getElem?_eq_none]
    · rfl
    · rw [List.length_append, List.length_take, List.length_replicate]; omega

theorem lvl_set {l : List Nat} {i : Nat} (h : i < l.length) (v j : Nat) :
    lvl (l.set i v) j = if j = i then v else lvl l j := by
  unfold lvl
  by_cases hj : j = i
  · subst hj
    rw [if_pos rfl, List.getElem?_set_self h]
    rfl
  · rw [if_neg hj, List.getElem?_set_ne (fun h => hj h.symm)]

theorem at?_lvl {l : List Nat} {i : Nat} (h : i < l.length) : at? l i = .ok (lvl l i) := by
  rw [at?_ok]
  unfold lvl
  rw [List.getElem?_eq_getElem h]
  rfl

theorem orAt_lvl {l : List Nat} {i : Nat} (h : i < l.length) (b : Nat) : orAt l i b = .ok (l.set i (lvl l i ||| b)) := by
  unfold orAt
  rw [at?_lvl h]
  rfl

theorem clearAt_lvl {l : List Nat} {i : Nat} (h : i < l.length) (b : Nat) :
    clearAt l i b = .ok (l.set i (lvl l i &&& (2 ^ 16 - 1 - b))) := by
  unfold clearAt
  rw [at?_lvl h]
  rfl

theorem testBit_or_flag {m : Nat} {x : UInt8} (d : Nat) :
    (m ||| 2 ^ x.toNat).testBit d = true ↔ m.testBit d = true ∨ d = x.toNat := by
  rw [Nat.testBit_or, Nat.testBit_two_pow, Bool.or_eq_true, decide_eq_true_iff]
  constructor
  · rintro (h | h)
    · exact Or.inl h
    · exact Or.inr h.symm
  · rintro (h | h)
    · exact Or.inl h
    · exact Or.inr h.symm

theorem testBit_clear_flag {m : Nat} {x : UInt8} (hx : x.toNat < 16) (d : Nat) :
    (m &&& (2 ^ 16 - 1 - 2 ^ x.toNat)).testBit d = true ↔ m.testBit d = true ∧ d < 16 ∧ d ≠ x.toNat := by
  have h16 : 2 ^ x.toNat < 2 ^ 16 := Nat.pow_lt_pow_right (by omega) hx
  rw [show 2 ^ 16 - 1 - 2 ^ x.toNat = 2 ^ 16 - (2 ^ x.toNat + 1) by omega, Nat.testBit_and,
    Nat.testBit_two_pow_sub_succ h16, Nat.testBit_two_pow, Bool.and_eq_true, Bool.and_eq_true, decide_eq_true_iff,
    Bool.not_eq_true', decide_eq_false_iff_not]
  constructor
  · rintro ⟨h1, h2, h3⟩; exact ⟨h1, h2, fun h => h3 h.symm⟩
  · rintro ⟨h1, h2, h3⟩; exact ⟨h1, h2, fun h => h3 h.symm⟩

theorem ne_zero_iff_testBit {m : Nat} : m ≠ 0 ↔ ∃ d, m.testBit d = true := by
  constructor
  · intro h
    by_contra h0
    refine h (Nat.eq_of_testBit_eq fun i => ?_)
    rw [Nat.zero_testBit]
    by_contra h1
    exact h0 ⟨i, by simpa using h1⟩
  · rintro ⟨d, h⟩ rfl
    simp at h

/-! ## The state -/

/-- The record of a node. -/
def Rec (keccak : Bytes → Bytes) (T : Ents) (p : Bytes) (n : Node) : Prop :=
  IsRecord keccak T p n.stateMask n.treeMask n.hashMask n.hashes n.rootHash

/-- The branch nodes that are children of the one at `p` are referred to by hash. -/
def Big (keccak : Bytes → Bytes) (T : Ents) (p : Bytes) : Prop :=
  ∀ d : UInt8, BranchAt T (p ++ [d]) → 32 ≤ (nodeRlp keccak (below T (p ++ [d]))).length

/-- The bits of a mask at each level of the pending key `c`: those below its nibble where `P` holds, and at level `top`
also its nibble. -/
def Bits (P : Bytes → Prop) (c : Bytes) (top : Option Nat) (l : List Nat) : Prop :=
  ∀ i d, (lvl l i).testBit d = true ↔ ∃ x, c[i]? = some x ∧ (d < x.toNat ∨ (d = x.toNat ∧ top = some i)) ∧
    P (c.take i ++ [UInt8.ofNat d])

/-- What has been collected: the records at the prefixes for which `Cl` holds. -/
structure Coll (keccak : Bytes → Bytes) (T : Ents) (Cl : Bytes → Prop) (l : List (Bytes × Node)) : Prop where
  keys : (l.map Prod.fst).Nodup
  sound : ∀ p n, (p, n) ∈ l → Cl p ∧ Recorded T p ∧ Rec keccak T p n
  complete : ∀ p, Cl p → Recorded T p → ∃ n, (p, n) ∈ l
  big : ∀ p, Cl p → Recorded T p → Big keccak T p

/-- The state in the loop of `gen_struct_step`. -/
structure CInv (keccak : Bytes → Bytes) (ext : Bool) (s : HashBuilder) (T : Ents) (c : Bytes) : Prop where
  same : s.hashMasks.length = s.treeMasks.length
  exact : ext = true → s.treeMasks.length = c.length
  hash : Bits (BranchAt T) c (some (c.length - 1)) s.hashMasks
  tree : Bits (PairBelow T) c (some (c.length - 1)) s.treeMasks
  coll : Coll keccak T (fun p => ¬ p <+: c ∨ (ext = true ∧ p = c)) s.collected

/-- The state when `gen_struct_step` returns. -/
structure COut (keccak : Bytes → Bytes) (s : HashBuilder) (T : Ents) (q : Bytes) : Prop where
  same : s.hashMasks.length = s.treeMasks.length
  hash : q ≠ [] → Bits (BranchAt T) q none s.hashMasks
  tree : q ≠ [] → Bits (PairBelow T) q none s.treeMasks
  coll : Coll keccak T (fun p => ¬ p <+: q ∨ q = []) s.collected

theorem Coll.congr {keccak : Bytes → Bytes} {T : Ents} {A B : Bytes → Prop} {l : List (Bytes × Node)}
    (h : Coll keccak T A l) (hAB : ∀ p, Recorded T p → (A p ↔ B p)) : Coll keccak T B l := by
  refine ⟨h.keys, fun p n hm => ?_, fun p hp hr => h.complete p ((hAB p hr).mpr hp) hr,
    fun p hp hr => h.big p ((hAB p hr).mpr hp) hr⟩
  obtain ⟨h1, h2, h3⟩ := h.sound p n hm
  exact ⟨(hAB p h2).mp h1, h2, h3⟩

theorem take_succ_of {c : Bytes} {i : Nat} {x : UInt8} (h : c[i]? = some x) : c.take i ++ [x] = c.take (i + 1) := by
  rw [List.take_add_one, h]
  rfl

/-! ## Facts about the pending key -/

section
variable {K J : Ents} {c : Bytes} {n : Nat}

/-- Nothing is to the right of the pending key. -/
theorem not_occurs_right (hb : AllBefore K c) {i : Nat} {x d : UInt8} (hx : c[i]? = some x) (hd : x < d) :
    ¬ Occurs (K ++ under c J) (c.take i ++ [d]) := by
  rw [occurs_append]
  rintro (⟨e, he, h⟩ | h)
  · exact before_larger (hb e he) hx hd h
  · rw [occurs_under] at h
    have hi : i < c.length := (List.getElem?_eq_some_iff.mp hx).1
    have key : c.take i ++ [d] <+: c ++ [] ∨ c <+: c.take i ++ [d] := by
      rcases h with ⟨r, h, _⟩ | ⟨h, _⟩
      · exact Or.inr ⟨r, h.symm⟩
      · left; rw [List.append_nil]; exact h
    have hl : (c.take i ++ [d]).length ≤ c.length := by simp; omega
    have : c.take i ++ [d] <+: c := by
      rcases key with h | h
      · rwa [List.append_nil] at h
      · exact ⟨[], by rw [List.append_nil]; exact (h.eq_of_length_le hl).symm⟩
    have h2 : c[i]? = some d := by
      obtain ⟨r, hr⟩ := this
      rw [← hr, List.append_assoc, List.getElem?_append_right (by rw [List.length_take]; omega)]
      rw [List.length_take, Nat.min_eq_left (by omega), Nat.sub_self]
      rfl
    rw [hx] at h2
    cases h2
    rw [UInt8.lt_iff_toNat_lt] at hd
    omega

/-- Below the groups there are no branch nodes to the left of the pending key. -/
theorem not_occurs_left (hg : ¬ Occurs K (c.take n)) {i : Nat} {x d : UInt8} (hi : n ≤ i) (hx : c[i]? = some x)
    (hd : d ≠ x) : ¬ Occurs (K ++ under c J) (c.take i ++ [d]) := by
  have hic : i < c.length := (List.getElem?_eq_some_iff.mp hx).1
  rw [occurs_append]
  rintro (h | h)
  · refine hg (occurs_shorter h ?_)
    have : c.take n <+: c.take i := by
      rw [List.prefix_take_iff]
      exact ⟨List.take_prefix _ _, by rw [List.length_take]; omega⟩
    exact this.trans (List.prefix_append _ _)
  · rw [occurs_under] at h
    have hl : (c.take i ++ [d]).length ≤ c.length := by simp; omega
    have : c.take i ++ [d] <+: c := by
      rcases h with ⟨r, h, _⟩ | ⟨h, _⟩
      · have h1 : c <+: c.take i ++ [d] := ⟨r, h.symm⟩
        exact ⟨[], by rw [List.append_nil]; exact (h1.eq_of_length_le hl).symm⟩
      · exact h
    have h2 : c[i]? = some d := by
      obtain ⟨r, hr⟩ := this
      rw [← hr, List.append_assoc, List.getElem?_append_right (by rw [List.length_take]; omega)]
      rw [List.length_take, Nat.min_eq_left (by omega), Nat.sub_self]
      rfl
    rw [hx] at h2
    exact hd (Option.some.inj h2).symm

/-- Between the groups and the end of the pending key there is no branch node. -/
theorem not_branch_between (hg : ¬ Occurs K (c.take n)) {p : Bytes} (hp : p <+: c) (hn : n ≤ p.length) (hne : p ≠ c) :
    ¬ BranchAt (K ++ under c J) p := by
  have h1 : c.take n <+: p := by
    rw [List.prefix_iff_eq_take.mp hp]
    rw [List.prefix_take_iff]
    refine ⟨List.take_prefix _ _, by rw [List.length_take]; omega⟩
  rw [branchAt_pending hg h1]
  rintro ⟨r, rfl, _⟩
  have := hp.length_le
  rw [List.length_append] at this
  have hr : r = [] := List.length_eq_zero_iff.mp (by omega)
  subst hr
  exact hne (List.append_nil _)

/-- A pair of branch nodes below a part of the pending key past the groups is one of the pending subtree. -/
theorem pairBelow_at (hg : ¬ Occurs K (c.take n)) {p : Bytes} (hp : p <+: c) (hn : n ≤ p.length) :
    PairBelow (K ++ under c J) p ↔ PairBelow (K ++ under c J) c := by
  have h1 : c.take n <+: p := by
    rw [List.prefix_iff_eq_take.mp hp]
    rw [List.prefix_take_iff]
    refine ⟨List.take_prefix _ _, by rw [List.length_take]; omega⟩
  constructor
  · rintro ⟨q, d, h2, h3, h4⟩
    refine ⟨q, d, ?_, h3, h4⟩
    obtain ⟨r, rfl, _⟩ := (branchAt_pending hg (h1.trans h2)).mp h3
    exact List.prefix_append _ _
  · rintro ⟨q, d, h2, h3, h4⟩
    exact ⟨q, d, hp.trans h2, h3, h4⟩

end

/-! ## The short node -/

theorem take_prefix_of_get {c : Bytes} {i : Nat} {x : UInt8} (h : c[i]? = some x) : c.take i ++ [x] <+: c := by
  rw [take_succ_of h]; exact List.take_prefix _ _

theorem length_of_get {c : Bytes} {i : Nat} {x : UInt8} (h : c[i]? = some x) : (c.take i ++ [x]).length = i + 1 := by
  have := (List.getElem?_eq_some_iff.mp h).1
  simp; omega

theorem uint8_eq_of_toNat {d : Nat} {x : UInt8} (h : d = x.toNat) : UInt8.ofNat d = x := by
  subst h; simp

theorem ofNat_ne_of_lt {d : Nat} {x : UInt8} (h : d < x.toNat) : UInt8.ofNat d ≠ x := by
  have := UInt8.toNat_lt x
  intro h0
  have := (ofNat_eq (by omega)).mp h0
  omega

/-- Without branch nodes in the pending subtree it does not matter at which level the pending nibble counts. -/
theorem bits_leaf {P : Bytes → Prop} {c : Bytes} {l : List Nat} {n : Nat} (h : Bits P c (some (c.length - 1)) l)
    (hP : ∀ p, p <+: c → n + 1 ≤ p.length → ¬ P p) (hn : n < c.length) : Bits P c (some n) l := by
  intro i d
  rw [h i d]
  have key : ∀ x, c[i]? = some x → d = x.toNat → n ≤ i → ¬ P (c.take i ++ [UInt8.ofNat d]) := by
    intro x hx hd hi
    rw [uint8_eq_of_toNat hd]
    exact hP _ (take_prefix_of_get hx) (by rw [length_of_get hx]; omega)
  constructor
  · rintro ⟨x, hx, hd | ⟨hd, ht⟩, hp⟩
    · exact ⟨x, hx, Or.inl hd, hp⟩
    · have := Option.some.inj ht
      exact absurd hp (key x hx hd (by omega))
  · rintro ⟨x, hx, hd | ⟨hd, ht⟩, hp⟩
    · exact ⟨x, hx, Or.inl hd, hp⟩
    · have := Option.some.inj ht
      exact absurd hp (key x hx hd (by omega))

theorem bits_congr {P : Bytes → Prop} {c : Bytes} {top : Option Nat} {l m : List Nat} (h : Bits P c top l)
    (he : ∀ i, lvl m i = lvl l i) : Bits P c top m := by
  intro i d
  rw [he i]
  exact h i d

set_option maxHeartbeats 1000000 in
theorem push_collect {keccak : Bytes → Bytes} {ext : Bool} {s s1 : HashBuilder} {K J : Ents} {c value : Bytes} {n : Nat}
    (hi : Inv keccak ext s K J c value) (hc : CInv keccak ext s (K ++ under c J) c)
    (hg : ¬ Occurs K (c.take (n + 1))) (hn : n < c.length) (hst : s1.stack = s.stack)
    (hcol : s1.collected = s.collected) (hlen : s1.hashMasks.length = s1.treeMasks.length)
    (hge : c.length ≤ s1.treeMasks.length) (hex : ext = true → s1.treeMasks.length = c.length)
    (hh : ∀ i, lvl s1.hashMasks i = lvl s.hashMasks i) (ht : ∀ i, lvl s1.treeMasks i = lvl s.treeMasks i) :
    ∃ s2, pushShortNode keccak true ext s1 c value (n + 1) = .ok s2 ∧ s2.collected = s.collected ∧
      s2.hashMasks.length = s2.treeMasks.length ∧ n < s2.treeMasks.length ∧
      Bits (BranchAt (K ++ under c J)) c (some n) s2.hashMasks ∧
      Bits (PairBelow (K ++ under c J)) c (some n) s2.treeMasks := by
  have bh := bits_congr hc.hash hh
  have bt := bits_congr hc.tree ht
  unfold pushShortNode
  cases ext with
  | false =>
    simp only [Bool.false_eq_true, not_false_eq_true, if_true]
    have hJ := (hi.leaf rfl).1
    have hno : ∀ r, ¬ BranchAt J r := by
      rw [hJ]; exact fun r => branchAt_single
    have hbr : ∀ p, p <+: c → n + 1 ≤ p.length → ¬ BranchAt (K ++ under c J) p := by
      intro p hp hl
      by_cases h0 : p = c
      · subst h0
        rw [branchAt_pending hg (List.take_prefix _ _)]
        rintro ⟨r, _, h⟩
        exact hno r h
      · exact not_branch_between hg hp hl h0
    refine ⟨_, rfl, hcol, hlen, by simp only; omega, bits_leaf bh hbr hn, bits_leaf bt ?_ hn⟩
    intro p hp hl h
    rw [pairBelow_at hg hp hl] at h
    obtain ⟨q, d, h1, h2, _⟩ := h
    obtain ⟨r, _, h3⟩ := (branchAt_pending hg ((List.take_prefix _ _).trans h1)).mp h2
    exact hno r h3
  | true =>
    simp only [not_true_eq_false, if_false]
    by_cases hsk : c.drop (n + 1) = []
    · simp only [hsk, ne_eq, not_true_eq_false, if_false]
      have hl : c.length - 1 = n := by
        have := congrArg List.length hsk
        simp at this
        omega
      rw [hl] at bh bt
      exact ⟨_, rfl, hcol, hlen, by omega, bh, bt⟩
    · have hl : n + 1 < c.length := by
        by_contra h0
        exact hsk (List.drop_eq_nil_of_le (by omega))
      simp only [hsk, ne_eq, not_false_eq_true, if_true, true_and, Nat.zero_lt_succ]
      obtain ⟨x, hx⟩ : ∃ x, c[n]? = some x := ⟨_, List.getElem?_eq_getElem hn⟩
      obtain ⟨y, hy⟩ : ∃ y, c[c.length - 1]? = some y := ⟨_, List.getElem?_eq_getElem (by omega)⟩
      have hx16 : x.toNat < 16 := hi.path x (List.mem_of_getElem? hx)
      have hlh : n < s1.hashMasks.length := by omega
      have hlt : n < s1.treeMasks.length := by omega
      -- the tree mask at the end of the key
      have htop : lvl s1.treeMasks (c.length - 1) ≠ 0 ↔ PairBelow (K ++ under c J) c := by
        rw [ne_zero_iff_testBit]
        have hcy : c.take (c.length - 1) ++ [y] = c := by
          rw [take_succ_of hy]
          exact List.take_of_length_le (by omega)
        constructor
        · rintro ⟨d, h⟩
          obtain ⟨z, hz, hd | ⟨hd, _⟩, hp⟩ := (bt _ d).mp h
          · exact absurd (pairBelow_occurs hp) (not_occurs_left hg (by omega) hz (ofNat_ne_of_lt hd))
          · rw [hz] at hy
            cases hy
            rw [uint8_eq_of_toNat hd, hcy] at hp
            exact hp
        · intro h
          exact ⟨y.toNat, (bt _ _).mpr ⟨y, hy, Or.inr ⟨rfl, rfl⟩, by rw [uint8_eq_of_toNat rfl, hcy]; exact h⟩⟩
      -- the two masks afterwards
      have hne : c.take (n + 1) ≠ c := by
        intro h0
        have := congrArg List.length h0
        rw [List.length_take] at this
        omega
      have hbn : ¬ BranchAt (K ++ under c J) (c.take n ++ [x]) := by
        rw [take_succ_of hx]
        exact not_branch_between hg (List.take_prefix _ _) (by rw [List.length_take]; omega) hne
      have newHash : Bits (BranchAt (K ++ under c J)) c (some n)
          (resize (s1.hashMasks.set n (lvl s1.hashMasks n &&& (2 ^ 16 - 1 - flag x))) (n + 1)) := by
        intro i d
        rw [lvl_resize, lvl_set hlh, flag_eq hx16]
        by_cases hin : i < n + 1
        · rw [if_pos hin]
          by_cases hie : i = n
          · subst hie
            rw [if_pos rfl, testBit_clear_flag hx16, bh i d]
            constructor
            · rintro ⟨⟨z, hz, hd | ⟨hd, h0⟩, hp⟩, _, _⟩
              · exact ⟨z, hz, Or.inl hd, hp⟩
              · have := Option.some.inj h0
                omega
            · rintro ⟨z, hz, hd | ⟨hd, h0⟩, hp⟩
              · rw [hx] at hz
                cases hz
                exact ⟨⟨x, hx, Or.inl hd, hp⟩, by omega, by omega⟩
              · rw [hx] at hz
                cases hz
                rw [uint8_eq_of_toNat hd] at hp
                exact absurd hp hbn
          · rw [if_neg hie, bh i d]
            constructor
            · rintro ⟨z, hz, hd | ⟨hd, h0⟩, hp⟩
              · exact ⟨z, hz, Or.inl hd, hp⟩
              · have := Option.some.inj h0
                omega
            · rintro ⟨z, hz, hd | ⟨hd, h0⟩, hp⟩
              · exact ⟨z, hz, Or.inl hd, hp⟩
              · have := Option.some.inj h0
                omega
        · rw [if_neg hin]
          constructor
          · intro h; simp at h
          · rintro ⟨z, hz, hd | ⟨hd, h0⟩, hp⟩
            · exact absurd (branchAt_occurs hp) (not_occurs_left hg (by omega) hz (ofNat_ne_of_lt hd))
            · have := Option.some.inj h0
              omega
      have hpn : PairBelow (K ++ under c J) (c.take n ++ [x]) ↔ PairBelow (K ++ under c J) c := by
        rw [take_succ_of hx]
        exact pairBelow_at hg (List.take_prefix _ _) (by rw [List.length_take]; omega)
      have newTree : ∀ v, (∀ d, v.testBit d = true ↔ (lvl s1.treeMasks n).testBit d = true ∨
            (d = x.toNat ∧ PairBelow (K ++ under c J) c)) →
          Bits (PairBelow (K ++ under c J)) c (some n) (resize (s1.treeMasks.set n v) (n + 1)) := by
        intro v hv i d
        rw [lvl_resize, lvl_set hlt]
        by_cases hin : i < n + 1
        · rw [if_pos hin]
          by_cases hie : i = n
          · subst hie
            rw [if_pos rfl, hv, bt i d]
            constructor
            · rintro (⟨z, hz, hd | ⟨hd, h0⟩, hp⟩ | ⟨hd, hp⟩)
              · exact ⟨z, hz, Or.inl hd, hp⟩
              · have := Option.some.inj h0
                omega
              · exact ⟨x, hx, Or.inr ⟨hd, rfl⟩, by rw [uint8_eq_of_toNat hd]; exact hpn.mpr hp⟩
            · rintro ⟨z, hz, hd | ⟨hd, h0⟩, hp⟩
              · exact Or.inl ⟨z, hz, Or.inl hd, hp⟩
              · rw [hx] at hz
                cases hz
                rw [uint8_eq_of_toNat hd] at hp
                exact Or.inr ⟨hd, hpn.mp hp⟩
          · rw [if_neg hie, bt i d]
            constructor
            · rintro ⟨z, hz, hd | ⟨hd, h0⟩, hp⟩
              · exact ⟨z, hz, Or.inl hd, hp⟩
              · have := Option.some.inj h0
                omega
            · rintro ⟨z, hz, hd | ⟨hd, h0⟩, hp⟩
              · exact ⟨z, hz, Or.inl hd, hp⟩
              · have := Option.some.inj h0
                omega
        · rw [if_neg hin]
          constructor
          · intro h; simp at h
          · rintro ⟨z, hz, hd | ⟨hd, h0⟩, hp⟩
            · exact absurd (pairBelow_occurs hp) (not_occurs_left hg (by omega) hz (ofNat_ne_of_lt hd))
            · have := Option.some.inj h0
              omega
      have hext : ∃ v, (∀ d, v.testBit d = true ↔ (lvl s1.treeMasks n).testBit d = true ∨
            (d = x.toNat ∧ PairBelow (K ++ under c J) c)) ∧
          extensionMasks s1 c (n + 1) = .ok { s1 with
            hashMasks := s1.hashMasks.set n (lvl s1.hashMasks n &&& (2 ^ 16 - 1 - flag x))
            treeMasks := s1.treeMasks.set n v } := by
        unfold extensionMasks
        rw [Nat.add_sub_cancel, at?_ok.mpr hx]
        simp only [Outcome.bind]
        rw [clearAt_lvl hlh, at?_lvl (by omega)]
        simp only
        by_cases h0 : lvl s1.treeMasks (c.length - 1) = 0
        · refine ⟨lvl s1.treeMasks n, ?_, ?_⟩
          · intro d
            constructor
            · exact Or.inl
            · rintro (h | ⟨_, h⟩)
              · exact h
              · exact absurd h0 (htop.mpr h)
          · rw [if_neg (by simpa using h0)]
            congr 2
            apply List.ext_getElem?
            intro j
            by_cases hj : j = n
            · subst hj
              rw [List.getElem?_set_self hlt]
              unfold lvl
              rw [List.getElem?_eq_getElem hlt]
              rfl
            · rw [List.getElem?_set_ne (fun h => hj h.symm)]
        · refine ⟨lvl s1.treeMasks n ||| flag x, ?_, ?_⟩
          · intro d
            rw [flag_eq hx16, testBit_or_flag]
            have := htop.mp h0
            constructor
            · rintro (h | h)
              · exact Or.inl h
              · exact Or.inr ⟨h, this⟩
            · rintro (h | h)
              · exact Or.inl h
              · exact Or.inr h.1
          · rw [if_pos h0, orAt_lvl hlt]
      obtain ⟨v, hv1, hv2⟩ := hext
      rw [hv2]
      simp only [Outcome.bind]
      rw [hst, (hi.branch rfl).2.2]
      simp only [List.getLast?_append, List.getLast?_singleton, Option.some_or]
      refine ⟨_, rfl, hcol, ?_, ?_, newHash, newTree v hv1⟩
      · simp only [resize_length]
      · simp only [resize_length]; omega

end Silkworm.Trie
