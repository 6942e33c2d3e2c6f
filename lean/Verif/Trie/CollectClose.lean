import Verif.Trie.CollectProof

/-!
# The hash builder with a collector: closing a group
-/

namespace Silkworm.Trie

open Silkworm.Rlp Silkworm.Spec

/-! ## Hashes of children -/

theorem childHashes_eq {keccak : Bytes → Bytes} {mask hm : Nat} {es : Ents} : ∀ (ds : List Nat),
    (∀ i ∈ ds, mask.testBit i = decide (children (UInt8.ofNat i) es ≠ [])) →
    (∀ i ∈ ds, hm.testBit i = true → children (UInt8.ofNat i) es ≠ []) →
    childHashes mask hm ds ((ds.filter (fun i => decide (children (UInt8.ofNat i) es ≠ []))).map
      (fun i => refB keccak (children (UInt8.ofNat i) es))) =
    (ds.filter (fun i => hm.testBit i)).map (fun i => refB keccak (children (UInt8.ofNat i) es))
  | [], _, _ => rfl
  | d :: ds, h, h' => by
    have ih := childHashes_eq (keccak := keccak) ds (fun i hi => h i (List.mem_cons_of_mem _ hi))
      (fun i hi => h' i (List.mem_cons_of_mem _ hi))
    unfold childHashes
    rw [h d (List.mem_cons_self ..)]
    by_cases hc : children (UInt8.ofNat d) es = []
    · have hd : hm.testBit d = false := by
        by_contra h0
        exact h' d (List.mem_cons_self ..) (by simpa using h0) hc
      rw [if_neg (by simp [hc]), List.filter_cons_of_neg (by simp [hc]), ih, List.filter_cons_of_neg (by simp [hd])]
    · rw [if_pos (by simp [hc]), List.filter_cons_of_pos (by simp [hc]), List.map_cons]
      simp only
      rw [ih]
      by_cases hd : hm.testBit d = true
      · rw [if_pos hd, List.filter_cons_of_pos hd, List.map_cons]
      · rw [if_neg hd, List.filter_cons_of_neg (by simpa using hd)]

theorem hashInRef_refB {keccak : Bytes → Bytes} (hk : ∀ x, (keccak x).length = 32) (es : Ents) :
    hashInRef (refB keccak es) = if 32 ≤ (nodeRlp keccak es).length then .ok (keccak (nodeRlp keccak es)) else .ub := by
  have e : refB keccak es = nodeRef keccak (nodeRlp keccak es) := (nodeRef_rlp hk _).symm
  rw [e]
  unfold hashInRef
  by_cases h : (nodeRlp keccak es).length < 32
  · have e2 : nodeRef keccak (nodeRlp keccak es) = nodeRlp keccak es := if_pos h
    rw [e2, if_neg (by omega), if_neg (by omega)]
  · have e2 : nodeRef keccak (nodeRlp keccak es) = UInt8.ofNat (0x80 + 32) :: keccak (nodeRlp keccak es) := if_neg h
    rw [e2, if_pos (by rw [List.length_cons, hk]), if_pos (by omega)]
    rfl

theorem hashesInRefs_total {keccak : Bytes → Bytes} (hk : ∀ x, (keccak x).length = 32) {f : Nat → Ents} :
    ∀ (l : List Nat), (∀ i ∈ l, 32 ≤ (nodeRlp keccak (f i)).length) →
    hashesInRefs (l.map (fun i => refB keccak (f i))) = .ok (l.map (fun i => keccak (nodeRlp keccak (f i))))
  | [], _ => rfl
  | i :: l, h => by
    rw [List.map_cons]
    unfold hashesInRefs
    rw [hashInRef_refB hk, if_pos (h i (List.mem_cons_self ..))]
    simp only [Outcome.bind]
    rw [hashesInRefs_total hk l (fun j hj => h j (List.mem_cons_of_mem _ hj))]
    rfl

theorem hashesInRefs_ok {keccak : Bytes → Bytes} (hk : ∀ x, (keccak x).length = 32) {f : Nat → Ents} :
    ∀ (l : List Nat) (r : List Bytes), hashesInRefs (l.map (fun i => refB keccak (f i))) = .ok r →
    ∀ i ∈ l, 32 ≤ (nodeRlp keccak (f i)).length
  | [], _, _ => fun i hi => by cases hi
  | i :: l, r, h => by
    rw [List.map_cons] at h
    unfold hashesInRefs at h
    rw [hashInRef_refB hk] at h
    by_cases h0 : 32 ≤ (nodeRlp keccak (f i)).length
    · rw [if_pos h0] at h
      simp only [Outcome.bind] at h
      cases hr : hashesInRefs (l.map (fun i => refB keccak (f i))) with
      | ok r' =>
        intro j hj
        rcases List.mem_cons.mp hj with rfl | hj
        · exact h0
        · exact hashesInRefs_ok hk l r' hr j hj
      | err e => cases e
      | ub => rw [hr] at h; cases h
    · rw [if_neg h0] at h
      cases h

/-! ## Masks of the parent -/

theorem bits_parent {P : Bytes → Prop} {c : Bytes} {n : Nat} {l l' : List Nat} (h : Bits P c (some n) l)
    (hn : n < c.length)
    (hl : ∀ i, i < n → ∀ d, (lvl l' i).testBit d = true ↔ (lvl l i).testBit d = true ∨
      (i + 1 = n ∧ P (c.take n) ∧ ∃ y, c[i]? = some y ∧ d = y.toNat)) :
    Bits P (c.take n) (some (n - 1)) (resize l' n) := by
  intro i d
  rw [lvl_resize]
  by_cases hi : i < n
  · rw [if_pos hi, hl i hi d, h i d, List.getElem?_take, if_pos hi, List.take_take, Nat.min_eq_left (by omega)]
    constructor
    · rintro (⟨x, hx, hd | ⟨_, h0⟩, hp⟩ | ⟨h0, hp, y, hy, hd⟩)
      · exact ⟨x, hx, Or.inl hd, hp⟩
      · have := Option.some.inj h0
        omega
      · refine ⟨y, hy, Or.inr ⟨hd, by congr 1; omega⟩, ?_⟩
        rw [uint8_eq_of_toNat hd, take_succ_of hy, h0]
        exact hp
    · rintro ⟨x, hx, hd | ⟨hd, h0⟩, hp⟩
      · exact Or.inl ⟨x, hx, Or.inl hd, hp⟩
      · have h0 := Option.some.inj h0
        right
        refine ⟨by omega, ?_, x, hx, hd⟩
        rw [uint8_eq_of_toNat hd, take_succ_of hx] at hp
        rw [show i + 1 = n by omega] at hp
        exact hp
  · rw [if_neg hi]
    constructor
    · intro h0; simp at h0
    · rintro ⟨x, hx, _⟩
      rw [List.getElem?_take, if_neg hi] at hx
      cases hx

/-- The mask at the level that is closed tells about all children. -/
theorem bits_top {P : Bytes → Prop} {T : Ents} {c : Bytes} {n : Nat} {l : List Nat} (h : Bits P c (some n) l)
    (hn : n < c.length) (hp : IsPath c) (hP : ∀ p, P p → Occurs T p)
    (hr : ∀ x d, c[n]? = some x → x < d → ¬ Occurs T (c.take n ++ [d])) (d : Nat) :
    (lvl l n).testBit d = true ↔ d < 16 ∧ P (c.take n ++ [UInt8.ofNat d]) := by
  rw [h n d]
  obtain ⟨x, hx⟩ : ∃ x, c[n]? = some x := ⟨_, List.getElem?_eq_getElem hn⟩
  have hx16 := hp x (List.mem_of_getElem? hx)
  constructor
  · rintro ⟨y, hy, hd, h0⟩
    rw [hx] at hy
    cases hy
    exact ⟨by omega, h0⟩
  · rintro ⟨hd, h0⟩
    refine ⟨x, hx, ?_, h0⟩
    by_cases hdx : x.toNat < d
    · exfalso
      refine hr x (UInt8.ofNat d) hx ?_ (hP _ h0)
      rw [UInt8.lt_iff_toNat_lt, uint8_ofNat_toNat d (by omega)]
      exact hdx
    · by_cases h1 : d = x.toNat
      · exact Or.inr ⟨h1, rfl⟩
      · exact Or.inl (by omega)

theorem popcount_eq (m : Nat) : popcount m = ((List.range 16).filter (fun i => m.testBit i)).length := by
  unfold popcount
  rw [List.countP_eq_length_filter]

theorem subset_of_bits {a b : Nat} (h : ∀ i, a.testBit i = true → b.testBit i = true) : subset a b = true := by
  unfold subset
  rw [beq_iff_eq]
  apply Nat.eq_of_testBit_eq
  intro i
  rw [Nat.testBit_and]
  cases ha : a.testBit i
  · rfl
  · rw [h i ha]; rfl

/-! ## Closing -/

set_option maxHeartbeats 2000000 in
theorem close_collect {keccak : Bytes → Bytes} (hk : ∀ x, (keccak x).length = 32) {s : HashBuilder} {T : Ents}
    {c : Bytes} {n : Nat} {st : List Bytes} (hn : n < c.length) (hp : IsPath c)
    (hb : BranchAt T (c.take n)) (h2 : 2 ≤ (below T (c.take n)).length) (hcp : commonPrefix (below T (c.take n)) = [])
    (hv : ∀ e ∈ below T (c.take n), e.1 ≠ []) (hg : s.groups[n]? = some (maskBelow 16 (below T (c.take n))))
    (hst : s.stack = st ++ refsBelow keccak 16 (below T (c.take n)))
    (hroot : n = 0 → st = [] ∧ below T [] = T)
    (hr : ∀ x d, c[n]? = some x → x < d → ¬ Occurs T (c.take n ++ [d]))
    (hlen : s.hashMasks.length = s.treeMasks.length) (hnl : n < s.treeMasks.length)
    (bh : Bits (BranchAt T) c (some n) s.hashMasks) (bt : Bits (PairBelow T) c (some n) s.treeMasks) :
    ((Recorded T (c.take n) → Big keccak T (c.take n)) → ∃ t, closeGroup keccak true s c n = .ok t) ∧
    ∀ t, closeGroup keccak true s c n = .ok t → t.hashMasks.length = t.treeMasks.length ∧
      Bits (BranchAt T) (c.take n) (some (n - 1)) (resize t.hashMasks n) ∧
      Bits (PairBelow T) (c.take n) (some (n - 1)) (resize t.treeMasks n) ∧
      (Recorded T (c.take n) → Big keccak T (c.take n) ∧
        ∃ nd, Rec keccak T (c.take n) nd ∧ t.collected = (c.take n, nd) :: s.collected) ∧
      (¬ Recorded T (c.take n) → t.collected = s.collected) := by
  have tH := bits_top (T := T) bh hn hp (fun p h => branchAt_occurs h) hr
  have tT := bits_top (T := T) bt hn hp (fun p h => pairBelow_occurs h) hr
  have hnh : n < s.hashMasks.length := by omega
  obtain ⟨x, hx⟩ : ∃ x, c[n]? = some x := ⟨_, List.getElem?_eq_getElem hn⟩
  have hx16 := hp x (List.mem_of_getElem? hx)
  -- children have nibbles below 16
  have h16 : ∀ d : UInt8, Occurs T (c.take n ++ [d]) → d.toNat < 16 := by
    intro d hd
    by_contra h0
    exact hr x d hx (by rw [UInt8.lt_iff_toNat_lt]; omega) hd
  have tS : ∀ i, (maskBelow 16 (below T (c.take n))).testBit i = true ↔ i < 16 ∧ Occurs T (c.take n ++ [UInt8.ofNat i]) := by
    intro i
    rw [testBit_maskBelow, Bool.and_eq_true, decide_eq_true_iff, decide_eq_true_iff, children_below, occurs_iff_below]
  have hsub : subset (lvl s.hashMasks n) (maskBelow 16 (below T (c.take n))) = true :=
    subset_of_bits fun i h => (tS i).mpr ⟨((tH i).mp h).1, branchAt_occurs ((tH i).mp h).2⟩
  have hsubT : subset (lvl s.treeMasks n) (maskBelow 16 (below T (c.take n))) = true :=
    subset_of_bits fun i h => (tS i).mpr ⟨((tT i).mp h).1, pairBelow_occurs ((tT i).mp h).2⟩
  have hstore : (lvl s.treeMasks n ≠ 0 ∨ lvl s.hashMasks n ≠ 0) ↔ Recorded T (c.take n) := by
    unfold Recorded
    rw [pairBelow_step hb, ne_zero_iff_testBit, ne_zero_iff_testBit]
    constructor
    · rintro (⟨d, h⟩ | ⟨d, h⟩)
      · exact ⟨hb, Or.inr ⟨_, ((tT d).mp h).2⟩⟩
      · exact ⟨hb, Or.inl ⟨_, ((tH d).mp h).2⟩⟩
    · rintro ⟨_, ⟨d, h⟩ | ⟨d, h⟩⟩
      · exact Or.inr ⟨d.toNat, (tH _).mpr ⟨h16 d (branchAt_occurs h), by rw [uint8_eq_of_toNat rfl]; exact h⟩⟩
      · exact Or.inl ⟨d.toNat, (tT _).mpr ⟨h16 d (pairBelow_occurs h), by rw [uint8_eq_of_toNat rfl]; exact h⟩⟩
  have hrefs : childHashes (maskBelow 16 (below T (c.take n))) (lvl s.hashMasks n) (List.range 16)
      (refsBelow keccak 16 (below T (c.take n))) =
      ((List.range 16).filter (fun i => (lvl s.hashMasks n).testBit i)).map
        (fun i => refB keccak (below T (c.take n ++ [UInt8.ofNat i]))) := by
    rw [refsBelow_eq, childHashes_eq]
    · apply List.map_congr_left
      intro i _
      rw [children_below]
    · intro i hi
      rw [testBit_maskBelow, decide_eq_true (List.mem_range.mp hi), Bool.true_and]
    · intro i _ h
      rw [children_below, ← occurs_iff_below]
      exact branchAt_occurs ((tH i).mp h).2
  have hbig : Big keccak T (c.take n) ↔ ∀ i ∈ (List.range 16).filter (fun i => (lvl s.hashMasks n).testBit i),
      32 ≤ (nodeRlp keccak (below T (c.take n ++ [UInt8.ofNat i]))).length := by
    constructor
    · intro h i hi
      exact h _ ((tH i).mp (List.mem_filter.mp hi).2).2
    · intro h d hd
      have h1 := h16 d (branchAt_occurs hd)
      have := h d.toNat (List.mem_filter.mpr ⟨List.mem_range.mpr h1, (tH _).mpr ⟨h1, by
        rw [uint8_eq_of_toNat rfl]; exact hd⟩⟩)
      rwa [uint8_eq_of_toNat rfl] at this
  -- evaluate up to the collector
  have hclose : closeGroup keccak true s c n = collectBranch keccak
      { s with stack := st ++ [refB keccak (below T (c.take n))] } c n
      (((List.range 16).filter (fun i => (lvl s.hashMasks n).testBit i)).map
        (fun i => refB keccak (below T (c.take n ++ [UInt8.ofNat i])))) := by
    unfold closeGroup
    rw [at?_ok.mpr hg, at?_lvl hnh]
    simp only [Outcome.bind]
    rw [hst, branchRef_eq hk h2 hcp hv hsub, hrefs]
    rfl
  -- the hash masks afterwards
  obtain ⟨hm, hm1, hm2, hm3⟩ : ∃ hm : List Nat,
      (if 0 < n then (at? c (n - 1)).bind fun digit => (orAt s.hashMasks (n - 1) (flag digit)).bind fun hashMasks =>
          (.ok { s with stack := st ++ [refB keccak (below T (c.take n))], hashMasks := hashMasks } : Outcome Empty HashBuilder)
        else .ok { s with stack := st ++ [refB keccak (below T (c.take n))] }) =
        .ok { s with stack := st ++ [refB keccak (below T (c.take n))], hashMasks := hm } ∧
      hm.length = s.hashMasks.length ∧
      (lvl hm n = lvl s.hashMasks n ∧ ∀ i, i < n → ∀ d, (lvl hm i).testBit d = true ↔
        (lvl s.hashMasks i).testBit d = true ∨ (i + 1 = n ∧ BranchAt T (c.take n) ∧ ∃ y, c[i]? = some y ∧ d = y.toNat)) := by
    by_cases h0 : 0 < n
    · rw [if_pos h0]
      obtain ⟨y, hy⟩ : ∃ y, c[n - 1]? = some y := ⟨_, List.getElem?_eq_getElem (by omega)⟩
      have hy16 := hp y (List.mem_of_getElem? hy)
      rw [at?_ok.mpr hy]
      simp only [Outcome.bind]
      rw [orAt_lvl (by omega)]
      refine ⟨_, rfl, by rw [List.length_set], ?_, ?_⟩
      · rw [lvl_set (by omega), if_neg (by omega)]
      · intro i hi d
        rw [lvl_set (by omega)]
        by_cases hin : i = n - 1
        · subst hin
          rw [if_pos rfl, flag_eq hy16, testBit_or_flag]
          constructor
          · rintro (h | h)
            · exact Or.inl h
            · exact Or.inr ⟨by omega, hb, y, hy, h⟩
          · rintro (h | ⟨_, _, z, hz, h⟩)
            · exact Or.inl h
            · rw [hy] at hz; cases hz; exact Or.inr h
        · rw [if_neg hin]
          constructor
          · exact Or.inl
          · rintro (h | ⟨h, _⟩)
            · exact h
            · omega
    · rw [if_neg h0]
      exact ⟨s.hashMasks, rfl, rfl, rfl, fun i hi => by omega⟩
  obtain ⟨hm3, hm4⟩ := hm3
  have bh' : Bits (BranchAt T) (c.take n) (some (n - 1)) (resize hm n) := bits_parent bh hn hm4
  have hcb : ∀ refs, collectBranch keccak { s with stack := st ++ [refB keccak (below T (c.take n))] } c n refs =
      if lvl s.treeMasks n ≠ 0 ∨ lvl s.hashMasks n ≠ 0 then
        storeNode keccak { s with stack := st ++ [refB keccak (below T (c.take n))], hashMasks := hm } c n refs
      else .ok { s with stack := st ++ [refB keccak (below T (c.take n))], hashMasks := hm } := by
    intro refs
    unfold collectBranch
    simp only
    rw [hm1]
    simp only [Outcome.bind]
    rw [at?_lvl hnl, at?_lvl (show n < hm.length by omega)]
    simp only [hm3]
  rw [hclose, hcb]
  by_cases hrec : Recorded T (c.take n)
  · rw [if_pos (hstore.mpr hrec)]
    -- the tree masks afterwards
    obtain ⟨tm, tm1, tm2, tm3, tm4⟩ : ∃ tm : List Nat,
        (if 0 < n then (at? c (n - 1)).bind fun digit => (orAt s.treeMasks (n - 1) (flag digit)).bind fun treeMasks =>
            (.ok { s with stack := st ++ [refB keccak (below T (c.take n))], hashMasks := hm, treeMasks := treeMasks } :
              Outcome Empty HashBuilder)
          else .ok { s with stack := st ++ [refB keccak (below T (c.take n))], hashMasks := hm }) =
          .ok { s with stack := st ++ [refB keccak (below T (c.take n))], hashMasks := hm, treeMasks := tm } ∧
        tm.length = s.treeMasks.length ∧ lvl tm n = lvl s.treeMasks n ∧
        ∀ i, i < n → ∀ d, (lvl tm i).testBit d = true ↔
          (lvl s.treeMasks i).testBit d = true ∨ (i + 1 = n ∧ PairBelow T (c.take n) ∧ ∃ y, c[i]? = some y ∧ d = y.toNat) := by
      by_cases h0 : 0 < n
      · rw [if_pos h0]
        obtain ⟨y, hy⟩ : ∃ y, c[n - 1]? = some y := ⟨_, List.getElem?_eq_getElem (by omega)⟩
        have hy16 := hp y (List.mem_of_getElem? hy)
        rw [at?_ok.mpr hy]
        simp only [Outcome.bind]
        rw [orAt_lvl (by omega)]
        refine ⟨_, rfl, by rw [List.length_set], ?_, ?_⟩
        · rw [lvl_set (by omega), if_neg (by omega)]
        · intro i hi d
          rw [lvl_set (by omega)]
          by_cases hin : i = n - 1
          · subst hin
            rw [if_pos rfl, flag_eq hy16, testBit_or_flag]
            constructor
            · rintro (h | h)
              · exact Or.inl h
              · exact Or.inr ⟨by omega, hrec.2, y, hy, h⟩
            · rintro (h | ⟨_, _, z, hz, h⟩)
              · exact Or.inl h
              · rw [hy] at hz; cases hz; exact Or.inr h
          · rw [if_neg hin]
            constructor
            · exact Or.inl
            · rintro (h | ⟨h, _⟩)
              · exact h
              · omega
      · rw [if_neg h0]
        exact ⟨s.treeMasks, rfl, rfl, rfl, fun i hi => by omega⟩
    have bt' : Bits (PairBelow T) (c.take n) (some (n - 1)) (resize tm n) := bits_parent bt hn tm4
    unfold storeNode
    simp only
    rw [tm1]
    simp only [Outcome.bind]
    rw [at?_ok.mpr hg, at?_lvl (show n < tm.length by omega), at?_lvl (show n < hm.length by omega)]
    simp only [hm3, tm3]
    -- the node
    have hnode : ∀ hs : List Bytes, hs.length = ((List.range 16).filter (fun i => (lvl s.hashMasks n).testBit i)).length →
        mkNode (maskBelow 16 (below T (c.take n))) (lvl s.treeMasks n) (lvl s.hashMasks n) hs =
          .ok ⟨maskBelow 16 (below T (c.take n)), lvl s.treeMasks n, lvl s.hashMasks n, hs, none⟩ := by
      intro hs h
      unfold mkNode
      rw [if_pos]
      rw [hsubT, hsub, popcount_eq, h]
      simp
    have hrootHash : n = 0 → rootOfStack keccak (st ++ [refB keccak (below T (c.take n))]) = keccak (nodeRlp keccak T) := by
      intro h0
      obtain ⟨e1, e2⟩ := hroot h0
      subst h0
      rw [e1, List.take_zero, e2]
      exact rootOfStack_ref hk T
    constructor
    · intro hB
      rw [hashesInRefs_total hk (f := fun i => below T (c.take n ++ [UInt8.ofNat i])) _ (hbig.mp (hB hrec))]
      simp only
      rw [hnode _ (by rw [List.length_map])]
      exact ⟨_, rfl⟩
    · intro t ht
      cases hh : hashesInRefs (((List.range 16).filter (fun i => (lvl s.hashMasks n).testBit i)).map
          (fun i => refB keccak (below T (c.take n ++ [UInt8.ofNat i])))) with
      | err e => cases e
      | ub => rw [hh] at ht; cases ht
      | ok hs =>
        have hbig' := hashesInRefs_ok hk (f := fun i => below T (c.take n ++ [UInt8.ofNat i])) _ _ hh
        have := hashesInRefs_total hk (f := fun i => below T (c.take n ++ [UInt8.ofNat i])) _ hbig'
        rw [this] at hh
        cases hh
        rw [this] at ht
        simp only at ht
        rw [hnode _ (by rw [List.length_map])] at ht
        cases ht
        refine ⟨by simp only; omega, bh', bt', fun _ => ⟨hbig.mpr hbig', _, ?_, rfl⟩, fun h => absurd hrec h⟩
        by_cases h0 : n = 0
        · rw [if_pos h0]
          refine ⟨tS, ?_, tH, rfl, ?_⟩
          · intro i
            rw [tT i, pairBelow_iff_recorded]
          · simp only
            rw [hrootHash h0, h0, List.take_zero, if_pos rfl]
        · rw [if_neg h0]
          refine ⟨tS, ?_, tH, rfl, ?_⟩
          · intro i
            rw [tT i, pairBelow_iff_recorded]
          · simp only
            rw [if_neg]
            intro h1
            have := congrArg List.length h1
            rw [List.length_take, List.length_nil] at this
            omega
  · rw [if_neg (fun h => hrec (hstore.mp h))]
    refine ⟨fun _ => ⟨_, rfl⟩, fun t ht => ?_⟩
    cases ht
    refine ⟨by simp only; omega, bh', ?_, fun h => absurd h hrec, fun _ => rfl⟩
    refine bits_parent bt hn ?_
    intro i hi d
    constructor
    · exact Or.inl
    · rintro (h | ⟨_, h, _⟩)
      · exact h
      · exact absurd ⟨hb, h⟩ hrec

end Silkworm.Trie
