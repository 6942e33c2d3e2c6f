import Verif.Trie.CollectClose

/-!
# The hash builder with a collector: the loop
-/

namespace Silkworm.Trie

open Silkworm.Rlp Silkworm.Spec

/-- Where the pending key and the next one part. -/
theorem before_split : ∀ {c q : Bytes}, Before c q → ∃ x y : UInt8, c[prefixLength q c]? = some x ∧
    q[prefixLength q c]? = some y ∧ x < y ∧ q.take (prefixLength q c) = c.take (prefixLength q c)
  | [], _, h => by cases h
  | _ :: _, [], h => by cases h
  | a :: c, b :: q, h => by
    rcases h with h | ⟨rfl, h⟩
    · have hne : ¬ b = a := by
        rintro rfl
        rw [UInt8.lt_iff_toNat_lt] at h
        omega
      have e : prefixLength (b :: q) (a :: c) = 0 := by simp [prefixLength, hne]
      rw [e]
      exact ⟨a, b, rfl, rfl, h, rfl⟩
    · obtain ⟨x, y, h1, h2, h3, h4⟩ := before_split h
      have e : prefixLength (a :: q) (a :: c) = prefixLength q c + 1 := by simp [prefixLength]
      rw [e]
      exact ⟨x, y, h1, h2, h3, by rw [List.take_succ_cons, List.take_succ_cons, h4]⟩

theorem bits_advance {P : Bytes → Prop} {K J : Ents} {c q : Bytes} {l : List Nat} (hb : AllBefore K c)
    (hB : Before c q) (hg : ¬ Occurs K (c.take (prefixLength q c + 1)))
    (hP : ∀ p, P p → Occurs (K ++ under c J) p) (h : Bits P c (some (prefixLength q c)) l) : Bits P q none l := by
  obtain ⟨x, y, hx, hy, hxy, ht⟩ := before_split hB
  generalize prefixLength q c = m at *
  rw [UInt8.lt_iff_toNat_lt] at hxy
  have hxc := (List.getElem?_eq_some_iff.mp hx).1
  have hyq := (List.getElem?_eq_some_iff.mp hy).1
  have hpre : ∀ i, i < m → q[i]? = c[i]? := by
    intro i hi
    have : (q.take m)[i]? = (c.take m)[i]? := by rw [ht]
    rwa [List.getElem?_take, List.getElem?_take, if_pos hi, if_pos hi] at this
  have htk : ∀ i, i ≤ m → q.take i = c.take i := by
    intro i hi
    have : (q.take m).take i = (c.take m).take i := by rw [ht]
    rwa [List.take_take, List.take_take, Nat.min_eq_left hi] at this
  intro i d
  rw [h i d]
  rcases Nat.lt_trichotomy i m with hi | hi | hi
  · rw [hpre i hi, htk i (by omega)]
    constructor
    · rintro ⟨z, hz, hd | ⟨_, h0⟩, hp⟩
      · exact ⟨z, hz, Or.inl hd, hp⟩
      · have := Option.some.inj h0
        omega
    · rintro ⟨z, hz, hd | ⟨_, h0⟩, hp⟩
      · exact ⟨z, hz, Or.inl hd, hp⟩
      · cases h0
  · subst hi
    rw [htk i (Nat.le_refl _)]
    constructor
    · rintro ⟨z, hz, hd, hp⟩
      rw [hx] at hz
      cases hz
      exact ⟨y, hy, Or.inl (by omega), hp⟩
    · rintro ⟨z, hz, hd | ⟨_, h0⟩, hp⟩
      · rw [hy] at hz
        cases hz
        have hy256 := UInt8.toNat_lt y
        refine ⟨x, hx, ?_, hp⟩
        by_cases hdx : x.toNat < d
        · refine absurd (hP _ hp) (not_occurs_right hb hx ?_)
          rw [UInt8.lt_iff_toNat_lt, uint8_ofNat_toNat d (by omega)]
          exact hdx
        · by_cases h1 : d = x.toNat
          · exact Or.inr ⟨h1, rfl⟩
          · exact Or.inl (by omega)
      · cases h0
  · constructor
    · rintro ⟨z, hz, hd | ⟨_, h0⟩, hp⟩
      · exact absurd (hP _ hp) (not_occurs_left hg (by omega) hz (ofNat_ne_of_lt hd))
      · have := Option.some.inj h0
        omega
    · rintro ⟨z, hz, _, hp⟩
      exfalso
      refine not_occurs_right (J := J) hb hx (d := y) (by rw [UInt8.lt_iff_toNat_lt]; exact hxy)
        (occurs_shorter (hP _ hp) ?_)
      rw [← ht, take_succ_of hy]
      refine List.IsPrefix.trans ?_ (List.prefix_append _ _)
      rw [List.prefix_take_iff]
      exact ⟨List.take_prefix _ _, by rw [List.length_take]; omega⟩

/-- A branch node on the pending key past the groups is the root of the pending subtree. -/
theorem branch_on_key {keccak : Bytes → Bytes} {ext : Bool} {s : HashBuilder} {K J : Ents} {c value p : Bytes} {n : Nat}
    (hi : Inv keccak ext s K J c value) (hg : ¬ Occurs K (c.take n)) (hb : BranchAt (K ++ under c J) p) (hp : p <+: c)
    (hn : n ≤ p.length) : ext = true ∧ p = c := by
  have h0 : p = c := by
    by_contra h0
    exact not_branch_between hg hp hn h0 hb
  refine ⟨?_, h0⟩
  cases ext with
  | true => rfl
  | false =>
    exfalso
    subst h0
    rw [branchAt_pending hg (List.take_prefix _ _)] at hb
    obtain ⟨r, _, h⟩ := hb
    rw [(hi.leaf rfl).1] at h
    exact branchAt_single h

theorem prefix_take_of {p c : Bytes} {n : Nat} (hp : p <+: c) (hn : p.length ≤ n) : p <+: c.take n := by
  rw [List.prefix_take_iff]
  exact ⟨hp, hn⟩

/-- What is finished when the next key becomes the pending one. -/
theorem closed_advance {keccak : Bytes → Bytes} {ext : Bool} {s : HashBuilder} {K J : Ents} {c q value p : Bytes}
    (hi : Inv keccak ext s K J c value) (hqb : Before c q) (hg : ¬ Occurs K (c.take (prefixLength q c + 1)))
    (hb : BranchAt (K ++ under c J) p) (hq : q ≠ []) :
    (¬ p <+: c ∨ (ext = true ∧ p = c)) ↔ (¬ p <+: q ∨ q = []) := by
  obtain ⟨x, y, hx, hy, hxy, ht⟩ := before_split hqb
  constructor
  · rintro (h | ⟨_, h⟩)
    · left
      intro hpq
      have hl : prefixLength q c + 1 ≤ p.length := by
        by_contra h0
        have := prefix_take_of hpq (show p.length ≤ prefixLength q c by omega)
        rw [ht] at this
        exact h (this.trans (List.take_prefix _ _))
      refine not_occurs_right (J := J) hi.before hx hxy (occurs_shorter (branchAt_occurs hb) ?_)
      rw [← ht, take_succ_of hy, List.prefix_iff_eq_take.mp hpq, List.prefix_take_iff]
      exact ⟨List.take_prefix _ _, by rw [List.length_take]; omega⟩
    · left
      subst h
      exact (before_not_prefix hqb).1
  · rintro (h | h)
    · by_cases hpc : p <+: c
      · right
        refine branch_on_key hi hg hb hpc ?_
        by_contra h0
        have := prefix_take_of hpc (show p.length ≤ prefixLength q c by omega)
        rw [← ht] at this
        exact h (this.trans (List.take_prefix _ _))
      · exact Or.inl hpc
    · exact absurd h hq

theorem coll_step {keccak : Bytes → Bytes} {T : Ents} {A B : Bytes → Prop} {l l' : List (Bytes × Node)} {p₀ : Bytes}
    (h : Coll keccak T A l) (hAB : ∀ p, Recorded T p → (B p ↔ A p ∨ p = p₀)) (hA : ¬ A p₀)
    (h1 : Recorded T p₀ → Big keccak T p₀ ∧ ∃ nd, Rec keccak T p₀ nd ∧ l' = (p₀, nd) :: l)
    (h2 : ¬ Recorded T p₀ → l' = l) : Coll keccak T B l' := by
  by_cases hr : Recorded T p₀
  · obtain ⟨hb, nd, hn, rfl⟩ := h1 hr
    refine ⟨?_, ?_, ?_, ?_⟩
    · rw [List.map_cons, List.nodup_cons]
      refine ⟨?_, h.keys⟩
      intro hm
      obtain ⟨⟨p, m⟩, hpm, e⟩ := List.mem_map.mp hm
      change p = p₀ at e
      subst e
      exact hA (h.sound p m hpm).1
    · intro p m hm
      rcases List.mem_cons.mp hm with hm | hm
      · cases hm
        exact ⟨(hAB p₀ hr).mpr (Or.inr rfl), hr, hn⟩
      · obtain ⟨a, b, c⟩ := h.sound p m hm
        exact ⟨(hAB p b).mpr (Or.inl a), b, c⟩
    · intro p hp hrp
      rcases (hAB p hrp).mp hp with ha | rfl
      · obtain ⟨m, hm⟩ := h.complete p ha hrp
        exact ⟨m, List.mem_cons_of_mem _ hm⟩
      · exact ⟨nd, List.mem_cons_self ..⟩
    · intro p hp hrp
      rcases (hAB p hrp).mp hp with ha | rfl
      · exact h.big p ha hrp
      · exact hb
  · rw [h2 hr]
    refine h.congr fun p hp => ?_
    rw [hAB p hp]
    constructor
    · exact Or.inl
    · rintro (h | rfl)
      · exact h
      · exact absurd hp hr

set_option maxHeartbeats 2000000 in
theorem iteration_collect {keccak : Bytes → Bytes} (hk : ∀ x, (keccak x).length = 32) {ext : Bool}
    {s : HashBuilder} {K J : Ents} {c q value : Bytes} (hi : Inv keccak ext s K J c value)
    (hq : NextKey c q) (hc : CInv keccak ext s (K ++ under c J) c) :
    ((∀ p, p <+: c → (¬ p <+: q ∨ q = []) → Recorded (K ++ under c J) p → Big keccak (K ++ under c J) p) →
      ∃ r, genStructIteration keccak true ext s c q value = .ok r) ∧
    ∀ t nxt, genStructIteration keccak true ext s c q value = .ok (t, nxt) →
      (nxt = none → COut keccak t (K ++ under c J) q) ∧
      ∀ c', nxt = some c' → c' <+: c ∧ CInv keccak true t (K ++ under c J) c' := by
  have hJ := hi.J_ne
  have hlt := lenOf_lt hi hq
  obtain ⟨m, hm⟩ := groupsWith_get (s := s) (c := c) (q := q)
  obtain ⟨d, hd⟩ : ∃ d, c[lenOf s c q]? = some d := ⟨_, List.getElem?_eq_getElem hlt⟩
  have hd16 : d.toNat < 16 := hi.path d (List.mem_of_getElem? hd)
  have hor : orAt (groupsWith s c q) (lenOf s c q) (flag d) =
      .ok ((groupsWith s c q).set (lenOf s c q) (m ||| flag d)) := orAt_ok.mpr ⟨m, hm, rfl⟩
  unfold genStructIteration
  simp only
  have hat : at? c (max (if s.groups = [] then 0 else s.groups.length - 1) (prefixLength q c)) = .ok d := at?_ok.mpr hd
  rw [hat]
  change ((∀ p, p <+: c → (¬ p <+: q ∨ q = []) → Recorded (K ++ under c J) p → Big keccak (K ++ under c J) p) →
      ∃ r, Outcome.bind (orAt (groupsWith s c q) (lenOf s c q) (flag d)) _ = .ok r) ∧
    ∀ t nxt, Outcome.bind (orAt (groupsWith s c q) (lenOf s c q) (flag d)) _ = .ok (t, nxt) → _
  rw [hor]
  simp only [Outcome.bind]
  generalize hs1 : (if s.treeMasks.length < c.length then
      ({ s with groups := (groupsWith s c q).set (lenOf s c q) (m ||| flag d),
                treeMasks := resize s.treeMasks c.length, hashMasks := resize s.hashMasks c.length } : HashBuilder)
    else { s with groups := (groupsWith s c q).set (lenOf s c q) (m ||| flag d) }) = s1
  have hs1s : s1.stack = s.stack := by rw [← hs1]; split <;> rfl
  have hs1c : s1.collected = s.collected := by rw [← hs1]; split <;> rfl
  have hs1g : s1.groups = (groupsWith s c q).set (lenOf s c q) (m ||| flag d) := by rw [← hs1]; split <;> rfl
  have hsame := hc.same
  have hlvl : ∀ (l : List Nat) (i : Nat), l.length < c.length → lvl (resize l c.length) i = lvl l i := by
    intro l i hl
    rw [lvl_resize]
    split
    · rfl
    · unfold lvl
      rw [List.getElem?_eq_none (by omega)]
      rfl
  have hs1l : s1.hashMasks.length = s1.treeMasks.length ∧ c.length ≤ s1.treeMasks.length ∧
      (ext = true → s1.treeMasks.length = c.length) ∧ (∀ i, lvl s1.hashMasks i = lvl s.hashMasks i) ∧
      ∀ i, lvl s1.treeMasks i = lvl s.treeMasks i := by
    rw [← hs1]
    split
    · rename_i h0
      simp only [resize_length]
      exact ⟨trivial, Nat.le_refl _, fun _ => trivial, fun i => hlvl _ i (by omega), fun i => hlvl _ i (by omega)⟩
    · rename_i h0
      exact ⟨hsame, by simp only; omega, hc.exact, fun _ => rfl, fun _ => rfl⟩
  obtain ⟨l1, l2, l3, l4, l5⟩ := hs1l
  by_cases hK : K = []
  · by_cases hq0 : q = []
    · -- one subtree and nothing else
      have hg0 : s.groups = [] := by rw [hi.groups, hK, groupsOf_nil]
      have hno : ¬ Occurs K (c.take 0) := by
        rintro ⟨e, he, _⟩
        rw [hK] at he
        cases he
      subst hq0
      simp only [hg0, ne_eq, not_true_eq_false, decide_false, Bool.or_self, Bool.false_eq_true, if_false, if_true,
        prefixLength_nil, Nat.max_self, and_false]
      have hpush : ∃ s2, pushShortNode keccak true ext s1 c value 0 = .ok s2 ∧ s2.collected = s.collected := by
        unfold pushShortNode
        cases ext with
        | false =>
          simp only [Bool.false_eq_true, not_false_eq_true, if_true]
          exact ⟨_, rfl, hs1c⟩
        | true =>
          simp only [not_true_eq_false, if_false, List.drop_zero, ne_eq, hi.nonempty, not_false_eq_true, if_true,
            Nat.lt_irrefl, and_false, Outcome.bind]
          rw [hs1s, (hi.branch rfl).2.2]
          simp only [List.getLast?_append, List.getLast?_singleton, Option.some_or]
          exact ⟨_, rfl, hs1c⟩
      obtain ⟨s2, hp2, hp3⟩ := hpush
      rw [hp2]
      simp only
      refine ⟨fun _ => ⟨_, rfl⟩, fun t nxt h => ?_⟩
      cases h
      refine ⟨fun _ => ⟨?_, fun h => absurd rfl h, fun h => absurd rfl h, ?_⟩, fun c' h => by cases h⟩
      · simp only [resize_length]
      · simp only
        rw [hp3]
        refine hc.coll.congr fun p hp => ⟨fun _ => Or.inr trivial, fun _ => ?_⟩
        by_cases hpc : p <+: c
        · exact Or.inr (branch_on_key hi hno hp.1 hpc (Nat.zero_le _))
        · exact Or.inl hpc
    · -- the first key of several
      obtain ⟨hqp, hqb⟩ : IsPath q ∧ Before c q := by
        rcases hq with h0 | h0
        · exact absurd h0 hq0
        · exact h0
      have hg0 : s.groups = [] := by rw [hi.groups, hK, groupsOf_nil]
      have hlen : lenOf s c q = prefixLength q c := by unfold lenOf; rw [if_pos hg0]; omega
      have hno : ∀ n, ¬ Occurs K (c.take n) := by
        rintro n ⟨e, he, _⟩
        rw [hK] at he
        cases he
      simp only [hg0, hq0, ne_eq, not_true_eq_false, not_false_eq_true, decide_false, decide_true, Bool.or_false,
        if_true, Nat.zero_max, Nat.zero_le, and_self]
      rw [hlen] at hlt
      obtain ⟨s2, p1, p2, p3, p4, p5, p6⟩ := push_collect hi hc (hno _) hlt hs1s hs1c l1 l2 l3 l4 l5
      rw [p1]
      simp only
      refine ⟨fun _ => ⟨_, rfl⟩, fun t nxt h => ?_⟩
      cases h
      refine ⟨fun _ => ⟨p3, fun _ => ?_, fun _ => ?_, ?_⟩, fun c' h => by cases h⟩
      · exact bits_advance hi.before hqb (hno _) (fun p h => branchAt_occurs h) p5
      · exact bits_advance hi.before hqb (hno _) (fun p h => pairBelow_occurs h) p6
      · rw [p2]
        refine hc.coll.congr fun p hp => ?_
        exact closed_advance hi hqb (hno _) hp.1 hq0
  · have hgne : s.groups ≠ [] := by rw [hi.groups]; exact fun h0 => hK ((groupsOf_eq_nil hi.before).mp h0)
    simp only [hgne, ne_eq, not_false_eq_true, decide_true, Bool.or_true, if_true, if_false]
    have hnol : ¬ Occurs K (c.take (lenOf s c q + 1)) := by
      refine not_occurs_of_groups hi.before ?_
      rw [← hi.groups]
      unfold lenOf
      rw [if_neg hgne]
      omega
    obtain ⟨s2, p1, p2, p3, p4, p5, p6⟩ := push_collect hi hc hnol hlt hs1s hs1c l1 l2 l3 l4 l5
    obtain ⟨hg2, hst2⟩ := pushShortNode_ok hk hi hs1s p1
    have p1' : pushShortNode keccak true ext s1 c value (max (s.groups.length - 1) (prefixLength q c) + 1) = .ok s2 := by
      have : lenOf s c q = max (s.groups.length - 1) (prefixLength q c) := by unfold lenOf; rw [if_neg hgne]
      rw [← this]
      exact p1
    rw [p1']
    simp only
    by_cases hret : s.groups.length - 1 ≤ prefixLength q c ∧ q ≠ []
    · rw [if_pos hret]
      have hlen : lenOf s c q = prefixLength q c := by unfold lenOf; rw [if_neg hgne]; omega
      obtain ⟨hqp, hqb⟩ : IsPath q ∧ Before c q := by
        rcases hq with h0 | h0
        · exact absurd h0 hret.2
        · exact h0
      rw [hlen] at p5 p6 hnol
      refine ⟨fun _ => ⟨_, rfl⟩, fun t nxt h => ?_⟩
      cases h
      refine ⟨fun _ => ⟨p3, fun _ => ?_, fun _ => ?_, ?_⟩, fun c' h => by cases h⟩
      · exact bits_advance hi.before hqb hnol (fun p h => branchAt_occurs h) p5
      · exact bits_advance hi.before hqb hnol (fun p h => pairBelow_occurs h) p6
      · rw [p2]
        refine hc.coll.congr fun p hp => ?_
        exact closed_advance hi hqb hnol hp.1 hret.2
    · rw [if_neg hret]
      obtain ⟨n, K', J', d', m', f1, f2, f3, f4, f5, f6, f7, f8, f9, f10, f11, f12, f13, f14⟩ :=
        close_facts (keccak := keccak) hk hi.sorted hi.before hi.path hJ hK
      have hn : s.groups.length - 1 = n := by rw [hi.groups, f1]; rfl
      have hlen : lenOf s c q = n := by
        unfold lenOf
        rw [if_neg hgne, hn]
        rw [hn] at hret
        by_cases hq0 : q = []
        · subst hq0; rw [prefixLength_nil]; omega
        · have : ¬ n ≤ prefixLength q c := fun h0 => hret ⟨h0, hq0⟩
          omega
      have hlen' : max (s.groups.length - 1) (prefixLength q c) = n := by
        rw [← hlen]; unfold lenOf; rw [if_neg hgne]
      have hgw : groupsWith s c q = groupsOf K c := by
        unfold groupsWith
        rw [hlen, hi.groups, if_neg (by omega)]
      rw [hs1g, hlen, hgw] at hg2
      rw [hlen] at hd hst2 hlt hnol p4 p5 p6
      rw [hlen, hgw] at hm
      have e1 : d = d' := by rw [hd] at f2; exact Option.some.inj f2
      have e2 : m = m' := by rw [hm] at f4; exact Option.some.inj f4
      subst e1
      subst e2
      rw [flag_eq hd16, f5] at hg2
      rw [f12] at hst2
      rw [hlen', hn]
      -- the closed subtree
      have hK'no : ¬ Occurs K' (c.take n) := by
        rintro ⟨e, he, h⟩
        exact (before_not_prefix (f11 e he)).2 h
      have hbel : below (K ++ under c J) (c.take n) = J' := by
        rw [f6, below_append, below_of_not_occurs hK'no, List.nil_append, below_under]
      have hbr : BranchAt (K ++ under c J) (c.take n) := by
        rw [f6, branchAt_append_of_not_occurs hK'no (List.prefix_refl _), branchAt_under]
        exact ⟨[], by simp, branchAt_of_commonPrefix (by rintro rfl; simp at f7) f8 f9⟩
      have hcl := close_collect (s := s2) (T := K ++ under c J) (n := n) (st := stackOf keccak K' (c.take n)) hk hlt hi.path
        hbr (by rw [hbel]; exact f7) (by rw [hbel]; exact f8) (by rw [hbel]; exact f9)
        (by rw [hbel, hg2, List.getElem?_set_self (by omega)])
        (by rw [hbel]; exact hst2)
        (by
          rintro rfl
          refine ⟨rfl, ?_⟩
          rw [List.take_zero] at hbel
          rw [hbel, f6, f14 rfl, List.take_zero, under_nil, List.nil_append])
        (fun x d hx hxd => not_occurs_right hi.before hx hxd) p3 p4 p5 p6
      obtain ⟨htot, hok⟩ := hcl
      have hqn : ¬ c.take n <+: q ∨ q = [] := by
        by_cases hq0 : q = []
        · exact Or.inr hq0
        · left
          intro hpre
          rw [hn] at hret
          have hlt2 : prefixLength q c < n := by
            by_contra h0
            exact hret ⟨by omega, hq0⟩
          obtain ⟨hqp, hqb⟩ : IsPath q ∧ Before c q := by
            rcases hq with h0 | h0
            · exact absurd h0 hq0
            · exact h0
          exact (before_not_prefix (before_take hqb hlt2)).1 hpre
      constructor
      · intro hB
        obtain ⟨t, ht⟩ := htot (hB _ (List.take_prefix _ _) hqn)
        rw [ht]
        simp only
        split
        · exact ⟨_, rfl⟩
        · exact ⟨_, rfl⟩
      · intro t nxt h
        cases hcg : closeGroup keccak true s2 c n with
        | err e => cases e
        | ub => rw [hcg] at h; cases h
        | ok s3 =>
          rw [hcg] at h
          simp only at h
          obtain ⟨o1, o2, o3, o4, o5⟩ := hok s3 hcg
          rw [p2] at o4 o5
          have hold : ¬ (¬ c.take n <+: c ∨ (ext = true ∧ c.take n = c)) := by
            rintro (h0 | ⟨_, h0⟩)
            · exact h0 (List.take_prefix _ _)
            · have := congrArg List.length h0
              rw [List.length_take] at this
              omega
          have htl : (c.take n).length = n := by rw [List.length_take]; omega
          have hiff : ∀ p, Recorded (K ++ under c J) p → ((¬ p <+: c.take n ∨ (true = true ∧ p = c.take n)) ↔
              ((¬ p <+: c ∨ (ext = true ∧ p = c)) ∨ p = c.take n)) := by
            intro p hp
            constructor
            · rintro (h0 | ⟨_, h0⟩)
              · by_cases hpc : p <+: c
                · have hpl : n + 1 ≤ p.length := by
                    by_contra h1
                    exact h0 (prefix_take_of hpc (by omega))
                  exact Or.inl (Or.inr (branch_on_key hi hnol hp.1 hpc hpl))
                · exact Or.inl (Or.inl hpc)
              · exact Or.inr h0
            · rintro ((h0 | ⟨_, h0⟩) | h0)
              · exact Or.inl (fun h1 => h0 (h1.trans (List.take_prefix _ _)))
              · left
                subst h0
                intro h1
                have := h1.length_le
                rw [List.length_take] at this
                omega
              · exact Or.inr ⟨rfl, h0⟩
          have hcoll := coll_step hc.coll hiff hold o4 o5
          by_cases hn0 : n = 0
          · rw [if_pos hn0] at h
            cases h
            have hq0 : q = [] := by
              by_contra hne
              exact hret ⟨by omega, hne⟩
            refine ⟨fun _ => ⟨?_, fun h => absurd hq0 h, fun h => absurd hq0 h, ?_⟩, fun c' h => by cases h⟩
            · simp only [resize_length]
            · refine hcoll.congr fun p hp => ⟨fun _ => Or.inr hq0, fun _ => ?_⟩
              rw [hn0, List.take_zero]
              by_cases hp0 : p = []
              · exact Or.inr ⟨rfl, hp0⟩
              · left
                intro h0
                exact hp0 (List.prefix_nil.mp h0)
          · rw [if_neg hn0] at h
            cases h
            refine ⟨fun h => (by cases h), fun c' h => ?_⟩
            cases h
            refine ⟨List.take_prefix _ _, ?_, fun _ => ?_, ?_, ?_, hcoll⟩
            · simp only [resize_length]
            · simp only [resize_length, htl]
            · rw [htl]; exact o2
            · rw [htl]; exact o3

theorem loop_collect {keccak : Bytes → Bytes} (hk : ∀ x, (keccak x).length = 32) {q value : Bytes} {T : Ents} :
    ∀ (fuel : Nat) {ext : Bool} {s : HashBuilder} {K J : Ents} {c : Bytes}, c.length < fuel →
    Inv keccak ext s K J c value → NextKey c q → K ++ under c J = T → CInv keccak ext s T c →
    ((∀ p, p <+: c → (¬ p <+: q ∨ q = []) → Recorded T p → Big keccak T p) →
      ∃ t, genStructLoop keccak true fuel ext s c q value = .ok t) ∧
    ∀ t, genStructLoop keccak true fuel ext s c q value = .ok t → COut keccak t T q
  | 0, _, _, _, _, _, h, _, _, _, _ => by omega
  | fuel + 1, ext, s, K, J, c, hf, hi, hq, hT, hc => by
    subst hT
    obtain ⟨h1, h2⟩ := iteration_collect hk hi hq hc
    unfold genStructLoop
    constructor
    · intro hB
      obtain ⟨⟨t, nxt⟩, h3⟩ := h1 hB
      rw [h3]
      simp only [Outcome.bind]
      cases nxt with
      | none => exact ⟨t, rfl⟩
      | some c' =>
        obtain ⟨hl, hq', K', J', hi', e⟩ := (iteration_ok hk hi hq h3).2 c' rfl
        obtain ⟨hp, hc'⟩ := (h2 t (some c') h3).2 c' rfl
        exact (loop_collect hk fuel (by omega) hi' hq' e hc').1 (fun p hpc hpq hr => hB p (hpc.trans hp) hpq hr)
    · intro t ht
      rw [bind_ok] at ht
      obtain ⟨⟨t', nxt⟩, h3, h4⟩ := ht
      cases nxt with
      | none =>
        cases h4
        exact (h2 _ none h3).1 rfl
      | some c' =>
        obtain ⟨hl, hq', K', J', hi', e⟩ := (iteration_ok hk hi hq h3).2 c' rfl
        obtain ⟨hp, hc'⟩ := (h2 t' (some c') h3).2 c' rfl
        exact (loop_collect hk fuel (by omega) hi' hq' e hc').2 t h4

end Silkworm.Trie
