import Verif.Trie.BuilderLemmas

/-!
# The hash builder keeps its state

Helper lemmas: `genStructStep` takes the state for the pending key to the state for the next one.
-/

namespace Silkworm.Trie

open Silkworm.Rlp
open Silkworm.Spec (Item rlp rlpItems rlpStr hexPrefix joinNibbles nibbles reference trieNode depthBound commonPrefix
  children branchValue digits lcp)

theorem bind_ok {ε α β : Type} {x : Outcome ε α} {f : α → Outcome ε β} {b : β} :
    x.bind f = .ok b ↔ ∃ a, x = .ok a ∧ f a = .ok b := Outcome.bind_eq_ok

theorem at?_ok {α : Type} {l : List α} {i : Nat} {x : α} : at? l i = .ok x ↔ l[i]? = some x := by
  unfold at?
  cases h : l[i]? with
  | none => simp
  | some y => simp

theorem orAt_ok {l r : List Nat} {i b : Nat} : orAt l i b = .ok r ↔ ∃ m, l[i]? = some m ∧ r = l.set i (m ||| b) := by
  unfold orAt
  rw [bind_ok]
  constructor
  · rintro ⟨m, h1, h2⟩
    cases h2
    exact ⟨m, at?_ok.mp h1, rfl⟩
  · rintro ⟨m, h1, rfl⟩
    exact ⟨m, at?_ok.mpr h1, rfl⟩

/-- Two builder states agree on what matters for the root. -/
def Core (s t : HashBuilder) : Prop := t.groups = s.groups ∧ t.stack = s.stack

theorem Core.refl (s : HashBuilder) : Core s s := ⟨rfl, rfl⟩

theorem extensionMasks_core {s t : HashBuilder} {c : Bytes} {n : Nat} (h : extensionMasks s c n = .ok t) : Core s t := by
  unfold extensionMasks at h
  rw [bind_ok] at h
  obtain ⟨d, _, h⟩ := h
  rw [bind_ok] at h
  obtain ⟨hm, _, h⟩ := h
  rw [bind_ok] at h
  obtain ⟨tm, _, h⟩ := h
  split at h
  · rw [bind_ok] at h
    obtain ⟨x, _, h⟩ := h
    cases h
    exact ⟨rfl, rfl⟩
  · cases h
    exact ⟨rfl, rfl⟩

theorem storeNode_core {keccak : Bytes → Bytes} {s t : HashBuilder} {c : Bytes} {n : Nat} {hs : List Bytes}
    (h : storeNode keccak s c n hs = .ok t) : Core s t := by
  unfold storeNode at h
  rw [bind_ok] at h
  obtain ⟨s1, h1, h⟩ := h
  have c1 : Core s s1 := by
    split at h1
    · rw [bind_ok] at h1
      obtain ⟨d, _, h1⟩ := h1
      rw [bind_ok] at h1
      obtain ⟨x, _, h1⟩ := h1
      cases h1
      exact ⟨rfl, rfl⟩
    · cases h1; exact Core.refl s
  simp only [bind_ok] at h
  obtain ⟨_, _, _, _, _, _, _, _, nn, _, h⟩ := h
  cases h
  exact c1

theorem collectBranch_core {keccak : Bytes → Bytes} {s t : HashBuilder} {c : Bytes} {n : Nat} {hs : List Bytes}
    (h : collectBranch keccak s c n hs = .ok t) : Core s t := by
  unfold collectBranch at h
  rw [bind_ok] at h
  obtain ⟨s1, h1, h⟩ := h
  have c1 : Core s s1 := by
    split at h1
    · rw [bind_ok] at h1
      obtain ⟨d, _, h1⟩ := h1
      rw [bind_ok] at h1
      obtain ⟨x, _, h1⟩ := h1
      cases h1
      exact ⟨rfl, rfl⟩
    · cases h1; exact Core.refl s
  simp only [bind_ok] at h
  obtain ⟨_, _, _, _, h⟩ := h
  split at h
  · have := storeNode_core h
    exact ⟨this.1.trans c1.1, this.2.trans c1.2⟩
  · cases h; exact c1

theorem closeGroup_ok {keccak : Bytes → Bytes} {collect : Bool} {s t : HashBuilder} {c : Bytes} {n : Nat}
    (h : closeGroup keccak collect s c n = .ok t) :
    t.groups = s.groups ∧ ∃ g hm r, s.groups[n]? = some g ∧ branchRef keccak s.stack g hm = .ok r ∧ t.stack = r.1 := by
  unfold closeGroup at h
  rw [bind_ok] at h
  obtain ⟨g, h1, h⟩ := h
  rw [bind_ok] at h
  obtain ⟨hm, h2, h⟩ := h
  rw [bind_ok] at h
  obtain ⟨r, h3, h⟩ := h
  cases collect with
  | false =>
    simp only [Bool.false_eq_true, if_false] at h
    cases h
    exact ⟨rfl, g, hm, r, at?_ok.mp h1, h3, rfl⟩
  | true =>
    simp only [if_true] at h
    have := collectBranch_core h
    exact ⟨this.1, g, hm, r, at?_ok.mp h1, h3, this.2⟩

/-- The loop invariant: the entries `K` are finished, the subtree `J` hangs at `c` and is not yet connected. -/
structure Inv (keccak : Bytes → Bytes) (ext : Bool) (s : HashBuilder) (K J : Ents) (c value : Bytes) : Prop where
  sorted : Sorted K
  before : AllBefore K c
  groups : s.groups = groupsOf K c
  path : IsPath c
  nonempty : c ≠ []
  size : c.length + value.length < 2 ^ 63
  leaf : ext = false → J = [([], value)] ∧ s.stack = stackOf keccak K c
  branch : ext = true → 2 ≤ J.length ∧ commonPrefix J = [] ∧ s.stack = stackOf keccak K c ++ [refB keccak J]

theorem Inv.J_ne {keccak : Bytes → Bytes} {ext : Bool} {s : HashBuilder} {K J : Ents} {c value : Bytes}
    (h : Inv keccak ext s K J c value) : J ≠ [] := by
  cases ext with
  | false => rw [(h.leaf rfl).1]; simp
  | true => have := (h.branch rfl).1; rintro rfl; simp at this

theorem pushShortNode_ok {keccak : Bytes → Bytes} (hk : ∀ x, (keccak x).length = 32) {collect ext : Bool}
    {s s1 t : HashBuilder} {K J : Ents} {c value : Bytes} {n : Nat} (hi : Inv keccak ext s K J c value)
    (hs1 : s1.stack = s.stack) (h : pushShortNode keccak collect ext s1 c value n = .ok t) :
    t.groups = s1.groups ∧ t.stack = stackOf keccak K c ++ [refB keccak (under (c.drop n) J)] := by
  have hp := isPath_drop hi.path n
  have hl : (c.drop n).length ≤ c.length := by simp
  have hsz := hi.size
  unfold pushShortNode at h
  cases ext with
  | false =>
    simp only [Bool.false_eq_true, not_false_eq_true, if_true] at h
    cases h
    refine ⟨rfl, ?_⟩
    simp only
    rw [hs1, (hi.leaf rfl).2, (hi.leaf rfl).1, leafNodeRlp_eq hp (by omega), nodeRef_rlp hk]
    simp [refB, under, node_single]
  | true =>
    simp only [not_true_eq_false, if_false] at h
    have hb := hi.branch rfl
    by_cases hsk : c.drop n = []
    · simp only [hsk, ne_eq, not_true_eq_false, if_false] at h
      cases h
      rw [hsk, under_nil, hs1]
      exact ⟨rfl, hb.2.2⟩
    · simp only [hsk, ne_eq, not_false_eq_true, if_true] at h
      rw [bind_ok] at h
      obtain ⟨s2, h2, h⟩ := h
      have c2 : Core s1 s2 := by
        split at h2
        · exact extensionMasks_core h2
        · cases h2; exact Core.refl _
      have hst : s2.stack = stackOf keccak K c ++ [refB keccak J] := by rw [c2.2, hs1, hb.2.2]
      rw [hst] at h
      simp only [List.getLast?_append, List.getLast?_singleton, Option.some_or] at h
      cases h
      refine ⟨c2.1, ?_⟩
      simp only [List.dropLast_concat]
      unfold refB
      rw [extensionNodeRlp_eq hk hp (by omega), nodeRef_rlp hk, node_under keccak J hb.1 hb.2.1 _ hsk]

/-- What the state must be when `gen_struct_step` returns. -/
def Done (keccak : Bytes → Bytes) (q : Bytes) (T : Ents) (s : HashBuilder) : Prop :=
  (q = [] → s.groups = [] ∧ s.stack = [refB keccak T]) ∧
  (q ≠ [] → s.groups = groupsOf T q ∧ s.stack = stackOf keccak T q)

/-- The next key is absent or comes after `c`. -/
def NextKey (c q : Bytes) : Prop := q = [] ∨ (IsPath q ∧ Before c q)

theorem prefixLength_nil (c : Bytes) : prefixLength [] c = 0 := by cases c <;> rfl

theorem before_take : ∀ {c q : Bytes} {n : Nat}, Before c q → prefixLength q c < n → Before (c.take n) q
  | [], _, _, h, _ => by cases h
  | _ :: _, [], _, h, _ => by cases h
  | x :: c, y :: q, 0, _, hn => by omega
  | x :: c, y :: q, n + 1, h, hn => by
    rcases h with h | ⟨rfl, h⟩
    · exact Or.inl h
    · have : prefixLength (x :: q) (x :: c) = prefixLength q c + 1 := by simp [prefixLength]
      exact Or.inr ⟨rfl, before_take h (by omega)⟩

/-- The length of the group the current key belongs to. -/
def lenOf (s : HashBuilder) (c q : Bytes) : Nat :=
  max (if s.groups = [] then 0 else s.groups.length - 1) (prefixLength q c)

theorem lenOf_lt {keccak : Bytes → Bytes} {ext : Bool} {s : HashBuilder} {K J : Ents} {c value q : Bytes}
    (hi : Inv keccak ext s K J c value) (hq : NextKey c q) : lenOf s c q < c.length := by
  have h1 : prefixLength q c < c.length := by
    rcases hq with rfl | ⟨_, hq⟩
    · rw [prefixLength_nil]; exact List.length_pos_iff.mpr hi.nonempty
    · exact before_prefixLength hq
  unfold lenOf
  have h2 : (if s.groups = [] then 0 else s.groups.length - 1) < c.length := by
    split
    · omega
    · rename_i hg
      rw [hi.groups] at hg ⊢
      obtain ⟨n, K', L, x, t, e1, e2, _⟩ := decompose (keccak := keccak) hi.sorted hi.before
        (fun h => hg ((groupsOf_eq_nil hi.before).mpr h))
      have : (c.drop n).length = (x :: t).length := by rw [e2]
      simp only [List.length_drop, List.length_cons] at this
      omega
  omega

/-- The groups after the digit of the current key was added. -/
def groupsWith (s : HashBuilder) (c q : Bytes) : List Nat :=
  if s.groups.length ≤ lenOf s c q then resize s.groups (lenOf s c q + 1) else s.groups

theorem groupsWith_get {s : HashBuilder} {c q : Bytes} : ∃ m, (groupsWith s c q)[lenOf s c q]? = some m := by
  unfold groupsWith
  split
  · exact ⟨_, List.getElem?_eq_getElem (by rw [resize_length]; omega)⟩
  · exact ⟨_, List.getElem?_eq_getElem (by omega)⟩

theorem mem_under {s : Bytes} {J : Ents} {e : Bytes × Bytes} : e ∈ under s J ↔ ∃ f ∈ J, e = (s ++ f.1, f.2) := by
  simp only [under, List.mem_map]
  constructor
  · rintro ⟨f, hf, rfl⟩; exact ⟨f, hf, rfl⟩
  · rintro ⟨f, hf, rfl⟩; exact ⟨f, hf, rfl⟩

/-- The state when a group is closed. -/
theorem close_facts {keccak : Bytes → Bytes} (hk : ∀ x, (keccak x).length = 32) {K J : Ents} {c : Bytes} (hs : Sorted K)
    (hb : AllBefore K c) (hp : IsPath c) (hJ : J ≠ []) (hK : K ≠ []) :
    ∃ (n : Nat) (K' J' : Ents) (d : UInt8) (m : Nat), (groupsOf K c).length = n + 1 ∧ c[n]? = some d ∧ d.toNat < 16 ∧
      (groupsOf K c)[n]? = some m ∧ m ||| 2 ^ d.toNat = maskBelow 16 J' ∧
      K ++ under c J = K' ++ under (c.take n) J' ∧ 2 ≤ J'.length ∧ commonPrefix J' = [] ∧ (∀ e ∈ J', e.1 ≠ []) ∧
      Sorted K' ∧ AllBefore K' (c.take n) ∧
      stackOf keccak K c ++ [refB keccak (under (c.drop (n + 1)) J)] =
        stackOf keccak K' (c.take n) ++ refsBelow keccak 16 J' ∧
      popZeros ((groupsOf K c).take n) = groupsOf K' (c.take n) ∧ (n = 0 → K' = []) := by
  obtain ⟨n, K', L, x, s, h1, h2, h3, h4, h5, h6, h7, h8, h9, h10⟩ := decompose (keccak := keccak) hs hb hK
  have hx : x.toNat < 16 := hp x (List.mem_of_mem_drop (h2 ▸ List.mem_cons_self ..))
  have hcn : c[n]? = some x := by
    have : (c.drop n)[0]? = some x := by rw [h2]; rfl
    simpa using this
  have hdrop : c.drop (n + 1) = s := by
    have : (c.drop n).drop 1 = s := by rw [h2]; rfl
    rwa [List.drop_drop, ] at this
  have hg := below_append_gt (keccak := keccak) (s := s) h5 hJ hx (Nat.le_refl 16)
  refine ⟨n, K', L ++ under (x :: s) J, x, maskBelow x.toNat L, h1, hcn, hx, ?_, hg.1.symm, ?_, ?_, ?_, ?_, h6, h7, ?_,
    h10, ?_⟩
  · rw [h9]
    have : ((groupsOf K c).take n).length = n := by rw [List.length_take]; omega
    rw [List.getElem?_append_right (by omega)]
    simp [this]
  · rw [h3, under_append, under_under, List.append_assoc]
    congr 3
    rw [← h2, List.take_append_drop]
  · rw [List.length_append, under_length]
    have := List.length_pos_iff.mpr h4
    have := List.length_pos_iff.mpr hJ
    omega
  · obtain ⟨e, L', rfl⟩ : ∃ e L', L = e :: L' := by
      cases L with
      | nil => exact absurd rfl h4
      | cons e L' => exact ⟨e, L', rfl⟩
    obtain ⟨f, J', rfl⟩ : ∃ e L', J = e :: L' := by
      cases J with
      | nil => exact absurd rfl hJ
      | cons e L' => exact ⟨e, L', rfl⟩
    obtain ⟨a, k, e1, e2⟩ := h5 e (List.mem_cons_self ..)
    have m1 : (a :: k, e.2) ∈ (e :: L') ++ under (x :: s) (f :: J') := by
      rw [← e1]; simp
    have m2 : (x :: (s ++ f.1), f.2) ∈ (e :: L') ++ under (x :: s) (f :: J') := by
      simp [under]
    exact commonPrefix_nil_of_heads m1 m2 (by rintro rfl; rw [UInt8.lt_iff_toNat_lt] at e2; omega)
  · intro e he
    rcases List.mem_append.mp he with he | he
    · obtain ⟨a, k, e1, _⟩ := h5 e he
      rw [e1]; simp
    · obtain ⟨f, _, rfl⟩ := mem_under.mp he
      simp
  · rw [h8, hdrop, hg.2, List.append_assoc]
  · rintro rfl
    exact allBefore_nil h7

theorem set_take_append {l : List Nat} {n : Nat} (v : Nat) : resize (l.set n v) n = resize l n := by
  unfold resize
  rw [List.take_set_of_le (Nat.le_refl n), List.length_set]

theorem resize_of_le {l : List Nat} {n : Nat} (h : n ≤ l.length) : resize l n = l.take n := by
  unfold resize
  rw [Nat.sub_eq_zero_of_le h]; simp

set_option maxHeartbeats 1000000 in
theorem iteration_ok {keccak : Bytes → Bytes} (hk : ∀ x, (keccak x).length = 32) {collect ext : Bool}
    {s t : HashBuilder} {K J : Ents} {c q value : Bytes} {nxt : Option Bytes} (hi : Inv keccak ext s K J c value)
    (hq : NextKey c q) (h : genStructIteration keccak collect ext s c q value = .ok (t, nxt)) :
    (nxt = none → Done keccak q (K ++ under c J) t) ∧
    ∀ c', nxt = some c' → c'.length < c.length ∧ NextKey c' q ∧
      ∃ K' J', Inv keccak true t K' J' c' value ∧ K' ++ under c' J' = K ++ under c J := by
  have hJ := hi.J_ne
  have hlt := lenOf_lt hi hq
  unfold genStructIteration at h
  simp only at h
  rw [bind_ok] at h
  obtain ⟨d, hd, h⟩ := h
  rw [bind_ok] at h
  obtain ⟨gr, hgr, h⟩ := h
  rw [bind_ok] at h
  obtain ⟨s2, hpush, h⟩ := h
  change at? c (lenOf s c q) = .ok d at hd
  change orAt (groupsWith s c q) (lenOf s c q) (flag d) = .ok gr at hgr
  rw [at?_ok] at hd
  obtain ⟨m, hm, rfl⟩ := orAt_ok.mp hgr
  have hd16 : d.toNat < 16 := hi.path d (List.mem_of_getElem? hd)
  rw [flag_eq hd16] at *
  -- the state handed to `pushShortNode`
  generalize hs1 : (if s.treeMasks.length < c.length then
      ({ s with groups := (groupsWith s c q).set (lenOf s c q) (m ||| 2 ^ d.toNat),
                treeMasks := resize s.treeMasks c.length, hashMasks := resize s.hashMasks c.length } : HashBuilder)
    else { s with groups := (groupsWith s c q).set (lenOf s c q) (m ||| 2 ^ d.toNat) }) = s1 at hpush
  have hs1s : s1.stack = s.stack := by rw [← hs1]; split <;> rfl
  have hs1g : s1.groups = (groupsWith s c q).set (lenOf s c q) (m ||| 2 ^ d.toNat) := by rw [← hs1]; split <;> rfl
  obtain ⟨hg2, hst2⟩ := pushShortNode_ok hk hi hs1s hpush
  rw [hs1g] at hg2
  by_cases hret : (if s.groups = [] then 0 else s.groups.length - 1) ≤ prefixLength q c ∧ q ≠ []
  · -- returns without closing
    rw [if_pos hret] at h
    cases h
    refine ⟨fun _ => ⟨fun h0 => absurd h0 hret.2, fun _ => ?_⟩, fun c' h0 => by cases h0⟩
    have hlen : lenOf s c q = prefixLength q c := by unfold lenOf; omega
    obtain ⟨hqp, hqb⟩ : IsPath q ∧ Before c q := by
      rcases hq with h0 | h0
      · exact absurd h0 hret.2
      · exact h0
    have hgl : s.groups.length ≤ prefixLength q c + 1 := by
      have := hret.1
      split at this
      · rename_i h0; rw [h0]; simp
      · omega
    rw [hi.groups] at hgl
    obtain ⟨a1, m', a2, a3⟩ := advance (keccak := keccak) hJ hqp hqb hi.before hgl d (hlen ▸ hd)
    have hgw : groupsWith s c q = resize (groupsOf K c) (prefixLength q c + 1) := by
      unfold groupsWith
      rw [hlen, hi.groups]
      split
      · rfl
      · rw [resize_of_length]; omega
    rw [hgw, hlen] at hg2 hm
    have : m = m' := by rw [hm] at a2; exact Option.some.inj a2
    subst this
    refine ⟨by rw [hg2, a3], ?_⟩
    rw [hst2, a1]
    simp only [hret.2, ne_eq, not_false_eq_true, decide_true, Bool.true_or, if_true]
    have hlen' : max (if s.groups = [] then 0 else s.groups.length - 1) (prefixLength q c) = prefixLength q c := hlen
    rw [hlen']
  · rw [if_neg hret] at h
    rw [bind_ok] at h
    obtain ⟨s3, hclose, h⟩ := h
    by_cases hK : K = []
    · -- the last entry, nothing before it
      have hg0 : s.groups = [] := by rw [hi.groups, hK, groupsOf_nil]
      have hq0 : q = [] := by
        by_contra hne
        exact hret ⟨by rw [if_pos hg0]; omega, hne⟩
      subst hq0
      simp only [hg0, ne_eq, not_true_eq_false, decide_false, Bool.or_self, Bool.false_eq_true, if_false,
        if_true] at hclose hst2 h
      cases hclose
      cases h
      refine ⟨fun _ => ⟨fun _ => ?_, fun h0 => absurd rfl h0⟩, fun c' h0 => by cases h0⟩
      rw [prefixLength_nil]
      refine ⟨resize_zero _, ?_⟩
      simp only
      rw [hst2, hK, stackOf_nil, prefixLength_nil]
      rfl
    · -- close the group
      have hgne : s.groups ≠ [] := by rw [hi.groups]; exact fun h0 => hK ((groupsOf_eq_nil hi.before).mp h0)
      have hpl : (if s.groups = [] then 0 else s.groups.length - 1) = s.groups.length - 1 := if_neg hgne
      rw [hpl] at h hret
      simp only [hgne, ne_eq, not_false_eq_true, decide_true, Bool.or_true, if_true, if_false] at hclose hst2
      obtain ⟨n, K', J', d', m', f1, f2, f3, f4, f5, f6, f7, f8, f9, f10, f11, f12, f13, f14⟩ :=
        close_facts (keccak := keccak) hk hi.sorted hi.before hi.path hJ hK
      have hn : s.groups.length - 1 = n := by rw [hi.groups, f1]; rfl
      have hlen : lenOf s c q = n := by
        unfold lenOf
        rw [hpl, hn]
        rw [hn] at hret
        by_cases hq0 : q = []
        · subst hq0; rw [prefixLength_nil]; omega
        · have : ¬ n ≤ prefixLength q c := fun h0 => hret ⟨h0, hq0⟩
          omega
      have hgw : groupsWith s c q = groupsOf K c := by
        unfold groupsWith
        rw [hlen, hi.groups, if_neg (by omega)]
      have hlen' : max (if s.groups = [] then 0 else s.groups.length - 1) (prefixLength q c) = n := hlen
      simp only [hgne, if_false] at hlen'
      rw [hlen] at hd
      rw [hlen, hgw] at hg2 hm
      rw [hlen'] at hclose hst2 h
      rw [hn] at h
      have e1 : d = d' := by rw [hd] at f2; exact Option.some.inj f2
      have e2 : m = m' := by rw [hm] at f4; exact Option.some.inj f4
      subst e1
      subst e2
      obtain ⟨c1, g, hmk, r, c2, c3, c4⟩ := closeGroup_ok hclose
      rw [hg2] at c1
      have hgm : g = maskBelow 16 J' := by
        rw [hg2, List.getElem?_set_self (by omega)] at c2
        rw [← f5]
        exact (Option.some.inj c2).symm
      subst hgm
      rw [hst2, f12] at c3
      have hsub : subset hmk (maskBelow 16 J') = true := by
        by_contra h0
        unfold branchRef at c3
        rw [if_pos h0] at c3
        cases c3
      rw [branchRef_eq hk f7 f8 f9 hsub] at c3
      cases c3
      have hgr3 : resize s3.groups n = (groupsOf K c).take n := by
        rw [c1, set_take_append, resize_of_le (by omega)]
      by_cases hn0 : n = 0
      · subst hn0
        simp only [if_true] at h
        cases h
        have hq0 : q = [] := by
          by_contra hne
          exact hret ⟨by omega, hne⟩
        refine ⟨fun _ => ⟨fun _ => ⟨resize_zero _, ?_⟩, fun h0 => absurd hq0 h0⟩, fun c' h0 => by cases h0⟩
        rw [f6, f14 rfl]
        simp only [c4, List.take_zero, under_nil, List.nil_append]
        rfl
      · simp only [hn0, if_false] at h
        cases h
        refine ⟨fun h0 => (by cases h0), fun c' h0 => ?_⟩
        cases h0
        have hnlt : n < c.length := by rw [hlen] at hlt; exact hlt
        have htake : (c.take n).length = n := by rw [List.length_take]; omega
        refine ⟨by rw [htake]; exact hnlt, ?_, K', J', ?_, f6.symm⟩
        · rcases hq with h0 | ⟨h0, h0'⟩
          · exact Or.inl h0
          · refine Or.inr ⟨h0, before_take h0' ?_⟩
            by_contra hge
            rw [hn] at hret
            refine hret ⟨by omega, ?_⟩
            rintro rfl
            cases c <;> cases h0'
        · refine ⟨f10, f11, ?_, isPath_take hi.path n, ?_, ?_, (fun h0 => by cases h0), fun _ => ⟨f7, f8, c4⟩⟩
          · simp only
            rw [hgr3, f13]
          · intro h0
            rw [h0] at htake
            exact hn0 htake.symm
          · have := hi.size
            rw [htake]
            omega

theorem loop_ok {keccak : Bytes → Bytes} (hk : ∀ x, (keccak x).length = 32) {collect : Bool} {q value : Bytes} :
    ∀ (fuel : Nat) {ext : Bool} {s t : HashBuilder} {K J : Ents} {c : Bytes}, Inv keccak ext s K J c value →
    NextKey c q → genStructLoop keccak collect fuel ext s c q value = .ok t → Done keccak q (K ++ under c J) t
  | 0, _, _, _, _, _, _, _, _, h => by cases h
  | fuel + 1, ext, s, t, K, J, c, hi, hq, h => by
    unfold genStructLoop at h
    rw [bind_ok] at h
    obtain ⟨⟨s', nxt⟩, h1, h⟩ := h
    have := iteration_ok hk hi hq h1
    cases nxt with
    | none => cases h; exact this.1 rfl
    | some c' =>
      obtain ⟨_, hq', K', J', hi', e⟩ := this.2 c' rfl
      rw [← e]
      exact loop_ok hk fuel hi' hq' h

/-! ## Without a collector nothing fails -/

/-- The masks that are only used by the collector are all zero. -/
def MaskOk (s : HashBuilder) : Prop :=
  ∃ n, s.hashMasks = List.replicate n 0 ∧ s.treeMasks = List.replicate n 0

theorem resize_replicate (n m : Nat) : resize (List.replicate n 0) m = List.replicate m 0 := by
  unfold resize
  rw [List.take_replicate, List.length_replicate, List.replicate_append_replicate]
  congr 1
  omega

set_option maxHeartbeats 1000000 in
theorem iteration_total {keccak : Bytes → Bytes} (hk : ∀ x, (keccak x).length = 32) {ext : Bool}
    {s : HashBuilder} {K J : Ents} {c q value : Bytes} (hi : Inv keccak ext s K J c value)
    (hq : NextKey c q) (hmask : MaskOk s) :
    ∃ t nxt, genStructIteration keccak false ext s c q value = .ok (t, nxt) ∧ MaskOk t := by
  have hJ := hi.J_ne
  have hlt := lenOf_lt hi hq
  obtain ⟨m, hm⟩ := groupsWith_get (s := s) (c := c) (q := q)
  obtain ⟨d, hd⟩ : ∃ d, c[lenOf s c q]? = some d := ⟨_, List.getElem?_eq_getElem hlt⟩
  have hd16 : d.toNat < 16 := hi.path d (List.mem_of_getElem? hd)
  have hor : orAt (groupsWith s c q) (lenOf s c q) (flag d) =
      .ok ((groupsWith s c q).set (lenOf s c q) (m ||| flag d)) := orAt_ok.mpr ⟨m, hm, rfl⟩
  unfold genStructIteration
  simp only
  have hat : at? c (max (if s.groups = [] then 0 else s.groups.length - 1) (prefixLength q c)) = .ok d := at?_ok.mpr hd
  rw [hat]
  show ∃ t nxt, Outcome.bind (orAt (groupsWith s c q) (lenOf s c q) (flag d)) _ = _ ∧ _
  rw [hor]
  simp only [Outcome.bind]
  generalize hs1 : (if s.treeMasks.length < c.length then
      ({ s with groups := (groupsWith s c q).set (lenOf s c q) (m ||| flag d),
                treeMasks := resize s.treeMasks c.length, hashMasks := resize s.hashMasks c.length } : HashBuilder)
    else { s with groups := (groupsWith s c q).set (lenOf s c q) (m ||| flag d) }) = s1
  have hs1s : s1.stack = s.stack := by rw [← hs1]; split <;> rfl
  have hs1g : s1.groups = (groupsWith s c q).set (lenOf s c q) (m ||| flag d) := by rw [← hs1]; split <;> rfl
  obtain ⟨N, hN1, hN2⟩ := hmask
  have hs1m : ∃ N', c.length ≤ N' ∧ s1.hashMasks = List.replicate N' 0 ∧ s1.treeMasks = List.replicate N' 0 := by
    rw [← hs1]
    split
    · exact ⟨c.length, Nat.le_refl _, by rw [hN1, resize_replicate], by rw [hN2, resize_replicate]⟩
    · rename_i h0
      rw [hN2, List.length_replicate] at h0
      exact ⟨N, by omega, hN1, hN2⟩
  obtain ⟨N', hN', hN1', hN2'⟩ := hs1m
  generalize hinB : (decide (q ≠ []) || decide (s.groups ≠ [])) = inB
  -- the short node
  have hpush : ∀ n, ∃ s2, pushShortNode keccak false ext s1 c value n = .ok s2 ∧
      ∃ N2, (n ≤ N2 ∨ c.length ≤ N2) ∧ s2.hashMasks = List.replicate N2 0 ∧ s2.treeMasks = List.replicate N2 0 := by
    intro n
    unfold pushShortNode
    cases ext with
    | false =>
      simp only [Bool.false_eq_true, not_false_eq_true, if_true]
      exact ⟨_, rfl, N', Or.inr hN', hN1', hN2'⟩
    | true =>
      simp only [not_true_eq_false, if_false]
      by_cases hsk : c.drop n = []
      · simp only [hsk, ne_eq, not_true_eq_false, if_false]
        exact ⟨_, rfl, N', Or.inr hN', hN1', hN2'⟩
      · simp only [hsk, ne_eq, not_false_eq_true, if_true, Bool.false_eq_true, false_and, if_false, Outcome.bind]
        rw [hs1s, (hi.branch rfl).2.2]
        simp only [List.getLast?_append, List.getLast?_singleton, Option.some_or]
        refine ⟨_, rfl, n, Or.inl (Nat.le_refl _), ?_, ?_⟩
        · rw [hN1', resize_replicate]
        · rw [hN2', resize_replicate]
  obtain ⟨s2, hp2, N2, hN2le, hh2, ht2⟩ := hpush (if inB = true then lenOf s c q + 1 else lenOf s c q)
  have hp2' : pushShortNode keccak false ext s1 c value
      (if inB = true then max (if s.groups = [] then 0 else s.groups.length - 1) (prefixLength q c) + 1
        else max (if s.groups = [] then 0 else s.groups.length - 1) (prefixLength q c)) = .ok s2 := hp2
  rw [hp2']
  simp only
  by_cases hret : (if s.groups = [] then 0 else s.groups.length - 1) ≤ prefixLength q c ∧ q ≠ []
  · rw [if_pos hret]
    exact ⟨_, _, rfl, N2, hh2, ht2⟩
  · rw [if_neg hret]
    obtain ⟨hg2, hst2⟩ := pushShortNode_ok hk hi hs1s hp2
    have hclose : ∃ s3, (if inB = true then closeGroup keccak false s2 c (lenOf s c q) else .ok s2) = .ok s3 ∧
        s3.hashMasks = s2.hashMasks ∧ s3.treeMasks = s2.treeMasks := by
      by_cases hK : K = []
      · have hg0 : s.groups = [] := by rw [hi.groups, hK, groupsOf_nil]
        have hq0 : q = [] := by
          by_contra hne
          exact hret ⟨by rw [if_pos hg0]; omega, hne⟩
        rw [hg0, hq0] at hinB
        simp only [ne_eq, not_true_eq_false, decide_false, Bool.or_self] at hinB
        subst hinB
        exact ⟨s2, by simp, rfl, rfl⟩
      · have hgne : s.groups ≠ [] := by rw [hi.groups]; exact fun h0 => hK ((groupsOf_eq_nil hi.before).mp h0)
        have hpl : (if s.groups = [] then 0 else s.groups.length - 1) = s.groups.length - 1 := if_neg hgne
        rw [hpl] at hret
        simp only [hgne, ne_eq, not_false_eq_true, decide_true, Bool.or_true] at hinB
        subst hinB
        simp only [if_true] at hN2le hst2 ⊢
        obtain ⟨n, K', J', d', m', f1, f2, f3, f4, f5, f6, f7, f8, f9, f10, f11, f12, f13, f14⟩ :=
          close_facts (keccak := keccak) hk hi.sorted hi.before hi.path hJ hK
        have hn : s.groups.length - 1 = n := by rw [hi.groups, f1]; rfl
        have hlen : lenOf s c q = n := by
          unfold lenOf
          rw [hpl, hn]
          rw [hn] at hret
          by_cases hq0 : q = []
          · subst hq0; rw [prefixLength_nil]; omega
          · have : ¬ n ≤ prefixLength q c := fun h0 => hret ⟨h0, hq0⟩
            omega
        have hgw : groupsWith s c q = groupsOf K c := by
          unfold groupsWith
          rw [hlen, hi.groups, if_neg (by omega)]
        rw [hs1g, hlen, hgw] at hg2
        rw [hlen] at hd hst2 hN2le hlt ⊢
        rw [hlen, hgw] at hm
        have e1 : d = d' := by rw [hd] at f2; exact Option.some.inj f2
        have e2 : m = m' := by rw [hm] at f4; exact Option.some.inj f4
        subst e1
        subst e2
        rw [flag_eq hd16, f5] at hg2
        have hgat : at? s2.groups n = .ok (maskBelow 16 J') := by
          rw [at?_ok, hg2, List.getElem?_set_self (by omega)]
        have hhat : at? s2.hashMasks n = .ok 0 := by
          rw [at?_ok, hh2, List.getElem?_replicate, if_pos (by omega)]
        unfold closeGroup
        rw [hgat, hhat]
        simp only [Outcome.bind]
        rw [hst2, f12, branchRef_eq hk f7 f8 f9 (by simp [subset])]
        simp only [Bool.false_eq_true, if_false]
        exact ⟨_, rfl, rfl, rfl⟩
    obtain ⟨s3, hc3, hc4, hc5⟩ := hclose
    have hc3' : (if inB = true then closeGroup keccak false s2 c
        (max (if s.groups = [] then 0 else s.groups.length - 1) (prefixLength q c)) else .ok s2) = .ok s3 := hc3
    rw [hc3']
    simp only
    generalize max (if s.groups = [] then 0 else s.groups.length - 1) (prefixLength q c) = len
    generalize (if s.groups = [] then 0 else s.groups.length - 1) = pl
    split
    · refine ⟨_, _, rfl, len, ?_, ?_⟩
      · show resize s3.hashMasks len = _
        rw [hc4, hh2, resize_replicate]
      · show resize s3.treeMasks len = _
        rw [hc5, ht2, resize_replicate]
    · refine ⟨_, _, rfl, len, ?_, ?_⟩
      · show resize s3.hashMasks len = _
        rw [hc4, hh2, resize_replicate]
      · show resize s3.treeMasks len = _
        rw [hc5, ht2, resize_replicate]

theorem loop_total {keccak : Bytes → Bytes} (hk : ∀ x, (keccak x).length = 32) {q value : Bytes} :
    ∀ (fuel : Nat) {ext : Bool} {s : HashBuilder} {K J : Ents} {c : Bytes}, c.length < fuel →
    Inv keccak ext s K J c value → NextKey c q → MaskOk s →
    ∃ t, genStructLoop keccak false fuel ext s c q value = .ok t ∧ MaskOk t
  | 0, _, _, _, _, _, h, _, _, _ => by omega
  | fuel + 1, ext, s, K, J, c, hf, hi, hq, hm => by
    obtain ⟨t, nxt, h1, h2⟩ := iteration_total hk hi hq hm
    have := iteration_ok hk hi hq h1
    unfold genStructLoop
    rw [h1]
    cases nxt with
    | none => exact ⟨t, rfl, h2⟩
    | some c' =>
      obtain ⟨hl, hq', K', J', hi', e⟩ := this.2 c' rfl
      exact loop_total hk fuel (by omega) hi' hq' h2

end Silkworm.Trie
