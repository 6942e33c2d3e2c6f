import Verif.Trie.CollectLoop

/-!
# The hash builder with a collector: all keys
-/

namespace Silkworm.Trie

open Silkworm.Rlp Silkworm.Spec

theorem not_occurs_single {q w p : Bytes} (h : ¬ p <+: q) : ¬ Occurs [(q, w)] p := by
  rintro ⟨e, he, hp⟩
  rw [List.mem_singleton.mp he] at hp
  exact h hp

theorem occurs_append_left {A B : Ents} {p q : Bytes} (h : ¬ Occurs B p) (hq : p <+: q) :
    Occurs (A ++ B) q ↔ Occurs A q := by
  rw [occurs_append]
  exact ⟨fun h0 => h0.resolve_right (fun h1 => h (occurs_shorter h1 hq)), Or.inl⟩

theorem big_append_left {keccak : Bytes → Bytes} {A B : Ents} {p : Bytes} (h : ¬ Occurs B p) :
    Big keccak (A ++ B) p ↔ Big keccak A p := by
  unfold Big
  constructor
  · intro hb d hd
    have := hb d ((branchAt_append_left h (List.prefix_append _ _)).mpr hd)
    rwa [below_append_left h (List.prefix_append _ _)] at this
  · intro hb d hd
    have := hb d ((branchAt_append_left h (List.prefix_append _ _)).mp hd)
    rwa [below_append_left h (List.prefix_append _ _)]

theorem rec_append_left {keccak : Bytes → Bytes} {A B : Ents} {p : Bytes} {n : Node} (h : ¬ Occurs B p) (hp : p ≠ [])
    (hr : Rec keccak A p n) : Rec keccak (A ++ B) p n := by
  refine ⟨?_, ?_, ?_, ?_, ?_⟩
  · intro i
    rw [hr.state i, occurs_append_left h (List.prefix_append _ _)]
  · intro i
    rw [hr.tree i]
    constructor
    · rintro ⟨h1, q, h2, h3⟩
      exact ⟨h1, q, h2, (recorded_append_left h ((List.prefix_append _ _).trans h2)).mpr h3⟩
    · rintro ⟨h1, q, h2, h3⟩
      exact ⟨h1, q, h2, (recorded_append_left h ((List.prefix_append _ _).trans h2)).mp h3⟩
  · intro i
    rw [hr.hash i, branchAt_append_left h (List.prefix_append _ _)]
  · rw [hr.hashes]
    apply List.map_congr_left
    intro i _
    rw [below_append_left h (List.prefix_append _ _)]
  · rw [hr.root, if_neg hp, if_neg hp]

/-- The state that `gen_struct_step` leaves, with the next key pending. -/
theorem next_pending {keccak : Bytes → Bytes} {s : HashBuilder} {T : Ents} {q w : Bytes} (hb : AllBefore T q)
    (hq : q ≠ []) (h : COut keccak s T q) (t : HashBuilder) (ht : t = { s with key := q, value := w }) :
    CInv keccak false t (T ++ [(q, w)]) q := by
  subst ht
  have hself : ∀ r, q <+: r → ¬ BranchAt (T ++ [(q, w)]) r := by
    intro r hr hbr
    have hno : ¬ Occurs T q := by
      rintro ⟨e, he, hp⟩
      exact (before_not_prefix (hb e he)).2 hp
    rw [branchAt_append_of_not_occurs hno hr] at hbr
    exact branchAt_single hbr
  have hside : ∀ i x d, q[i]? = some x → d < x.toNat → ¬ Occurs [(q, w)] (q.take i ++ [UInt8.ofNat d]) := by
    intro i x d hx hd
    have := not_occurs_left (K := []) (J := [([], w)]) (c := q) (n := 0) (by rintro ⟨e, he, _⟩; cases he) (Nat.zero_le i) hx
      (ofNat_ne_of_lt hd)
    rwa [List.nil_append, under_single] at this
  have hlast : ∀ i x, q[i]? = some x → i = q.length - 1 → q.take i ++ [x] = q := by
    intro i x hx hi
    rw [take_succ_of hx]
    have := (List.getElem?_eq_some_iff.mp hx).1
    exact List.take_of_length_le (by omega)
  refine ⟨h.same, fun h0 => (by cases h0), ?_, ?_, ?_⟩
  · intro i d
    rw [h.hash hq i d]
    constructor
    · rintro ⟨x, hx, hd | ⟨_, h0⟩, hp⟩
      · exact ⟨x, hx, Or.inl hd, (branchAt_append_left (hside i x d hx hd) (List.prefix_refl _)).mpr hp⟩
      · cases h0
    · rintro ⟨x, hx, hd | ⟨hd, h0⟩, hp⟩
      · exact ⟨x, hx, Or.inl hd, (branchAt_append_left (hside i x d hx hd) (List.prefix_refl _)).mp hp⟩
      · exfalso
        rw [uint8_eq_of_toNat hd, hlast i x hx (Option.some.inj h0).symm] at hp
        exact hself q (List.prefix_refl _) hp
  · intro i d
    rw [h.tree hq i d]
    constructor
    · rintro ⟨x, hx, hd | ⟨_, h0⟩, hp⟩
      · exact ⟨x, hx, Or.inl hd, (pairBelow_append_left (hside i x d hx hd) (List.prefix_refl _)).mpr hp⟩
      · cases h0
    · rintro ⟨x, hx, hd | ⟨hd, h0⟩, hp⟩
      · exact ⟨x, hx, Or.inl hd, (pairBelow_append_left (hside i x d hx hd) (List.prefix_refl _)).mp hp⟩
      · exfalso
        rw [uint8_eq_of_toNat hd, hlast i x hx (Option.some.inj h0).symm] at hp
        obtain ⟨r, _, h1, h2, _⟩ := hp
        exact hself r h1 h2
  · have hcl : ∀ p, ¬ p <+: q → p ≠ [] := by
      rintro p hp rfl
      exact hp List.nil_prefix
    refine ⟨h.coll.keys, ?_, ?_, ?_⟩
    · intro p n hm
      obtain ⟨h1, h2, h3⟩ := h.coll.sound p n hm
      rcases h1 with h1 | h1
      · have hno := not_occurs_single (w := w) h1
        exact ⟨Or.inl h1, (recorded_append_left hno (List.prefix_refl _)).mpr h2, rec_append_left hno (hcl p h1) h3⟩
      · exact absurd h1 hq
    · intro p hp hr
      rcases hp with hp | ⟨h0, _⟩
      · exact h.coll.complete p (Or.inl hp) ((recorded_append_left (not_occurs_single hp) (List.prefix_refl _)).mp hr)
      · cases h0
    · intro p hp hr
      rcases hp with hp | ⟨h0, _⟩
      · have hno := not_occurs_single (w := w) hp
        rw [big_append_left hno]
        exact h.coll.big p (Or.inl hp) ((recorded_append_left hno (List.prefix_refl _)).mp hr)
      · cases h0

/-- The state before anything was closed. -/
theorem first_pending {keccak : Bytes → Bytes} {k w : Bytes} (hk : k ≠ []) :
    CInv keccak false { ({} : HashBuilder) with key := k, value := w } [(k, w)] k := by
  have := next_pending (keccak := keccak) (s := {}) (T := []) (q := k) (w := w) (fun e h => by cases h) hk
    ⟨rfl, fun _ => ?_, fun _ => ?_, ⟨List.nodup_nil, fun p n h => (by cases h), ?_, ?_⟩⟩ _ rfl
  · exact this
  · intro i d
    constructor
    · intro h; simp [lvl] at h
    · rintro ⟨x, _, _, a, b, _, ⟨e, he, _⟩, _⟩
      cases he
  · intro i d
    constructor
    · intro h; simp [lvl] at h
    · rintro ⟨x, _, _, h⟩
      obtain ⟨e, he, _⟩ := pairBelow_occurs h
      cases he
  · intro p _ hr
    obtain ⟨e, he, _⟩ := branchAt_occurs hr.1
    cases he
  · intro p _ hr
    obtain ⟨e, he, _⟩ := branchAt_occurs hr.1
    cases he

theorem add_collect {keccak : Bytes → Bytes} (hk : ∀ x, (keccak x).length = 32) {K : Ents} {p v : Bytes}
    {s : HashBuilder} {k w : Bytes} (hs : St keccak K p v s) (hc : CInv keccak false s (K ++ [(p, v)]) p)
    (hB : Before p (nibbles k)) :
    ((∀ r, r <+: p → ¬ r <+: nibbles k → Recorded (K ++ [(p, v)]) r → Big keccak (K ++ [(p, v)]) r) →
      ∃ t, add keccak true s k w = .ok t) ∧
    ∀ t, add keccak true s k w = .ok t → CInv keccak false t (K ++ [(p, v)] ++ [(nibbles k, w)]) (nibbles k) := by
  have hq : nibbles k ≠ [] := by
    intro h0
    rw [h0] at hB
    cases p <;> cases hB
  have hl := loop_collect (T := K ++ [(p, v)]) hk (p.length + 1) (Nat.lt_succ_self _) hs.inv (Or.inr ⟨nibbles_path k, hB⟩)
    (by rw [under_single]) hc
  have hall : AllBefore (K ++ [(p, v)]) (nibbles k) := by
    intro e he
    rcases List.mem_append.mp he with he | he
    · exact before_trans (hs.before e he) hB
    · rw [List.mem_singleton.mp he]; exact hB
  unfold add
  simp only [unpack_eq]
  rw [if_neg (by rw [hs.key]; simp only [not_not]; exact lexLt_iff.mpr (Or.inl hB)),
    if_pos (by rw [hs.key]; exact hs.nonempty), hs.key, hs.value]
  unfold genStructStep
  constructor
  · intro hb
    obtain ⟨t, ht⟩ := hl.1 (fun r h1 h2 h3 => hb r h1 (h2.resolve_right hq) h3)
    rw [ht]
    exact ⟨_, rfl⟩
  · intro t ht
    rw [bind_ok] at ht
    obtain ⟨s1, h1, h2⟩ := ht
    cases h2
    exact next_pending hall hq (hl.2 s1 h1) _ rfl

theorem finalize_collect {keccak : Bytes → Bytes} (hk : ∀ x, (keccak x).length = 32) {K : Ents} {p v : Bytes}
    {s : HashBuilder} (hs : St keccak K p v s) (hc : CInv keccak false s (K ++ [(p, v)]) p) :
    ((∀ r, Recorded (K ++ [(p, v)]) r → Big keccak (K ++ [(p, v)]) r) → ∃ t, finalize keccak true s = .ok t) ∧
    ∀ t, finalize keccak true s = .ok t → Coll keccak (K ++ [(p, v)]) (fun _ => True) t.collected := by
  have hl := loop_collect (T := K ++ [(p, v)]) hk (p.length + 1) (Nat.lt_succ_self _) hs.inv (Or.inl rfl)
    (by rw [under_single]) hc
  unfold finalize
  rw [if_pos (by rw [hs.key]; exact hs.nonempty), hs.key, hs.value]
  unfold genStructStep
  constructor
  · intro hb
    obtain ⟨t, ht⟩ := hl.1 (fun r _ _ h => hb r h)
    rw [ht]
    exact ⟨_, rfl⟩
  · intro t ht
    rw [bind_ok] at ht
    obtain ⟨s1, h1, h2⟩ := ht
    cases h2
    exact (hl.2 s1 h1).coll.congr fun p _ => ⟨fun _ => trivial, fun _ => Or.inr rfl⟩

theorem addAll_collect {keccak : Bytes → Bytes} (hk : ∀ x, (keccak x).length = 32) :
    ∀ {es : Ents} {K : Ents} {p v : Bytes} {s : HashBuilder}, St keccak K p v s →
    CInv keccak false s (K ++ [(p, v)]) p → Sized es → Sorted ((p, v) :: nib es) →
    (BranchesHashed keccak (K ++ [(p, v)] ++ nib es) → ∃ t, addAll keccak true s es = .ok t) ∧
    ∀ t, addAll keccak true s es = .ok t → ∃ K' p' v', K' ++ [(p', v')] = K ++ [(p, v)] ++ nib es ∧
      St keccak K' p' v' t ∧ CInv keccak false t (K' ++ [(p', v')]) p'
  | [], K, p, v, s, hs, hc, _, _ => by
    refine ⟨fun _ => ⟨s, rfl⟩, fun t ht => ?_⟩
    cases ht
    exact ⟨K, p, v, by simp [nib], hs, hc⟩
  | e :: es, K, p, v, s, hs, hc, hz, hso => by
    have hso' := List.pairwise_cons.mp hso
    have hB : Before p (nibbles e.1) := hso'.1 (nibbles e.1, e.2) (List.mem_cons_self ..)
    have hz1 := hz e (List.mem_cons_self ..)
    have hz2 : (nibbles e.1).length + e.2.length < 2 ^ 63 := by rw [nibbles_length]; exact hz1
    have hz' : Sized es := fun f hf => hz f (List.mem_cons_of_mem _ hf)
    obtain ⟨h1, h2⟩ := add_collect (w := e.2) hk hs hc hB
    have hnib : K ++ [(p, v)] ++ nib (e :: es) = K ++ [(p, v)] ++ [(nibbles e.1, e.2)] ++ nib es := by
      simp [nib]
    unfold addAll
    rw [hnib]
    constructor
    · intro hbig
      have hstep : ∃ t, add keccak true s e.1 e.2 = .ok t := by
        refine h1 fun r hr1 hr2 hr3 => ?_
        have hno : ¬ Occurs ([(nibbles e.1, e.2)] ++ nib es) r := by
          rw [occurs_append]
          rintro (h | ⟨f, hf, h⟩)
          · exact not_occurs_single hr2 h
          · exact hr2 (between_prefix hB ((List.pairwise_cons.mp hso'.2).1 f hf) hr1 h)
        rw [← big_append_left (B := [(nibbles e.1, e.2)] ++ nib es) hno, ← List.append_assoc]
        intro d hd
        refine hbig r d ?_ hd
        rw [List.append_assoc, branchAt_append_left hno (List.prefix_refl _)]
        exact hr3.1
      obtain ⟨t, ht⟩ := hstep
      obtain ⟨_, hst⟩ := add_ok hk hs hz2 ht
      obtain ⟨r, hr⟩ := (addAll_collect hk hst (h2 t ht) hz' hso'.2).1 hbig
      rw [ht]
      exact ⟨r, hr⟩
    · intro t ht
      rw [bind_ok] at ht
      obtain ⟨s1, h3, h4⟩ := ht
      obtain ⟨_, hst⟩ := add_ok hk hs hz2 h3
      exact (addAll_collect hk hst (h2 s1 h3) hz' hso'.2).2 t h4

/-- With a collector the builder succeeds if and only if each branch node under a branch node takes 32 bytes or more, and
then the collector got exactly the records. -/
theorem buildRoot_collect {keccak : Bytes → Bytes} (hk : ∀ x, (keccak x).length = 32) {es : Ents} (hz : Sized es)
    (h1 : Increasing es) (h2 : PrefixFree es) (h3 : ∀ e ∈ es, e.1 ≠ []) :
    (BranchesHashed keccak (nib es) → ∃ r s, buildRoot keccak true es = .ok (r, s)) ∧
    ∀ r s, buildRoot keccak true es = .ok (r, s) →
      BranchesHashed keccak (nib es) ∧ Coll keccak (nib es) (fun _ => True) s.collected := by
  cases es with
  | nil =>
    refine ⟨fun _ => ⟨_, _, rfl⟩, fun r s h => ?_⟩
    cases h
    refine ⟨?_, List.nodup_nil, fun p n h => (by cases h), ?_, ?_⟩
    · rintro p d ⟨a, b, _, ⟨e, he, _⟩, _⟩ _
      cases he
    · rintro p _ ⟨⟨a, b, _, ⟨e, he, _⟩, _⟩, _⟩
      cases he
    · rintro p _ ⟨⟨a, b, _, ⟨e, he, _⟩, _⟩, _⟩
      cases he
  | cons e es =>
    have he := h3 e (List.mem_cons_self ..)
    have hz1 := hz e (List.mem_cons_self ..)
    have hst := st_first (keccak := keccak) (w := e.2) he hz1
    have hci := first_pending (keccak := keccak) (k := nibbles e.1) (w := e.2) (fun h => he (nibbles_eq_nil.mp h))
    have hso : Sorted ((nibbles e.1, e.2) :: nib es) := sorted_nib.mpr (pairwise_before h1 h2)
    obtain ⟨a1, a2⟩ := addAll_collect hk hst hci (fun f hf => hz f (List.mem_cons_of_mem _ hf)) hso
    have hnib : [] ++ [(nibbles e.1, e.2)] ++ nib es = nib (e :: es) := by simp [nib]
    rw [hnib] at a1 a2
    unfold buildRoot addAll
    rw [add_first, if_neg he]
    simp only [Outcome.bind]
    constructor
    · intro hbig
      obtain ⟨t, ht⟩ := a1 hbig
      obtain ⟨K', p', v', e1, e2, e3⟩ := a2 t ht
      obtain ⟨u, hu⟩ := (finalize_collect hk e2 e3).1 (fun r hr d hd => by
        rw [e1] at hr hd ⊢
        exact hbig r d hr.1 hd)
      rw [ht]
      simp only
      unfold rootHash
      rw [hu]
      exact ⟨_, _, rfl⟩
    · intro r s h
      cases ht : addAll keccak true { ({} : HashBuilder) with key := nibbles e.1, value := e.2 } es with
      | err x => cases x
      | ub => rw [ht] at h; cases h
      | ok t =>
        rw [ht] at h
        simp only at h
        obtain ⟨K', p', v', e1, e2, e3⟩ := a2 t ht
        unfold rootHash at h
        rw [bind_ok] at h
        obtain ⟨u, hu, h⟩ := h
        cases h
        have hcoll := (finalize_collect hk e2 e3).2 _ hu
        rw [e1] at hcoll
        refine ⟨fun p d hp hd => hcoll.big p trivial ⟨hp, p, d, List.prefix_refl _, hp, hd⟩ d hd, hcoll⟩

end Silkworm.Trie
