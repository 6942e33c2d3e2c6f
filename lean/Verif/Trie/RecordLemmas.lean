import Verif.Trie.RootLemmas
import Verif.Spec.TrieRecords

/-!
# Lemmas about branch nodes and records of a trie
-/

namespace Silkworm.Trie

open Silkworm.Rlp Silkworm.Spec

/-! ## Entries below a prefix -/

theorem occurs_append {A B : Ents} {p : Bytes} : Occurs (A ++ B) p ↔ Occurs A p ∨ Occurs B p := by
  unfold Occurs
  constructor
  · rintro ⟨e, he, h⟩
    rcases List.mem_append.mp he with he | he
    · exact Or.inl ⟨e, he, h⟩
    · exact Or.inr ⟨e, he, h⟩
  · rintro (⟨e, he, h⟩ | ⟨e, he, h⟩)
    · exact ⟨e, List.mem_append_left _ he, h⟩
    · exact ⟨e, List.mem_append_right _ he, h⟩

theorem occurs_shorter {T : Ents} {p q : Bytes} (h : Occurs T q) (hp : p <+: q) : Occurs T p := by
  obtain ⟨e, he, h⟩ := h
  exact ⟨e, he, hp.trans h⟩

theorem branchAt_occurs {T : Ents} {p : Bytes} (h : BranchAt T p) : Occurs T p := by
  obtain ⟨a, _, _, h, _⟩ := h
  exact occurs_shorter h (List.prefix_append _ _)

theorem mem_below {T : Ents} {p k v : Bytes} : (k, v) ∈ below T p ↔ (p ++ k, v) ∈ T := by
  unfold below
  rw [List.mem_filterMap]
  constructor
  · rintro ⟨⟨k', v'⟩, he, h⟩
    split at h
    · rename_i hp
      rw [List.isPrefixOf_iff_prefix] at hp
      obtain ⟨r, rfl⟩ := hp
      simp only [List.drop_left, Option.some.injEq, Prod.mk.injEq] at h
      rw [← h.1, ← h.2]
      exact he
    · cases h
  · intro he
    refine ⟨_, he, ?_⟩
    rw [if_pos (List.isPrefixOf_iff_prefix.mpr (List.prefix_append _ _))]
    simp

theorem occurs_iff_below {T : Ents} {p : Bytes} : Occurs T p ↔ below T p ≠ [] := by
  constructor
  · rintro ⟨⟨k, v⟩, he, r, rfl⟩ h0
    have := mem_below.mpr he
    rw [h0] at this
    cases this
  · intro h
    obtain ⟨⟨k, v⟩, he⟩ := List.exists_mem_of_ne_nil _ h
    exact ⟨_, mem_below.mp he, List.prefix_append _ _⟩

theorem below_append (A B : Ents) (p : Bytes) : below (A ++ B) p = below A p ++ below B p := by
  simp [below, List.filterMap_append]

theorem below_of_not_occurs {T : Ents} {p : Bytes} (h : ¬ Occurs T p) : below T p = [] := by
  by_contra h0
  exact h (occurs_iff_below.mpr h0)

theorem below_under (s : Bytes) (J : Ents) : below (under s J) s = J := by
  induction J with
  | nil => rfl
  | cons e es ih =>
    show below ((s ++ e.1, e.2) :: under s es) s = _
    unfold below at *
    rw [List.filterMap_cons_some (b := e)]
    · rw [ih]
    · rw [if_pos (List.isPrefixOf_iff_prefix.mpr (List.prefix_append _ _))]
      simp

theorem children_below (T : Ents) (p : Bytes) (d : UInt8) : children d (below T p) = below T (p ++ [d]) := by
  induction T with
  | nil => rfl
  | cons e es ih =>
    obtain ⟨k, v⟩ := e
    unfold below at *
    by_cases hp : p <+: k
    · obtain ⟨r, rfl⟩ := hp
      rw [List.filterMap_cons_some (b := (r, v)) (by
        rw [if_pos (List.isPrefixOf_iff_prefix.mpr (List.prefix_append _ _))]; simp)]
      cases r with
      | nil =>
        rw [List.filterMap_cons_none]
        · exact ih
        · rw [if_neg]
          rw [List.isPrefixOf_iff_prefix]
          intro h
          have := h.length_le
          simp at this
      | cons x r =>
        by_cases hx : x = d
        · subst hx
          rw [List.filterMap_cons_some (b := (r, v))]
          · show (if x = x then (r, v) :: children x _ else _) = _
            rw [if_pos rfl, ih]
          · rw [if_pos]
            · simp
            · rw [List.isPrefixOf_iff_prefix]
              exact ⟨r, by simp⟩
        · rw [List.filterMap_cons_none]
          · show (if x = d then _ else children d _) = _
            rw [if_neg hx, ih]
          · rw [if_neg]
            rw [List.isPrefixOf_iff_prefix, List.prefix_append_right_inj, List.cons_prefix_cons]
            rintro ⟨h, _⟩
            exact hx h.symm
    · rw [List.filterMap_cons_none (by rw [if_neg (by rw [List.isPrefixOf_iff_prefix]; exact hp)]),
        List.filterMap_cons_none (by
          rw [if_neg]
          rw [List.isPrefixOf_iff_prefix]
          exact fun h => hp ((List.prefix_append _ _).trans h))]
      exact ih

theorem occurs_under {s : Bytes} {J : Ents} {p : Bytes} :
    Occurs (under s J) p ↔ (∃ r, p = s ++ r ∧ Occurs J r) ∨ (p <+: s ∧ J ≠ []) := by
  constructor
  · rintro ⟨e, he, h⟩
    obtain ⟨f, hf, rfl⟩ := mem_under.mp he
    rcases List.prefix_or_prefix_of_prefix h (List.prefix_append s f.1) with h1 | h1
    · exact Or.inr ⟨h1, List.ne_nil_of_mem hf⟩
    · obtain ⟨r, rfl⟩ := h1
      exact Or.inl ⟨r, rfl, f, hf, (List.prefix_append_right_inj _).mp h⟩
  · rintro (⟨r, rfl, f, hf, h⟩ | ⟨h, hJ⟩)
    · exact ⟨_, mem_under.mpr ⟨f, hf, rfl⟩, (List.prefix_append_right_inj _).mpr h⟩
    · obtain ⟨f, hf⟩ := List.exists_mem_of_ne_nil _ hJ
      exact ⟨_, mem_under.mpr ⟨f, hf, rfl⟩, h.trans (List.prefix_append _ _)⟩

theorem branchAt_under {s : Bytes} {J : Ents} {p : Bytes} :
    BranchAt (under s J) p ↔ ∃ r, p = s ++ r ∧ BranchAt J r := by
  constructor
  · rintro ⟨a, b, hab, ha, hb⟩
    rw [occurs_under] at ha hb
    -- below the end of `s` or not
    by_cases hp : s <+: p
    · obtain ⟨r, rfl⟩ := hp
      have key : ∀ x : UInt8, ((∃ t, s ++ r ++ [x] = s ++ t ∧ Occurs J t) ∨ (s ++ r ++ [x] <+: s ∧ J ≠ [])) →
          Occurs J (r ++ [x]) := by
        rintro x (⟨t, ht, h⟩ | ⟨h, _⟩)
        · rw [List.append_assoc] at ht
          rw [List.append_cancel_left ht]
          exact h
        · have := h.length_le
          simp at this
      exact ⟨r, rfl, a, b, hab, key a ha, key b hb⟩
    · exfalso
      have key : ∀ x : UInt8, ((∃ t, p ++ [x] = s ++ t ∧ Occurs J t) ∨ (p ++ [x] <+: s ∧ J ≠ [])) →
          p ++ [x] <+: s := by
        rintro x (⟨t, ht, h⟩ | ⟨h, _⟩)
        · have h1 : s <+: p ++ [x] := ⟨t, ht.symm⟩
          rcases List.prefix_concat_iff.mp h1 with h2 | h2
          · rw [h2]; exact List.prefix_refl _
          · exact absurd h2 hp
        · exact h
      obtain ⟨u, hu⟩ := key a ha
      obtain ⟨v, hv⟩ := key b hb
      rw [← hv, List.append_assoc, List.append_assoc] at hu
      have := List.append_cancel_left hu
      exact hab (List.cons.inj this).1
  · rintro ⟨r, rfl, a, b, hab, ha, hb⟩
    refine ⟨a, b, hab, occurs_under.mpr (Or.inl ⟨r ++ [a], by simp, ha⟩), occurs_under.mpr (Or.inl ⟨r ++ [b], by simp, hb⟩)⟩

/-- Entries that do not begin with `p` do not matter for what is below `p`. -/
theorem branchAt_append_of_not_occurs {A B : Ents} {p q : Bytes} (h : ¬ Occurs A p) (hq : p <+: q) :
    BranchAt (A ++ B) q ↔ BranchAt B q := by
  have hA : ∀ x, ¬ Occurs A (q ++ [x]) := fun x h0 => h (occurs_shorter h0 (hq.trans (List.prefix_append _ _)))
  constructor
  · rintro ⟨a, b, hab, ha, hb⟩
    exact ⟨a, b, hab, (occurs_append.mp ha).resolve_left (hA a), (occurs_append.mp hb).resolve_left (hA b)⟩
  · rintro ⟨a, b, hab, ha, hb⟩
    exact ⟨a, b, hab, occurs_append.mpr (Or.inr ha), occurs_append.mpr (Or.inr hb)⟩

theorem branchAt_append_left {A B : Ents} {p q : Bytes} (h : ¬ Occurs B p) (hq : p <+: q) :
    BranchAt (A ++ B) q ↔ BranchAt A q := by
  have hB : ∀ x, ¬ Occurs B (q ++ [x]) := fun x h0 => h (occurs_shorter h0 (hq.trans (List.prefix_append _ _)))
  constructor
  · rintro ⟨a, b, hab, ha, hb⟩
    exact ⟨a, b, hab, (occurs_append.mp ha).resolve_right (hB a), (occurs_append.mp hb).resolve_right (hB b)⟩
  · rintro ⟨a, b, hab, ha, hb⟩
    exact ⟨a, b, hab, occurs_append.mpr (Or.inl ha), occurs_append.mpr (Or.inl hb)⟩

theorem pairBelow_append_left {A B : Ents} {p q : Bytes} (h : ¬ Occurs B p) (hq : p <+: q) :
    PairBelow (A ++ B) q ↔ PairBelow A q := by
  constructor
  · rintro ⟨r, d, h1, h2, h3⟩
    exact ⟨r, d, h1, (branchAt_append_left h (hq.trans h1)).mp h2,
      (branchAt_append_left h ((hq.trans h1).trans (List.prefix_append _ _))).mp h3⟩
  · rintro ⟨r, d, h1, h2, h3⟩
    exact ⟨r, d, h1, (branchAt_append_left h (hq.trans h1)).mpr h2,
      (branchAt_append_left h ((hq.trans h1).trans (List.prefix_append _ _))).mpr h3⟩

theorem below_append_left {A B : Ents} {p q : Bytes} (h : ¬ Occurs B p) (hq : p <+: q) :
    below (A ++ B) q = below A q := by
  rw [below_append, below_of_not_occurs (T := B) (fun h0 => h (occurs_shorter h0 hq)), List.append_nil]

theorem recorded_append_left {A B : Ents} {p q : Bytes} (h : ¬ Occurs B p) (hq : p <+: q) :
    Recorded (A ++ B) q ↔ Recorded A q := by
  unfold Recorded
  rw [branchAt_append_left h hq, pairBelow_append_left h hq]

/-- A pair at or below a branch node is at the node or below one of its children. -/
theorem pairBelow_step {T : Ents} {p : Bytes} (hb : BranchAt T p) :
    PairBelow T p ↔ (∃ d, BranchAt T (p ++ [d])) ∨ ∃ d, PairBelow T (p ++ [d]) := by
  constructor
  · rintro ⟨q, d, ⟨r, rfl⟩, h2, h3⟩
    cases r with
    | nil =>
      rw [List.append_nil] at h3
      exact Or.inl ⟨d, h3⟩
    | cons x r =>
      refine Or.inr ⟨x, _, d, ?_, h2, h3⟩
      exact ⟨r, by simp⟩
  · rintro (⟨d, h⟩ | ⟨d, q, e, h1, h2, h3⟩)
    · exact ⟨p, d, List.prefix_refl _, hb, h⟩
    · exact ⟨q, e, (List.prefix_append _ _).trans h1, h2, h3⟩

/-- There is a record at or below `p` if and only if there is a pair of branch nodes at or below `p`. -/
theorem pairBelow_iff_recorded {T : Ents} {p : Bytes} : PairBelow T p ↔ ∃ q, p <+: q ∧ Recorded T q := by
  constructor
  · rintro ⟨q, d, h1, h2, h3⟩
    exact ⟨q, h1, h2, q, d, List.prefix_refl _, h2, h3⟩
  · rintro ⟨q, h1, _, r, d, h2, h3, h4⟩
    exact ⟨r, d, h1.trans h2, h3, h4⟩

theorem pairBelow_occurs {T : Ents} {p : Bytes} (h : PairBelow T p) : Occurs T p := by
  obtain ⟨q, d, h1, h2, _⟩ := h
  exact occurs_shorter (branchAt_occurs h2) h1

/-! ## Finished entries and the pending subtree -/

/-- Below a part of the pending key that no finished entry shares, the only branch nodes are those of the pending
subtree. -/
theorem branchAt_pending {K J : Ents} {c p s : Bytes} (h : ¬ Occurs K s) (hs : s <+: p) :
    BranchAt (K ++ under c J) p ↔ ∃ r, p = c ++ r ∧ BranchAt J r := by
  rw [branchAt_append_of_not_occurs h hs, branchAt_under]

theorem branchAt_single {k v p : Bytes} : ¬ BranchAt [(k, v)] p := by
  rintro ⟨a, b, hab, ⟨e, he, ha⟩, ⟨f, hf, hb⟩⟩
  rw [List.mem_singleton.mp he] at ha
  rw [List.mem_singleton.mp hf] at hb
  obtain ⟨u, hu⟩ := ha
  obtain ⟨w, hw⟩ := hb
  rw [← hw, List.append_assoc, List.append_assoc] at hu
  exact hab (List.cons.inj (List.append_cancel_left hu)).1

/-- Two entries without a common prefix, none of them empty, make a branch node. -/
theorem branchAt_of_commonPrefix {J : Ents} (h2 : J ≠ []) (hc : commonPrefix J = []) (hv : ∀ e ∈ J, e.1 ≠ []) :
    BranchAt J [] := by
  obtain ⟨⟨k, v⟩, J', rfl⟩ := List.exists_cons_of_ne_nil h2
  cases k with
  | nil => exact absurd rfl (hv _ (List.mem_cons_self ..))
  | cons a k =>
    by_contra hno
    have : [a] <+: commonPrefix ((a :: k, v) :: J') := by
      rw [prefix_commonPrefix h2]
      intro e he
      cases hk : e.1 with
      | nil => exact absurd hk (hv e he)
      | cons b l =>
        by_cases hab : a = b
        · subst hab; exact ⟨l, rfl⟩
        · exact absurd ⟨a, b, hab, ⟨_, List.mem_cons_self .., ⟨k, rfl⟩⟩, ⟨e, he, by rw [hk]; exact ⟨l, rfl⟩⟩⟩ hno
    rw [hc] at this
    have := this.length_le
    simp at this

/-- No finished entry shares more of the pending key than there are groups. -/
theorem not_occurs_of_groups : ∀ {c : Bytes} {K : Ents} {n : Nat}, AllBefore K c → (groupsOf K c).length ≤ n →
    ¬ Occurs K (c.take n)
  | [], K, n, hb, _ => by
    rintro ⟨e, he, _⟩
    rw [allBefore_nil hb] at he
    cases he
  | x :: c, K, n, hb, h => by
    rw [groupsOf_cons] at h
    split at h
    · rename_i h0
      rintro ⟨e, he, _⟩
      rw [h0] at he
      cases he
    · cases n with
      | zero => simp at h
      | succ n =>
        rw [List.length_cons] at h
        rintro ⟨⟨k, v⟩, he, r, hr⟩
        refine not_occurs_of_groups (allBefore_children hb) (n := n) (by omega) ⟨(c.take n ++ r, v), ?_, List.prefix_append _ _⟩
        rw [mem_children]
        change _ = k at hr
        subst hr
        exact he

/-! ## The order of the entries -/

theorem before_asymm {a b : Bytes} (h1 : Before a b) (h2 : Before b a) : False := by
  have := before_trans h1 h2
  exact (before_not_prefix this).1 (List.prefix_refl _)

/-- What begins with `p` lies between two things that begin with `p`. -/
theorem between_prefix {p c q e : Bytes} (h1 : Before c q) (h2 : Before q e) (hc : p <+: c) (he : p <+: e) : p <+: q := by
  induction p generalizing c q e with
  | nil => exact List.nil_prefix
  | cons x p ih =>
    obtain ⟨c', rfl⟩ := hc
    obtain ⟨e', rfl⟩ := he
    cases q with
    | nil => cases h1
    | cons y q =>
      rcases h1 with h1 | ⟨rfl, h1⟩
      · rcases h2 with h2 | ⟨rfl, h2⟩
        · exfalso
          rw [UInt8.lt_iff_toNat_lt] at h1 h2
          omega
        · exfalso
          rw [UInt8.lt_iff_toNat_lt] at h1
          omega
      · rcases h2 with h2 | ⟨_, h2⟩
        · exfalso
          rw [UInt8.lt_iff_toNat_lt] at h2
          omega
        · exact List.cons_prefix_cons.mpr ⟨rfl, ih h1 h2 (List.prefix_append _ _) (List.prefix_append _ _)⟩

/-- Nothing that comes before `c` goes on with a larger nibble than `c` after a shared part. -/
theorem before_larger {c e : Bytes} {i : Nat} {x d : UInt8} (h : Before e c) (hx : c[i]? = some x) (hd : x < d) :
    ¬ c.take i ++ [d] <+: e := by
  induction i generalizing c e with
  | zero =>
    rintro ⟨r, rfl⟩
    cases c with
    | nil => cases hx
    | cons y c =>
      cases Option.some.inj hx
      simp only [List.take_zero, List.nil_append, List.cons_append] at h
      rcases h with h | ⟨h, _⟩
      · rw [UInt8.lt_iff_toNat_lt] at h hd; omega
      · rw [h, UInt8.lt_iff_toNat_lt] at hd; omega
  | succ i ih =>
    cases c with
    | nil => cases hx
    | cons y c =>
      rintro ⟨r, rfl⟩
      rcases h with h | ⟨_, h⟩
      · rw [UInt8.lt_iff_toNat_lt] at h; omega
      · exact ih (c := c) h hx (List.prefix_append _ _)

end Silkworm.Trie
