import Verif.Trie.BuilderProof

/-!
# From single steps to the root

Helper lemmas: sequences of `add`, keys of bytes and of nibbles, independence of the specification from the order of
entries.
-/

namespace Silkworm.Trie

open Silkworm.Rlp
open Silkworm.Spec (Item rlp rlpItems rlpStr hexPrefix joinNibbles nibbles reference trieNode depthBound commonPrefix
  children branchValue digits lcp KeyLt Increasing PrefixFree trieRoot)

/-! ## Orders -/

theorem lexLt_iff : ∀ {a b : Bytes}, Db.lexLt a b = true ↔ Before a b ∨ (∃ x xs, b = a ++ x :: xs)
  | a, [] => by
    constructor
    · intro h; cases a <;> cases h
    · rintro (h | ⟨x, xs, h⟩)
      · cases a <;> cases h
      · cases a <;> cases h
  | [], y :: ys => by
    constructor
    · intro _; exact Or.inr ⟨y, ys, rfl⟩
    · intro _; rfl
  | x :: xs, y :: ys => by
    unfold Db.lexLt
    by_cases h1 : x < y
    · rw [if_pos h1]
      exact ⟨fun _ => Or.inl (Or.inl h1), fun _ => rfl⟩
    · rw [if_neg h1]
      by_cases h2 : y < x
      · rw [if_pos h2]
        constructor
        · intro h; cases h
        · rintro ((h | ⟨rfl, _⟩) | ⟨_, _, h⟩)
          · exact absurd h h1
          · exact absurd h2 (by rw [UInt8.lt_iff_toNat_lt]; omega)
          · cases h
            exact absurd h2 (by rw [UInt8.lt_iff_toNat_lt]; omega)
      · rw [if_neg h2, lexLt_iff]
        have e : x = y := by
          apply uint8_ext
          rw [UInt8.lt_iff_toNat_lt] at *
          omega
        subst e
        constructor
        · rintro (h | ⟨a, as, h⟩)
          · exact Or.inl (Or.inr ⟨rfl, h⟩)
          · exact Or.inr ⟨a, as, by rw [h]; rfl⟩
        · rintro ((h | ⟨_, h⟩) | ⟨a, as, h⟩)
          · exact absurd h h1
          · exact Or.inl h
          · exact Or.inr ⟨a, as, by cases h; rfl⟩

theorem before_iff : ∀ {a b : Bytes}, Before a b ↔ ∃ p x y as bs, a = p ++ x :: as ∧ b = p ++ y :: bs ∧ x < y
  | [], b => by
    constructor
    · intro h; cases h
    · rintro ⟨p, x, y, as, bs, h, _⟩; cases p <;> cases h
  | a :: as, [] => by
    constructor
    · intro h; cases h
    · rintro ⟨p, x, y, as, bs, _, h, _⟩; cases p <;> cases h
  | a :: as, b :: bs => by
    constructor
    · rintro (h | ⟨rfl, h⟩)
      · exact ⟨[], a, b, as, bs, rfl, rfl, h⟩
      · obtain ⟨p, x, y, c, d, e1, e2, hxy⟩ := before_iff.mp h
        exact ⟨a :: p, x, y, c, d, by rw [e1]; rfl, by rw [e2]; rfl, hxy⟩
    · rintro ⟨p, x, y, c, d, h1, h2, h⟩
      cases p with
      | nil => cases h1; cases h2; exact Or.inl h
      | cons z p =>
        cases h1; cases h2
        exact Or.inr ⟨rfl, before_iff.mpr ⟨p, x, y, c, d, rfl, rfl, h⟩⟩

theorem keyLt_iff {a b : Bytes} : KeyLt a b ↔ Db.lexLt a b = true := by
  rw [lexLt_iff, before_iff]
  unfold KeyLt
  exact or_comm

theorem before_not_prefix : ∀ {a b : Bytes}, Before a b → ¬ a <+: b ∧ ¬ b <+: a
  | [], _, h => by cases h
  | _ :: _, [], h => by cases h
  | a :: as, b :: bs, h => by
    rcases h with h | ⟨rfl, h⟩
    · rw [UInt8.lt_iff_toNat_lt] at h
      constructor
      · intro hp
        have := (List.cons_prefix_cons.mp hp).1
        rw [this] at h; omega
      · intro hp
        have := (List.cons_prefix_cons.mp hp).1
        rw [this] at h; omega
    · have := before_not_prefix h
      exact ⟨fun hp => this.1 (List.cons_prefix_cons.mp hp).2, fun hp => this.2 (List.cons_prefix_cons.mp hp).2⟩

/-- Smaller and not a prefix. -/
theorem before_of_keyLt {a b : Bytes} : Before a b ↔ KeyLt a b ∧ ¬ a <+: b := by
  rw [keyLt_iff, lexLt_iff]
  constructor
  · intro h; exact ⟨Or.inl h, (before_not_prefix h).1⟩
  · rintro ⟨h | ⟨x, xs, rfl⟩, hp⟩
    · exact h
    · exact absurd (List.prefix_append _ _) hp

theorem nibble_pair : ∀ x : UInt8, x = UInt8.ofNat (16 * (UInt8.ofNat (x.toNat / 16)).toNat + (UInt8.ofNat (x.toNat % 16)).toNat) := by
  apply forall_uint8; decide +kernel

theorem before_nibbles : ∀ {a b : Bytes}, Before (nibbles a) (nibbles b) ↔ Before a b
  | [], b => by
    constructor <;> intro h <;> cases h
  | a :: as, [] => by
    constructor <;> intro h <;> cases h
  | a :: as, b :: bs => by
    have ha := UInt8.toNat_lt a
    have hb := UInt8.toNat_lt b
    show (UInt8.ofNat (a.toNat / 16) < UInt8.ofNat (b.toNat / 16) ∨ (UInt8.ofNat (a.toNat / 16) = UInt8.ofNat (b.toNat / 16) ∧
      (UInt8.ofNat (a.toNat % 16) < UInt8.ofNat (b.toNat % 16) ∨ (UInt8.ofNat (a.toNat % 16) = UInt8.ofNat (b.toNat % 16) ∧
        Before (nibbles as) (nibbles bs))))) ↔ (a < b ∨ (a = b ∧ Before as bs))
    rw [before_nibbles]
    have e1 : UInt8.ofNat (a.toNat / 16) = UInt8.ofNat (b.toNat / 16) ↔ a.toNat / 16 = b.toNat / 16 := by
      rw [← UInt8.toNat_inj, uint8_ofNat_toNat _ (by omega), uint8_ofNat_toNat _ (by omega)]
    have e2 : UInt8.ofNat (a.toNat % 16) = UInt8.ofNat (b.toNat % 16) ↔ a.toNat % 16 = b.toNat % 16 := by
      rw [← UInt8.toNat_inj, uint8_ofNat_toNat _ (by omega), uint8_ofNat_toNat _ (by omega)]
    have e3 : a = b ↔ a.toNat = b.toNat := UInt8.toNat_inj.symm
    rw [e1, e2, e3]
    simp only [UInt8.lt_iff_toNat_lt]
    rw [uint8_ofNat_toNat _ (by omega), uint8_ofNat_toNat _ (by omega), uint8_ofNat_toNat _ (by omega),
      uint8_ofNat_toNat _ (by omega)]
    by_cases hB : Before as bs
    · simp only [hB, and_true]; omega
    · simp only [hB, and_false, or_false]; omega

theorem prefix_nibbles : ∀ {a b : Bytes}, nibbles a <+: nibbles b ↔ a <+: b
  | [], b => ⟨fun _ => List.nil_prefix, fun _ => List.nil_prefix⟩
  | a :: as, [] => by
    constructor
    · intro h; exact absurd (List.prefix_nil.mp h) (by simp [nibbles])
    · intro h; exact absurd (List.prefix_nil.mp h) (by simp)
  | a :: as, b :: bs => by
    show (_ :: _ :: nibbles as) <+: (_ :: _ :: nibbles bs) ↔ _
    rw [List.cons_prefix_cons, List.cons_prefix_cons, List.cons_prefix_cons, prefix_nibbles]
    have ha := UInt8.toNat_lt a
    have hb := UInt8.toNat_lt b
    have e1 : UInt8.ofNat (a.toNat / 16) = UInt8.ofNat (b.toNat / 16) ↔ a.toNat / 16 = b.toNat / 16 := by
      rw [← UInt8.toNat_inj, uint8_ofNat_toNat _ (by omega), uint8_ofNat_toNat _ (by omega)]
    have e2 : UInt8.ofNat (a.toNat % 16) = UInt8.ofNat (b.toNat % 16) ↔ a.toNat % 16 = b.toNat % 16 := by
      rw [← UInt8.toNat_inj, uint8_ofNat_toNat _ (by omega), uint8_ofNat_toNat _ (by omega)]
    have e3 : a = b ↔ a.toNat = b.toNat := UInt8.toNat_inj.symm
    rw [e1, e2, e3]
    constructor
    · rintro ⟨h1, h2, h3⟩; exact ⟨by omega, h3⟩
    · rintro ⟨h1, h3⟩; exact ⟨by omega, by omega, h3⟩

theorem nibbles_length (a : Bytes) : (nibbles a).length = 2 * a.length := by
  induction a with
  | nil => rfl
  | cons x xs ih => simp only [nibbles, List.length_cons, ih]; omega

theorem nibbles_eq_nil {a : Bytes} : nibbles a = [] ↔ a = [] := by
  cases a <;> simp [nibbles]

theorem nibbles_inj {a b : Bytes} (h : nibbles a = nibbles b) : a = b := by
  have h1 : a <+: b := prefix_nibbles.mp (h ▸ List.prefix_refl _)
  have h2 : b <+: a := prefix_nibbles.mp (h ▸ List.prefix_refl _)
  exact h1.eq_of_length_le h2.length_le

/-- If all of `c` is shared with the next key, the assertion on the length fails. -/
theorem prefixLength_of_prefix : ∀ {c q : Bytes}, c <+: q → prefixLength q c = c.length
  | [], q, _ => by cases q <;> rfl
  | x :: c, [], h => absurd (List.prefix_nil.mp h) (by simp)
  | x :: c, y :: q, h => by
    obtain ⟨rfl, h'⟩ := List.cons_prefix_cons.mp h
    simp [prefixLength, prefixLength_of_prefix h']

/-! ## Sequences of `add` -/

/-- The state between calls: `K` is finished, `p` with value `v` is pending. -/
structure St (keccak : Bytes → Bytes) (K : Ents) (p v : Bytes) (s : HashBuilder) : Prop where
  sorted : Sorted K
  before : AllBefore K p
  path : IsPath p
  nonempty : p ≠ []
  size : p.length + v.length < 2 ^ 63
  key : s.key = p
  value : s.value = v
  groups : s.groups = groupsOf K p
  stack : s.stack = stackOf keccak K p

theorem St.inv {keccak : Bytes → Bytes} {K : Ents} {p v : Bytes} {s : HashBuilder} (h : St keccak K p v s) :
    Inv keccak false s K [([], v)] p v :=
  ⟨h.sorted, h.before, h.groups, h.path, h.nonempty, h.size, fun _ => ⟨rfl, h.stack⟩, fun h0 => by cases h0⟩

theorem under_single (p v : Bytes) : under p [([], v)] = [(p, v)] := by simp [under]

theorem sorted_concat {K : Ents} {p v : Bytes} (hs : Sorted K) (hb : AllBefore K p) : Sorted (K ++ [(p, v)]) := by
  refine List.pairwise_append.mpr ⟨hs, List.pairwise_singleton _ _, ?_⟩
  intro a ha b hb'
  rw [List.mem_singleton.mp hb']
  exact hb a ha

theorem iteration_ub {keccak : Bytes → Bytes} {collect ext : Bool} {s : HashBuilder} {c q v : Bytes}
    (h : c.length ≤ prefixLength q c) : genStructIteration keccak collect ext s c q v = .ub := by
  unfold genStructIteration
  simp only
  have : at? c (max (if s.groups = [] then 0 else s.groups.length - 1) (prefixLength q c)) = .ub := by
    unfold at?
    rw [List.getElem?_eq_none (by omega)]
  rw [this]
  rfl

/-- A call of `add` that succeeds. -/
theorem add_ok {keccak : Bytes → Bytes} (hk : ∀ x, (keccak x).length = 32) {collect : Bool} {K : Ents} {p v : Bytes}
    {s t : HashBuilder} {k w : Bytes} (hs : St keccak K p v s) (hsize : (nibbles k).length + w.length < 2 ^ 63)
    (h : add keccak collect s k w = .ok t) :
    Before p (nibbles k) ∧ St keccak (K ++ [(p, v)]) (nibbles k) w t := by
  unfold add at h
  simp only [unpack_eq] at h
  split at h
  · cases h
  · rename_i hlt
    rw [hs.key] at hlt
    have hlt : Db.lexLt p (nibbles k) = true := Decidable.of_not_not hlt
    rw [if_pos (by rw [hs.key]; exact hs.nonempty), bind_ok] at h
    obtain ⟨s1, h1, h⟩ := h
    cases h
    rw [hs.key, hs.value] at h1
    unfold genStructStep at h1
    have hB : Before p (nibbles k) := by
      rcases lexLt_iff.mp hlt with hB | ⟨x, xs, he⟩
      · exact hB
      · exfalso
        have hpre : p <+: nibbles k := ⟨x :: xs, he.symm⟩
        unfold genStructLoop at h1
        rw [iteration_ub (by rw [prefixLength_of_prefix hpre])] at h1
        cases h1
    have hne : nibbles k ≠ [] := by
      intro h0
      rw [h0] at hB
      cases hp : p <;> rw [hp] at hB <;> cases hB
    have hd := loop_ok hk _ hs.inv (Or.inr ⟨nibbles_path k, hB⟩) h1
    rw [under_single] at hd
    have hd := hd.2 hne
    refine ⟨hB, sorted_concat hs.sorted hs.before, ?_, nibbles_path k, hne, hsize, rfl, rfl, hd.1, hd.2⟩
    intro e he
    rcases List.mem_append.mp he with he | he
    · exact before_trans (hs.before e he) hB
    · rw [List.mem_singleton.mp he]; exact hB

theorem add_total {keccak : Bytes → Bytes} (hk : ∀ x, (keccak x).length = 32) {K : Ents} {p v : Bytes}
    {s : HashBuilder} {k w : Bytes} (hs : St keccak K p v s) (hm : MaskOk s) (hB : Before p (nibbles k)) :
    ∃ t, add keccak false s k w = .ok t ∧ MaskOk t := by
  obtain ⟨t, h1, h2⟩ := loop_total hk (p.length + 1) (Nat.lt_succ_self _) hs.inv (Or.inr ⟨nibbles_path k, hB⟩) hm
  unfold add
  simp only [unpack_eq]
  rw [if_neg (by rw [hs.key]; simp only [not_not]; exact lexLt_iff.mpr (Or.inl hB)),
    if_pos (by rw [hs.key]; exact hs.nonempty), hs.key, hs.value]
  unfold genStructStep
  rw [h1]
  exact ⟨_, rfl, h2⟩

theorem finalize_ok {keccak : Bytes → Bytes} (hk : ∀ x, (keccak x).length = 32) {collect : Bool} {K : Ents} {p v : Bytes}
    {s t : HashBuilder} (hs : St keccak K p v s) (h : finalize keccak collect s = .ok t) :
    t.stack = [refB keccak (K ++ [(p, v)])] := by
  unfold finalize at h
  rw [if_pos (by rw [hs.key]; exact hs.nonempty), bind_ok] at h
  obtain ⟨s1, h1, h⟩ := h
  cases h
  rw [hs.key, hs.value] at h1
  have hd := loop_ok hk _ hs.inv (Or.inl rfl) h1
  rw [under_single] at hd
  exact (hd.1 rfl).2

theorem finalize_total {keccak : Bytes → Bytes} (hk : ∀ x, (keccak x).length = 32) {K : Ents} {p v : Bytes}
    {s : HashBuilder} (hs : St keccak K p v s) (hm : MaskOk s) :
    ∃ t, finalize keccak false s = .ok t := by
  obtain ⟨t, h1, _⟩ := loop_total hk (p.length + 1) (Nat.lt_succ_self _) hs.inv (Or.inl rfl) hm
  unfold finalize
  rw [if_pos (by rw [hs.key]; exact hs.nonempty), hs.key, hs.value]
  unfold genStructStep
  rw [h1]
  exact ⟨_, rfl⟩

/-- Entries with their keys as nibbles. -/
def nib (es : Ents) : Ents := es.map (fun e => (nibbles e.1, e.2))

/-- The sizes of keys and values are those of objects in memory. -/
def Sized (es : Ents) : Prop := ∀ e ∈ es, 2 * e.1.length + e.2.length < 2 ^ 63

theorem addAll_ok {keccak : Bytes → Bytes} (hk : ∀ x, (keccak x).length = 32) {collect : Bool} :
    ∀ {es : Ents} {K : Ents} {p v : Bytes} {s t : HashBuilder}, St keccak K p v s → Sized es →
    addAll keccak collect s es = .ok t →
    ∃ K' p' v', K' ++ [(p', v')] = (K ++ [(p, v)]) ++ nib es ∧ St keccak K' p' v' t
  | [], K, p, v, s, t, hs, _, h => by
    cases h
    exact ⟨K, p, v, by simp [nib], hs⟩
  | e :: es, K, p, v, s, t, hs, hz, h => by
    unfold addAll at h
    rw [bind_ok] at h
    obtain ⟨s1, h1, h⟩ := h
    have hz1 := hz e (List.mem_cons_self ..)
    have h2 := (add_ok hk hs (by rw [nibbles_length]; exact hz1) h1).2
    obtain ⟨K', p', v', e1, e2⟩ := addAll_ok hk h2 (fun x hx => hz x (List.mem_cons_of_mem _ hx)) h
    exact ⟨K', p', v', by rw [e1]; simp [nib], e2⟩

theorem addAll_total {keccak : Bytes → Bytes} (hk : ∀ x, (keccak x).length = 32) :
    ∀ {es : Ents} {K : Ents} {p v : Bytes} {s : HashBuilder}, St keccak K p v s → MaskOk s → Sized es →
    Sorted ((p, v) :: nib es) → ∃ t, addAll keccak false s es = .ok t ∧ MaskOk t
  | [], K, p, v, s, _, hm, _, _ => ⟨s, rfl, hm⟩
  | e :: es, K, p, v, s, hs, hm, hz, hso => by
    have hso' := List.pairwise_cons.mp hso
    have hB : Before p (nibbles e.1) := hso'.1 (nibbles e.1, e.2) (List.mem_cons_self ..)
    obtain ⟨t, h1, h2⟩ := add_total (w := e.2) hk hs hm hB
    have hz1 := hz e (List.mem_cons_self ..)
    have h3 := (add_ok hk hs (by rw [nibbles_length]; exact hz1) h1).2
    obtain ⟨u, h4, h5⟩ := addAll_total hk h3 h2 (fun x hx => hz x (List.mem_cons_of_mem _ hx)) hso'.2
    refine ⟨u, ?_, h5⟩
    unfold addAll
    rw [h1]
    exact h4

/-- The first call of `add`. -/
theorem add_first {keccak : Bytes → Bytes} {collect : Bool} {k w : Bytes} :
    add keccak collect {} k w = if k = [] then .ub else .ok { ({} : HashBuilder) with key := nibbles k, value := w } := by
  unfold add
  simp only [unpack_eq]
  by_cases h : k = []
  · subst h; rfl
  · rw [if_neg h]
    have : Db.lexLt [] (nibbles k) = true := by
      cases k with
      | nil => exact absurd rfl h
      | cons x xs => rfl
    simp [this, Outcome.bind]

theorem st_first {keccak : Bytes → Bytes} {k w : Bytes} (hk : k ≠ []) (hz : 2 * k.length + w.length < 2 ^ 63) :
    St keccak [] (nibbles k) w { ({} : HashBuilder) with key := nibbles k, value := w } :=
  ⟨List.Pairwise.nil, (fun e h => by cases h), nibbles_path k, fun h => hk (nibbles_eq_nil.mp h),
    by rw [nibbles_length]; exact hz, rfl, rfl, (groupsOf_nil _).symm, (stackOf_nil _ _).symm⟩

theorem rootOfStack_ref {keccak : Bytes → Bytes} (hk : ∀ x, (keccak x).length = 32) (es : Ents) :
    rootOfStack keccak [refB keccak es] = keccak (rlp (node keccak es)) := by
  show (if (refB keccak es).length = 33 then (refB keccak es).drop 1 else keccak (refB keccak es)) = _
  unfold refB
  rw [← nodeRef_rlp hk]
  unfold nodeRef
  by_cases h : (rlp (node keccak es)).length < 32
  · rw [if_pos h, if_neg (by omega)]
  · rw [if_neg h]
    simp [hk]

theorem sorted_nib {es : Ents} : Sorted (nib es) ↔ es.Pairwise (fun a b => Before a.1 b.1) := by
  unfold Sorted nib
  rw [List.pairwise_map]
  constructor
  · intro h; exact h.imp (fun h => before_nibbles.mp h)
  · intro h; exact h.imp (fun h => before_nibbles.mpr h)

theorem pairwise_before {es : Ents} (h1 : Increasing es) (h2 : PrefixFree es) :
    es.Pairwise (fun a b => Before a.1 b.1) :=
  (h1.and h2).imp (fun h => before_of_keyLt.mpr ⟨h.1, h.2.1⟩)

theorem increasing_of_before {es : Ents} (h : es.Pairwise (fun a b => Before a.1 b.1)) : Increasing es ∧ PrefixFree es :=
  ⟨h.imp (fun h => (before_of_keyLt.mp h).1), h.imp (fun h => before_not_prefix h)⟩

/-- Whatever the collector does, a run that succeeds gives the right root. -/
theorem buildRoot_ok {keccak : Bytes → Bytes} (hk : ∀ x, (keccak x).length = 32) {collect : Bool} {es : Ents}
    {r : Bytes} {s : HashBuilder} (hz : Sized es) (hne : es ≠ []) (h : buildRoot keccak collect es = .ok (r, s)) :
    r = trieRoot keccak es ∧ Increasing es ∧ PrefixFree es ∧ ∀ e ∈ es, e.1 ≠ [] := by
  cases es with
  | nil => exact absurd rfl hne
  | cons e es =>
    unfold buildRoot addAll at h
    rw [add_first] at h
    by_cases he : e.1 = []
    · rw [if_pos he] at h; cases h
    · rw [if_neg he, bind_ok] at h
      obtain ⟨s1, h1, h⟩ := h
      have hz1 := hz e (List.mem_cons_self ..)
      obtain ⟨K, p, v, e1, e2⟩ := addAll_ok hk (st_first (keccak := keccak) he hz1)
        (fun x hx => hz x (List.mem_cons_of_mem _ hx)) h1
      unfold rootHash at h
      rw [bind_ok] at h
      obtain ⟨s2, h2, h⟩ := h
      cases h
      have hst := finalize_ok hk e2 h2
      have e1' : K ++ [(p, v)] = nib (e :: es) := by rw [e1]; rfl
      rw [hst, rootOfStack_ref hk, e1']
      have hso : Sorted (nib (e :: es)) := by rw [← e1']; exact sorted_concat e2.sorted e2.before
      have hinc := increasing_of_before (sorted_nib.mp hso)
      refine ⟨rfl, hinc.1, hinc.2, ?_⟩
      intro x hx
      rcases List.mem_cons.mp hx with rfl | hx
      · exact he
      · intro h0
        have := (List.pairwise_cons.mp hinc.2).1 x hx
        rw [h0] at this
        exact this.2 List.nil_prefix

theorem buildRoot_total {keccak : Bytes → Bytes} (hk : ∀ x, (keccak x).length = 32) {es : Ents} (hz : Sized es)
    (h1 : Increasing es) (h2 : PrefixFree es) (h3 : ∀ e ∈ es, e.1 ≠ []) :
    ∃ r s, buildRoot keccak false es = .ok (r, s) := by
  cases es with
  | nil => exact ⟨_, _, rfl⟩
  | cons e es =>
    have he := h3 e (List.mem_cons_self ..)
    have hz1 := hz e (List.mem_cons_self ..)
    have hst := st_first (keccak := keccak) (w := e.2) he hz1
    have hso := sorted_nib.mpr (pairwise_before h1 h2)
    have hz' : Sized es := fun x hx => hz x (List.mem_cons_of_mem _ hx)
    obtain ⟨t, ht, hm⟩ := addAll_total hk hst ⟨0, rfl, rfl⟩ hz' hso
    obtain ⟨K, p, v, e1, e2⟩ := addAll_ok hk hst hz' ht
    obtain ⟨u, hu⟩ := finalize_total hk e2 hm
    unfold buildRoot addAll
    rw [add_first, if_neg he]
    have : (Outcome.ok ({ ({} : HashBuilder) with key := nibbles e.1, value := e.2 }) : Outcome Empty HashBuilder).bind
        (fun s => addAll keccak false s es) = .ok t := ht
    rw [this]
    show ∃ r s, rootHash keccak false t = .ok (r, s)
    unfold rootHash
    rw [hu]
    exact ⟨_, _, rfl⟩

/-! ## The specification does not depend on the order -/

theorem prefix_lcp {p a b : Bytes} : p <+: lcp a b ↔ p <+: a ∧ p <+: b := by
  constructor
  · intro h; exact ⟨h.trans (lcp_prefix_left a b), h.trans (lcp_prefix_right a b)⟩
  · rintro ⟨h1, h2⟩
    induction p generalizing a b with
    | nil => exact List.nil_prefix
    | cons x p ih =>
      cases a with
      | nil => exact absurd (List.prefix_nil.mp h1) (by simp)
      | cons y a =>
        cases b with
        | nil => exact absurd (List.prefix_nil.mp h2) (by simp)
        | cons z b =>
          obtain ⟨e1, h3⟩ := List.cons_prefix_cons.mp h1
          obtain ⟨e2, h4⟩ := List.cons_prefix_cons.mp h2
          subst e1
          subst e2
          unfold lcp
          rw [if_pos rfl]
          exact List.cons_prefix_cons.mpr ⟨rfl, ih h3 h4⟩

theorem prefix_commonPrefix {p : Bytes} : ∀ {es : Ents}, es ≠ [] → (p <+: commonPrefix es ↔ ∀ e ∈ es, p <+: e.1)
  | [], h => absurd rfl h
  | [e], _ => by simp [commonPrefix]
  | e :: f :: r, _ => by
    show p <+: lcp e.1 (commonPrefix (f :: r)) ↔ _
    rw [prefix_lcp, prefix_commonPrefix (by simp)]
    simp

theorem commonPrefix_perm {a b : Ents} (h : a.Perm b) : commonPrefix a = commonPrefix b := by
  by_cases ha : a = []
  · subst ha
    rw [List.nil_perm.mp h]
  · have hb : b ≠ [] := fun h0 => ha (List.perm_nil.mp (h0 ▸ h))
    have key : ∀ p, p <+: commonPrefix a ↔ p <+: commonPrefix b := by
      intro p
      rw [prefix_commonPrefix ha, prefix_commonPrefix hb]
      exact ⟨fun hp e he => hp e (h.mem_iff.mpr he), fun hp e he => hp e (h.mem_iff.mp he)⟩
    have h1 := (key _).mp (List.prefix_refl _)
    have h2 := (key _).mpr (List.prefix_refl _)
    exact h1.eq_of_length_le h2.length_le

theorem children_perm {a b : Ents} (h : a.Perm b) (d : UInt8) : (children d a).Perm (children d b) := by
  have e : ∀ es : Ents, children d es = es.filterMap (fun x => match x.1 with
      | [] => none
      | y :: k => if y = d then some (k, x.2) else none) := by
    intro es
    induction es with
    | nil => rfl
    | cons x es ih =>
      obtain ⟨k, v⟩ := x
      cases k with
      | nil => rw [List.filterMap_cons]; exact ih
      | cons y k =>
        show (if y = d then (k, v) :: children d es else children d es) = _
        rw [List.filterMap_cons]
        by_cases hy : y = d
        · simp only [hy, if_true]; rw [ih]
        · simp only [hy, if_false]; exact ih
  rw [e, e]
  exact h.filterMap _

/-- No path is a prefix of another one. -/
def Free (es : Ents) : Prop := es.Pairwise (fun a b => ¬ a.1 <+: b.1 ∧ ¬ b.1 <+: a.1)

theorem free_perm {a b : Ents} (h : a.Perm b) (hf : Free a) : Free b :=
  (h.pairwise_iff (fun hab => ⟨hab.2, hab.1⟩)).mp hf

theorem free_children {es : Ents} (hf : Free es) (d : UInt8) : Free (children d es) := by
  induction es with
  | nil => exact List.Pairwise.nil
  | cons e es ih =>
    obtain ⟨k, v⟩ := e
    have hf' := List.pairwise_cons.mp hf
    cases k with
    | nil => exact ih hf'.2
    | cons x k =>
      unfold children
      split
      · rename_i hx
        subst hx
        refine List.pairwise_cons.mpr ⟨?_, ih hf'.2⟩
        rintro ⟨k', v'⟩ hm
        have := hf'.1 _ (mem_children.mp hm)
        exact ⟨fun h0 => this.1 (List.cons_prefix_cons.mpr ⟨rfl, h0⟩),
          fun h0 => this.2 (List.cons_prefix_cons.mpr ⟨rfl, h0⟩)⟩
      · exact ih hf'.2

theorem free_drop {es : Ents} (hf : Free es) (l : Bytes) (hl : ∀ e ∈ es, l <+: e.1) :
    Free (es.map (fun e => (e.1.drop l.length, e.2))) := by
  unfold Free
  rw [List.pairwise_map]
  refine hf.imp_of_mem ?_
  intro a b ha hb h
  obtain ⟨a', ea⟩ := hl a ha
  obtain ⟨b', eb⟩ := hl b hb
  simp only [← ea, ← eb, List.drop_left]
  rw [← ea, ← eb] at h
  exact ⟨fun h0 => h.1 ((List.prefix_append_right_inj l).mpr h0), fun h0 => h.2 ((List.prefix_append_right_inj l).mpr h0)⟩

theorem free_nonempty {es : Ents} (hf : Free es) (h2 : 2 ≤ es.length) : ∀ e ∈ es, e.1 ≠ [] := by
  match es, h2 with
  | a :: b :: r, _ =>
    intro e he h0
    have hf' := List.pairwise_cons.mp hf
    rcases List.mem_cons.mp he with rfl | he
    · have := hf'.1 b (List.mem_cons_self ..)
      rw [h0] at this
      exact this.1 List.nil_prefix
    · have := hf'.1 e he
      rw [h0] at this
      exact this.2 List.nil_prefix

theorem trieNode_perm (keccak : Bytes → Bytes) : ∀ (n : Nat) {a b : Ents}, a.Perm b → Free a →
    trieNode keccak n a = trieNode keccak n b := by
  intro n
  induction n with
  | zero =>
    intro a b h _
    match a, b, h with
    | [], b, h => rw [List.nil_perm.mp h]
    | [e], b, h => rw [List.singleton_perm.mp h]
    | e :: f :: r, b, h =>
      have hl := h.length_eq
      match b, hl with
      | e' :: f' :: r', _ => rfl
  | succ n ih =>
    intro a b h hf
    match a, b, h, hf with
    | [], b, h, _ => rw [List.nil_perm.mp h]
    | [e], b, h, _ => rw [List.singleton_perm.mp h]
    | e :: f :: r, b, h, hf =>
      have hl := h.length_eq
      match b, hl, h with
      | e' :: f' :: r', _, h =>
        have hc := commonPrefix_perm h
        unfold trieNode
        by_cases hcp : commonPrefix (e :: f :: r) ≠ []
        · rw [if_pos hcp, if_pos (hc ▸ hcp)]
          have hpre := fun x hx => commonPrefix_prefix (e :: f :: r) x hx
          have := ih (h.map (fun x : Bytes × Bytes => (x.1.drop (commonPrefix (e :: f :: r)).length, x.2)))
            (free_drop hf _ hpre)
          rw [hc] at this
          exact congrArg₂ (fun l i => Item.list [.str (hexPrefix l false), reference keccak i]) hc (hc ▸ this)
        · rw [if_neg hcp, if_neg (hc ▸ hcp)]
          have h1 : branchValue (e :: f :: r) = [] := branchValue_nil (free_nonempty hf (by simp))
          have h2 : branchValue (e' :: f' :: r') = [] := branchValue_nil (free_nonempty (free_perm h hf) (by simp))
          have h3 : ∀ d, trieNode keccak n (children d (e :: f :: r)) = trieNode keccak n (children d (e' :: f' :: r')) :=
            fun d => ih (children_perm h d) (free_children hf d)
          have e1 : digits.map (fun d => reference keccak (trieNode keccak n (children d (e :: f :: r)))) =
              digits.map (fun d => reference keccak (trieNode keccak n (children d (e' :: f' :: r')))) :=
            List.map_congr_left (fun d _ => by rw [h3 d])
          show Item.list (_ ++ [Item.str (branchValue (e :: f :: r))]) =
            Item.list (_ ++ [Item.str (branchValue (e' :: f' :: r'))])
          rw [h1, h2]
          exact congrArg (fun l => Item.list (l ++ [Item.str []])) e1

theorem free_nib {es : Ents} (h : PrefixFree es) : Free (nib es) := by
  unfold Free nib
  rw [List.pairwise_map]
  refine h.imp ?_
  intro a b h
  exact ⟨fun h0 => h.1 (prefix_nibbles.mp h0), fun h0 => h.2 (prefix_nibbles.mp h0)⟩

theorem trieRoot_perm (keccak : Bytes → Bytes) {a b : Ents} (h : a.Perm b) (hf : PrefixFree a) :
    trieRoot keccak a = trieRoot keccak b := by
  have hp : (nib a).Perm (nib b) := h.map _
  have hd : depthBound (nib a) = depthBound (nib b) := by
    unfold depthBound
    rw [(hp.map _).sum_nat]
  show keccak (rlp (trieNode keccak (depthBound (nib a)) (nib a))) = keccak (rlp (trieNode keccak (depthBound (nib b)) (nib b)))
  rw [hd, trieNode_perm keccak _ hp (free_nib hf)]

end Silkworm.Trie
