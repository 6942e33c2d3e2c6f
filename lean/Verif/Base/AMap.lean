/-!
# Finite maps

A hash map of the C++ code (`FlatHashMap`, `NodeHashMap`, `std::unordered_map`; core/silkworm/common/hash_maps.hpp) is a
list of entries with one entry per key. The order of the list stands for the order in which the C++ code would iterate,
which is unspecified: theorems about loops over a map hold for every order of its entries.
-/

namespace Silkworm

/-- A map as the list of its entries. -/
abbrev AMap (K V : Type) := List (K × V)

namespace AMap

variable {K V : Type} [DecidableEq K]

/-- `find`. -/
def get? (m : AMap K V) (k : K) : Option V := (m.find? (fun e => e.1 == k)).map (·.2)

/-- `erase`. -/
def erase (m : AMap K V) (k : K) : AMap K V := m.filter (fun e => e.1 != k)

/-- `m[k] = v`. -/
def set (m : AMap K V) (k : K) (v : V) : AMap K V := (k, v) :: erase m k

/-- The keys. -/
def keys (m : AMap K V) : List K := m.map (·.1)

/-- One entry per key. -/
def WF (m : AMap K V) : Prop := (keys m).Nodup

omit [DecidableEq K] in
@[simp] theorem keys_nil : keys ([] : AMap K V) = [] := rfl

@[simp] theorem get?_nil (k : K) : get? ([] : AMap K V) k = none := rfl

theorem get?_cons (e : K × V) (m : AMap K V) (k : K) :
    get? (e :: m) k = if e.1 = k then some e.2 else get? m k := by
  unfold get?
  rw [List.find?_cons]
  by_cases h : e.1 = k
  · simp [h]
  · have : (e.1 == k) = false := by simp [h]
    simp [h, this]

@[simp] theorem get?_erase_self (m : AMap K V) (k : K) : get? (erase m k) k = none := by
  unfold get? erase
  simp [List.find?_eq_none]

theorem get?_erase_ne (m : AMap K V) {k j : K} (h : j ≠ k) : get? (erase m k) j = get? m j := by
  induction m with
  | nil => rfl
  | cons e m ih =>
    unfold erase at ih ⊢
    rw [List.filter_cons]
    by_cases hk : e.1 = k
    · have hb : (e.1 != k) = false := by simp [hk]
      have hj : e.1 ≠ j := fun he => h (he ▸ hk)
      rw [hb]
      simp only [Bool.false_eq_true, if_false]
      rw [ih, get?_cons, if_neg hj]
    · have hb : (e.1 != k) = true := by simp [hk]
      rw [hb]
      simp only [if_true]
      rw [get?_cons, get?_cons, ih]

theorem get?_erase (m : AMap K V) (k j : K) : get? (erase m k) j = if j = k then none else get? m j := by
  by_cases h : j = k
  · subst h; simp
  · rw [get?_erase_ne m h, if_neg h]

theorem get?_set (m : AMap K V) (k j : K) (v : V) : get? (set m k v) j = if j = k then some v else get? m j := by
  unfold set
  rw [get?_cons]
  by_cases h : j = k
  · subst h; simp
  · have h' : k ≠ j := fun e => h e.symm
    simp only [if_neg h, if_neg h']
    exact get?_erase_ne m h

@[simp] theorem get?_set_self (m : AMap K V) (k : K) (v : V) : get? (set m k v) k = some v := by
  rw [get?_set, if_pos rfl]

theorem get?_set_ne (m : AMap K V) {k j : K} (h : j ≠ k) (v : V) : get? (set m k v) j = get? m j := by
  rw [get?_set, if_neg h]

theorem mem_of_get? {m : AMap K V} {k : K} {v : V} (h : get? m k = some v) : (k, v) ∈ m := by
  induction m with
  | nil => simp at h
  | cons e m ih =>
    rw [get?_cons] at h
    by_cases hk : e.1 = k
    · rw [if_pos hk] at h
      have : e = (k, v) := by
        obtain ⟨a, b⟩ := e
        simp only at hk
        simp only [Option.some.injEq] at h
        simp [hk, h]
      simp [this]
    · rw [if_neg hk] at h
      exact List.mem_cons_of_mem _ (ih h)

theorem get?_eq_none_iff {m : AMap K V} {k : K} : get? m k = none ↔ k ∉ keys m := by
  induction m with
  | nil => simp
  | cons e m ih =>
    rw [get?_cons]
    by_cases hk : e.1 = k
    · simp [hk, keys]
    · rw [if_neg hk, ih]
      simp only [keys, List.map_cons, List.mem_cons, not_or]
      constructor
      · intro h; exact ⟨fun e' => hk e'.symm, h⟩
      · intro h; exact h.2

theorem get?_of_mem {m : AMap K V} (hm : WF m) {k : K} {v : V} (h : (k, v) ∈ m) : get? m k = some v := by
  induction m with
  | nil => simp at h
  | cons e m ih =>
    have hn : e.1 ∉ keys m ∧ WF m := by
      unfold WF keys at hm
      rw [List.map_cons, List.nodup_cons] at hm
      exact hm
    rw [get?_cons]
    rcases List.mem_cons.mp h with rfl | h'
    · simp
    · have : k ∈ keys m := List.mem_map.mpr ⟨_, h', rfl⟩
      have hne : e.1 ≠ k := fun he => hn.1 (he ▸ this)
      rw [if_neg hne]
      exact ih hn.2 h'

omit [DecidableEq K] in
theorem WF_nil : WF ([] : AMap K V) := by simp [WF]

theorem mem_keys_erase {m : AMap K V} {k j : K} : j ∈ keys (erase m k) ↔ j ∈ keys m ∧ j ≠ k := by
  unfold keys erase
  simp only [List.mem_map, List.mem_filter, bne_iff_ne]
  constructor
  · rintro ⟨e, ⟨he, hk⟩, rfl⟩; exact ⟨⟨e, he, rfl⟩, hk⟩
  · rintro ⟨⟨e, he, rfl⟩, hk⟩; exact ⟨e, ⟨he, hk⟩, rfl⟩

theorem WF_erase {m : AMap K V} (h : WF m) (k : K) : WF (erase m k) := by
  unfold WF keys erase at *
  exact h.sublist ((List.filter_sublist).map _)

theorem WF_set {m : AMap K V} (h : WF m) (k : K) (v : V) : WF (set m k v) := by
  have h1 := WF_erase h k
  unfold WF set at *
  show ((k :: keys (erase m k))).Nodup
  rw [List.nodup_cons]
  exact ⟨fun hk => (mem_keys_erase.mp hk).2 rfl, h1⟩

theorem mem_keys_set {m : AMap K V} {k j : K} {v : V} : j ∈ keys (set m k v) ↔ j = k ∨ j ∈ keys m := by
  show j ∈ k :: keys (erase m k) ↔ _
  rw [List.mem_cons, mem_keys_erase]
  constructor
  · rintro (h | h)
    · exact Or.inl h
    · exact Or.inr h.1
  · rintro (h | h)
    · exact Or.inl h
    · by_cases hk : j = k
      · exact Or.inl hk
      · exact Or.inr ⟨h, hk⟩

end AMap

/-- `insert` of a hash set; the set is the list of its elements. -/
def setInsert {K : Type} [DecidableEq K] (s : List K) (k : K) : List K := if s.contains k then s else k :: s

/-- `erase` of a hash set. -/
def setErase {K : Type} [DecidableEq K] (s : List K) (k : K) : List K := s.filter (fun x => x != k)

theorem mem_setInsert {K : Type} [DecidableEq K] {s : List K} {k j : K} : j ∈ setInsert s k ↔ j = k ∨ j ∈ s := by
  unfold setInsert
  by_cases h : s.contains k
  · rw [if_pos h]
    have : k ∈ s := by simpa using h
    constructor
    · exact Or.inr
    · rintro (rfl | h') <;> assumption
  · rw [if_neg h]; simp

theorem setInsert_of_mem {K : Type} [DecidableEq K] {s : List K} {k : K} (h : k ∈ s) : setInsert s k = s := by
  unfold setInsert
  rw [if_pos (by simpa using h)]

theorem setInsert_of_not_mem {K : Type} [DecidableEq K] {s : List K} {k : K} (h : k ∉ s) : setInsert s k = k :: s := by
  unfold setInsert
  rw [if_neg (by simpa using h)]

theorem setErase_cons_self {K : Type} [DecidableEq K] {s : List K} {k : K} (h : k ∉ s) : setErase (k :: s) k = s := by
  unfold setErase
  rw [List.filter_cons]
  simp only [bne_self_eq_false, Bool.false_eq_true, if_false]
  rw [List.filter_eq_self]
  intro a ha
  simp only [bne_iff_ne]
  exact fun e => h (e ▸ ha)

end Silkworm
