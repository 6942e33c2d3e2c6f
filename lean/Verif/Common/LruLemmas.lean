import Verif.Common.Lru
import Verif.Spec.Lru
import Mathlib.Data.List.Nodup
import Mathlib.Data.List.Perm.Basic
import Mathlib.Data.List.Perm.Subperm

/-!
# Lemmas about the LRU cache
-/

namespace Silkworm.LruCache

variable {K V : Type} [DecidableEq K]

theorem lookup_iff {α : Type} {l : List (K × α)} (h : (l.map (·.1)).Nodup) {k : K} {a : α} :
    l.lookup k = some a ↔ (k, a) ∈ l := by
  induction l with
  | nil => simp
  | cons e l ih =>
    obtain ⟨k', a'⟩ := e
    simp only [List.map_cons, List.nodup_cons] at h
    rw [List.lookup_cons]
    by_cases hk : k = k'
    · subst hk
      simp only [beq_self_eq_true, Option.some.injEq, List.mem_cons, Prod.mk.injEq, true_and]
      constructor
      · intro e; exact Or.inl e.symm
      · rintro (e | e)
        · exact e.symm
        · exact absurd (List.mem_map_of_mem (f := (·.1)) e) h.1
    · have hb : (k == k') = false := by simpa using hk
      rw [hb]
      simp only [Bool.false_eq_true, if_false, List.mem_cons, Prod.mk.injEq, hk, false_and, false_or]
      exact ih h.2

theorem lookup_none_iff {α : Type} {l : List (K × α)} {k : K} : l.lookup k = none ↔ k ∉ l.map (·.1) := by
  induction l with
  | nil => simp
  | cons e l ih =>
    obtain ⟨k', a'⟩ := e
    rw [List.lookup_cons]
    by_cases hk : k = k'
    · subst hk; simp
    · have hb : (k == k') = false := by simpa using hk
      rw [hb]
      simp [hk, ih]

/-- The entries of a cache, most recent first. -/
def contents (c : LruCache K V) : List (K × V) := c.items.map (·.2)

/-- The invariant: every node has its own identity and key, and the map holds exactly the nodes. -/
structure Inv (c : LruCache K V) : Prop where
  ids : (c.items.map (·.1)).Nodup
  fresh : ∀ n ∈ c.items, n.1 < c.next
  keys : (c.items.map (·.2.1)).Nodup
  map : c.map.Perm (c.items.map fun n => (n.2.1, n.1))
  size : c.items.length ≤ c.maxSize

theorem Inv.mapKeys {c : LruCache K V} (h : Inv c) : (c.map.map (·.1)).Nodup := by
  have := (h.map.map (·.1)).nodup_iff.mpr (by simpa [List.map_map, Function.comp_def] using h.keys)
  exact this

theorem Inv.find_iff {c : LruCache K V} (h : Inv c) {k : K} {id : Nat} :
    c.find k = some id ↔ ∃ v, (id, k, v) ∈ c.items := by
  unfold find
  rw [lookup_iff h.mapKeys, h.map.mem_iff]
  simp only [List.mem_map, Prod.mk.injEq, Prod.exists]
  constructor
  · rintro ⟨a, b, v, h1, rfl, rfl⟩; exact ⟨v, h1⟩
  · rintro ⟨v, h1⟩; exact ⟨id, k, v, h1, rfl, rfl⟩

theorem Inv.find_none {c : LruCache K V} (h : Inv c) {k : K} : c.find k = none ↔ k ∉ c.contents.map (·.1) := by
  unfold find
  rw [lookup_none_iff, (h.map.map (·.1)).mem_iff]
  simp [contents, List.map_map, Function.comp_def]

/-- Nodes are determined by identity and by key. -/
theorem Inv.filter_eq {c : LruCache K V} (h : Inv c) {k : K} {id : Nat} {v : V} (hm : (id, k, v) ∈ c.items) :
    c.items.filter (fun n => n.1 != id) = c.items.filter (fun n => n.2.1 != k) := by
  apply List.filter_congr
  intro n hn
  have h1 : n.1 = id → n = (id, k, v) := fun e => List.inj_on_of_nodup_map h.ids hn hm (by simpa using e)
  have h2 : n.2.1 = k → n = (id, k, v) := fun e => List.inj_on_of_nodup_map h.keys hn hm (by simpa using e)
  by_cases e : n = (id, k, v)
  · subst e; simp
  · have e1 : n.1 ≠ id := fun x => e (h1 x)
    have e2 : n.2.1 ≠ k := fun x => e (h2 x)
    rw [bne_iff_ne.mpr e1, bne_iff_ne.mpr e2]

theorem filter_contents (l : List (Nat × K × V)) (k : K) :
    (l.filter (fun n => n.2.1 != k)).map (·.2) = (l.map (·.2)).filter (fun e => e.1 != k) := by
  induction l with
  | nil => rfl
  | cons n l ih =>
    by_cases h : n.2.1 = k
    · simp [List.filter_cons, h, ih]
    · simp [List.filter_cons, h, ih]

theorem Inv.erase {c : LruCache K V} (h : Inv c) (k : K) :
    (eraseKey c.map k).Perm ((c.items.filter (fun n => n.2.1 != k)).map fun n => (n.2.1, n.1)) := by
  unfold eraseKey
  refine (h.map.filter _).trans ?_
  rw [List.filter_map]
  rfl

theorem inv_empty (n : Nat) : Inv (empty n : LruCache K V) :=
  ⟨by simp [empty], by simp [empty], by simp [empty], by simp [empty], by simp [empty]⟩

theorem inv_clear {c : LruCache K V} (h : Inv c) : Inv c.clear :=
  ⟨by simp [clear], by simp [clear], by simp [clear], by simp [clear], by simp [clear]⟩

theorem filter_length_lt {l : List (Nat × K × V)} {n : Nat × K × V} {p : (Nat × K × V) → Bool} (hm : n ∈ l) (hp : p n = false) :
    (l.filter p).length < l.length := by
  rcases Nat.lt_or_ge (l.filter p).length l.length with h | h
  · exact h
  · have := List.length_filter_eq_length_iff.mp (Nat.le_antisymm (List.length_filter_le p l) h) n hm
    rw [hp] at this
    cases this

/-- `put` behaves like the abstract cache. -/
theorem put_spec {c : LruCache K V} (h : Inv c) (k : K) (v : V) :
    ∃ c', c.put k v = .ok c' ∧ Inv c' ∧ c'.contents = Spec.lruPut c.maxSize c.contents k v ∧ c'.maxSize = c.maxSize := by
  unfold put
  simp only
  cases hf : c.find k with
  | some id =>
    obtain ⟨v', hm⟩ := h.find_iff.mp hf
    have hid : (c.items.map (·.1)).contains id = true := by
      simp only [List.contains_iff_mem]
      exact List.mem_map_of_mem (f := (·.1)) hm
    simp only
    rw [if_pos hid]
    have hne : (c.next != id) = true := by
      have := h.fresh _ hm
      simp only at this
      simp only [bne_iff_ne, ne_eq]
      omega
    have hflt : ((c.next, k, v) :: c.items).filter (fun n => n.1 != id) =
        (c.next, k, v) :: c.items.filter (fun n => n.2.1 != k) := by
      rw [List.filter_cons_of_pos (by simpa using hne), h.filter_eq hm]
    rw [hflt]
    have hlen : (c.items.filter (fun n => n.2.1 != k)).length < c.items.length :=
      filter_length_lt hm (by simp)
    have hperm := h.erase k
    have hsz := h.size
    have hmlen : (eraseKey c.map k).length = (c.items.filter (fun n => n.2.1 != k)).length := by
      rw [hperm.length_eq, List.length_map]
    unfold evict
    simp only [List.length_cons]
    rw [if_neg (by rw [hmlen]; omega)]
    refine ⟨_, rfl, ?_, ?_, rfl⟩
    · refine ⟨?_, ?_, ?_, ?_, ?_⟩
      · simp only [List.map_cons, List.nodup_cons]
        refine ⟨?_, (List.filter_sublist.map _).nodup h.ids⟩
        intro hx
        obtain ⟨n, hn, hn'⟩ := List.mem_map.mp hx
        have := h.fresh n (List.mem_of_mem_filter hn)
        omega
      · intro n hn
        rcases List.mem_cons.mp hn with hn | hn
        · subst hn; exact Nat.lt_succ_self _
        · have := h.fresh n (List.mem_of_mem_filter hn); simp only; omega
      · simp only [List.map_cons, List.nodup_cons]
        refine ⟨?_, (List.filter_sublist.map _).nodup h.keys⟩
        intro hx
        obtain ⟨n, hn, hn'⟩ := List.mem_map.mp hx
        have := (List.mem_filter.mp hn).2
        simp [hn'] at this
      · simp only [List.map_cons]
        exact hperm.cons _
      · simp only [List.length_cons]; omega
    · unfold contents Spec.lruPut
      simp only [List.map_cons]
      rw [← filter_contents, List.take_of_length_le]
      simp only [List.length_cons, List.length_map]
      omega
  | none =>
    have hk := h.find_none.mp hf
    have hnk : ∀ n ∈ c.items, n.2.1 ≠ k := by
      intro n hn e
      apply hk
      unfold contents
      rw [List.map_map, List.mem_map]
      exact ⟨n, hn, e⟩
    have hflt : c.contents.filter (fun e => e.1 != k) = c.contents := by
      rw [List.filter_eq_self]
      intro e he
      obtain ⟨n, hn, rfl⟩ := List.mem_map.mp he
      simpa using hnk n hn
    have hids : (((c.next, k, v) :: c.items).map (·.1)).Nodup := by
      simp only [List.map_cons, List.nodup_cons]
      refine ⟨?_, h.ids⟩
      intro hx
      obtain ⟨n, hn, hn'⟩ := List.mem_map.mp hx
      have := h.fresh n hn
      omega
    have hkeys : (((c.next, k, v) :: c.items).map (·.2.1)).Nodup := by
      simp only [List.map_cons, List.nodup_cons]
      refine ⟨?_, h.keys⟩
      intro hx
      obtain ⟨n, hn, hn'⟩ := List.mem_map.mp hx
      exact hnk n hn hn'
    have hfresh : ∀ n ∈ (c.next, k, v) :: c.items, n.1 < c.next + 1 := by
      intro n hn
      rcases List.mem_cons.mp hn with hn | hn
      · subst hn; exact Nat.lt_succ_self _
      · have := h.fresh n hn; omega
    have hmap : ((k, c.next) :: c.map).Perm (((c.next, k, v) :: c.items).map fun n => (n.2.1, n.1)) := by
      simp only [List.map_cons]
      exact h.map.cons _
    have hmlen : c.map.length = c.items.length := by rw [h.map.length_eq, List.length_map]
    have hsz := h.size
    simp only
    unfold evict
    simp only [List.length_cons]
    by_cases hev : c.map.length + 1 > c.maxSize
    · rw [if_pos hev]
      obtain ⟨pre, last, hpl⟩ : ∃ pre last, (c.next, k, v) :: c.items = pre ++ [last] :=
        ⟨_, _, (List.dropLast_append_getLast (List.cons_ne_nil _ _)).symm⟩
      rw [hpl] at hids hkeys hfresh hmap ⊢
      rw [List.getLast?_append_of_ne_nil _ (by simp)]
      simp only [List.getLast?_singleton, List.dropLast_concat]
      refine ⟨_, rfl, ?_, ?_, rfl⟩
      · refine ⟨?_, ?_, ?_, ?_, ?_⟩
        · exact ((List.sublist_append_left _ _).map _).nodup hids
        · intro n hn; exact hfresh n (List.mem_append_left _ hn)
        · exact ((List.sublist_append_left _ _).map _).nodup hkeys
        · unfold eraseKey
          simp only
          refine (hmap.filter _).trans ?_
          rw [List.filter_map, List.filter_append]
          have hlast : ([last].filter ((fun e : K × Nat => e.1 != last.2.1) ∘ fun n => (n.2.1, n.1))) = [] := by simp
          rw [hlast, List.append_nil]
          have hpre : pre.filter ((fun e : K × Nat => e.1 != last.2.1) ∘ fun n => (n.2.1, n.1)) = pre := by
            rw [List.filter_eq_self]
            intro n hn
            simp only [Function.comp, bne_iff_ne, ne_eq]
            intro e
            rw [List.map_append, List.nodup_append] at hkeys
            exact hkeys.2.2 _ (List.mem_map_of_mem (f := (·.2.1)) hn) _ (by simp) e
          rw [hpre]
        · have := congrArg List.length hpl
          simp only [List.length_cons, List.length_append, List.length_nil] at this
          simp only
          omega
      · unfold Spec.lruPut
        rw [hflt]
        have hc : (k, v) :: c.contents = (pre ++ [last]).map (·.2) := by rw [← hpl]; rfl
        rw [hc]
        unfold contents
        simp only
        rw [List.map_append, List.take_append_of_le_length, List.take_of_length_le]
        · have := congrArg List.length hpl
          simp only [List.length_cons, List.length_append, List.length_nil] at this
          rw [List.length_map]; omega
        · have := congrArg List.length hpl
          simp only [List.length_cons, List.length_append, List.length_nil] at this
          rw [List.length_map]; omega
    · rw [if_neg hev]
      refine ⟨_, rfl, ⟨hids, hfresh, hkeys, hmap, ?_⟩, ?_, rfl⟩
      · simp only [List.length_cons]; omega
      · unfold Spec.lruPut
        rw [hflt, List.take_of_length_le]
        · rfl
        · simp only [List.length_cons, contents, List.length_map]; omega

/-- The abstract lookup sees the nodes. -/
theorem Inv.lookup_iff {c : LruCache K V} (h : Inv c) {k : K} {v : V} :
    c.contents.lookup k = some v ↔ ∃ id, (id, k, v) ∈ c.items := by
  rw [LruCache.lookup_iff (by simpa [contents, List.map_map, Function.comp_def] using h.keys)]
  unfold contents
  simp

/-- `get` behaves like the abstract cache. -/
theorem get_spec {c : LruCache K V} (h : Inv c) (k : K) :
    ∃ c', c.get k = .ok (Spec.lruValue c.contents k, c') ∧ Inv c' ∧ c'.contents = Spec.lruTouch c.contents k ∧
      c'.maxSize = c.maxSize := by
  unfold get
  cases hf : c.find k with
  | none =>
    have hk := h.find_none.mp hf
    have hl : c.contents.lookup k = none := lookup_none_iff.mpr hk
    simp only
    exact ⟨c, by rw [Spec.lruValue, hl], h, by rw [Spec.lruTouch, hl], rfl⟩
  | some id =>
    obtain ⟨v, hm⟩ := h.find_iff.mp hf
    have hl : c.contents.lookup k = some v := h.lookup_iff.mpr ⟨id, hm⟩
    have hfind : c.items.find? (fun n => n.1 == id) = some (id, k, v) := by
      cases hfi : c.items.find? (fun n => n.1 == id) with
      | none =>
        have := List.find?_eq_none.mp hfi _ hm
        simp at this
      | some n =>
        have h1 := List.find?_some hfi
        have h2 := List.mem_of_find?_eq_some hfi
        simp only [beq_iff_eq] at h1
        rw [List.inj_on_of_nodup_map h.ids h2 hm (by simpa using h1)]
    simp only
    rw [hfind]
    simp only
    have hp : c.items.Perm ((id, k, v) :: c.items.filter (fun n => n.1 != id)) := by
      have hids := h.ids
      revert hm hids
      generalize c.items = l
      intro hm hids
      obtain ⟨a, b, hab⟩ := List.append_of_mem hm
      subst hab
      have ha : ∀ n ∈ a ++ b, n.1 ≠ id := by
        intro n hn e
        rw [List.map_append, List.map_cons] at hids
        have hids' := (List.perm_middle.nodup_iff).mp hids
        rw [List.nodup_cons, ← List.map_append] at hids'
        exact hids'.1 (by rw [← e]; exact List.mem_map_of_mem (f := (·.1)) hn)
      have hf : (a ++ (id, k, v) :: b).filter (fun n => n.1 != id) = a ++ b := by
        rw [List.filter_append, List.filter_cons_of_neg (by simp), ← List.filter_append, List.filter_eq_self]
        intro n hn
        simpa using ha n hn
      rw [hf]
      exact List.perm_middle
    refine ⟨{ c with items := (id, k, v) :: c.items.filter (fun n => n.1 != id) }, by rw [Spec.lruValue, hl], ?_, ?_, rfl⟩
    · exact ⟨((hp.map (·.1)).nodup_iff).mp h.ids, fun n hn => h.fresh n (hp.mem_iff.mpr hn),
        ((hp.map (·.2.1)).nodup_iff).mp h.keys, h.map.trans (hp.map _), by
          have := hp.length_eq; have := h.size; simp only [List.length_cons] at *; omega⟩
    · rw [Spec.lruTouch, hl]
      simp only
      rw [h.filter_eq hm]
      unfold contents
      simp only [List.map_cons]
      rw [filter_contents]

/-- Every step behaves like the abstract cache. -/
theorem step_spec {c : LruCache K V} (h : Inv c) (op : Op K V) :
    ∃ c', c.step op = .ok c' ∧ Inv c' ∧ c'.contents = Spec.lruStep c.maxSize c.contents op ∧ c'.maxSize = c.maxSize := by
  cases op with
  | put k v => exact put_spec h k v
  | get k =>
    obtain ⟨c', h1, h2⟩ := get_spec h k
    exact ⟨c', by simp [step, h1], h2⟩
  | clear => exact ⟨c.clear, rfl, inv_clear h, rfl, rfl⟩

/-- Every history behaves like the abstract cache. -/
theorem run_spec (ops : List (Op K V)) {c : LruCache K V} (h : Inv c) :
    ∃ c', c.run ops = .ok c' ∧ Inv c' ∧ c'.contents = Spec.lruRun c.maxSize c.contents ops ∧ c'.maxSize = c.maxSize := by
  induction ops generalizing c with
  | nil => exact ⟨c, rfl, h, rfl, rfl⟩
  | cons op ops ih =>
    obtain ⟨c1, e1, i1, s1, m1⟩ := step_spec h op
    obtain ⟨c2, e2, i2, s2, m2⟩ := ih i1
    refine ⟨c2, by simp [run, e1, e2], i2, ?_, m2.trans m1⟩
    rw [s2, s1, m1]
    rfl

/-! ## Retention and eviction in the abstract cache -/

theorem filter_keys_nodup {l : List (K × V)} (h : (l.map (·.1)).Nodup) (k : K) (v : V) :
    (((k, v) :: l.filter (fun e => e.1 != k)).map (·.1)).Nodup := by
  simp only [List.map_cons, List.nodup_cons]
  refine ⟨?_, (List.filter_sublist.map _).nodup h⟩
  intro hx
  obtain ⟨e, he, he'⟩ := List.mem_map.mp hx
  have := (List.mem_filter.mp he).2
  simp [he'] at this

theorem step_nodup (n : Nat) {l : List (K × V)} (h : (l.map (·.1)).Nodup) (op : Op K V) :
    ((Spec.lruStep n l op).map (·.1)).Nodup := by
  cases op with
  | put k v => exact ((List.take_sublist _ _).map _).nodup (filter_keys_nodup h k v)
  | get k =>
    simp only [Spec.lruStep, Spec.lruTouch]
    split
    · exact h
    · exact filter_keys_nodup h k _
  | clear => simp [Spec.lruStep]

theorem step_length (n : Nat) {l : List (K × V)} (h : (l.map (·.1)).Nodup) (hl : l.length ≤ n) (op : Op K V) :
    (Spec.lruStep n l op).length ≤ n := by
  cases op with
  | put k v => simp only [Spec.lruStep, Spec.lruPut, List.length_take]; omega
  | get k =>
    simp only [Spec.lruStep, Spec.lruTouch]
    split
    · exact hl
    · rename_i v hv
      have hm := (lookup_iff h).mp hv
      have : (l.filter (fun e => e.1 != k)).length < l.length := by
        rcases Nat.lt_or_ge (l.filter (fun e => e.1 != k)).length l.length with h' | h'
        · exact h'
        · have := List.length_filter_eq_length_iff.mp (Nat.le_antisymm (List.length_filter_le _ l) h') _ hm
          simp at this
      simp only [List.length_cons]; omega
  | clear => simp [Spec.lruStep]

/-- The entry of `k` is present, and everything more recent is among `keys`. -/
def Recent (k : K) (v : V) (keys : List K) (l : List (K × V)) : Prop :=
  ∃ pre post, l = pre ++ (k, v) :: post ∧ ∀ e ∈ pre, e.1 ∈ keys

theorem recent_filter {k k' : K} {v : V} {v' : V} {keys : List K} {l : List (K × V)} (hr : Recent k v keys l) (hne : k' ≠ k)
    (hk : k' ∈ keys) : Recent k v keys ((k', v') :: l.filter (fun e => e.1 != k')) := by
  obtain ⟨pre, post, rfl, hp⟩ := hr
  refine ⟨(k', v') :: pre.filter (fun e => e.1 != k'), post.filter (fun e => e.1 != k'), ?_, ?_⟩
  · rw [List.filter_append, List.filter_cons_of_pos (by simpa using Ne.symm hne)]; rfl
  · intro e he
    rcases List.mem_cons.mp he with rfl | he
    · exact hk
    · exact hp e (List.mem_of_mem_filter he)

theorem recent_take {k : K} {v : V} {keys : List K} {l : List (K × V)} {n : Nat} (hr : Recent k v keys l)
    (hd : (l.map (·.1)).Nodup) (hn : keys.length < n) : Recent k v keys (l.take n) := by
  obtain ⟨pre, post, rfl, hp⟩ := hr
  have hlen : pre.length ≤ keys.length := by
    have h1 : (pre.map (·.1)).Nodup := by
      rw [List.map_append, List.nodup_append] at hd; exact hd.1
    have h2 : (pre.map (·.1)) ⊆ keys := by
      intro x hx
      obtain ⟨e, he, rfl⟩ := List.mem_map.mp hx
      exact hp e he
    have := (h1.subperm h2).length_le
    rwa [List.length_map] at this
  refine ⟨pre, post.take (n - pre.length - 1), ?_, hp⟩
  rw [List.take_append, List.take_of_length_le (by omega)]
  obtain ⟨m, hm⟩ : ∃ m, n - pre.length = m + 1 := ⟨n - pre.length - 1, by omega⟩
  rw [hm, List.take_succ_cons]
  rfl

theorem recent_step {k : K} {v : V} {keys : List K} {n : Nat} {l : List (K × V)} (hr : Recent k v keys l)
    (hd : (l.map (·.1)).Nodup) (hn : keys.length < n) {op : Op K V} (hop : ∀ k', Spec.lruUses k' op → k' ∈ k :: keys)
    (hput : ∀ v', op ≠ .put k v') (hclear : op ≠ .clear) : Recent k v keys (Spec.lruStep n l op) := by
  cases op with
  | clear => exact absurd rfl hclear
  | put k' v' =>
    have hne : k' ≠ k := by rintro rfl; exact hput v' rfl
    have hk : k' ∈ keys := by
      rcases List.mem_cons.mp (hop k' rfl) with h | h
      · exact absurd h hne
      · exact h
    exact recent_take (recent_filter hr hne hk) (filter_keys_nodup hd _ _) hn
  | get k' =>
    by_cases hne : k' = k
    · subst hne
      obtain ⟨pre, post, rfl, hp⟩ := hr
      have hl : (pre ++ (k', v) :: post).lookup k' = some v := (lookup_iff hd).mpr (by simp)
      simp only [Spec.lruStep, Spec.lruTouch, hl]
      exact ⟨[], _, rfl, by simp⟩
    · have hk : k' ∈ keys := by
        rcases List.mem_cons.mp (hop k' rfl) with h | h
        · exact absurd h hne
        · exact h
      simp only [Spec.lruStep, Spec.lruTouch]
      split
      · exact hr
      · exact recent_filter hr hne hk

theorem recent_run {k : K} {v : V} {keys : List K} {n : Nat} (hn : keys.length < n) (ops : List (Op K V))
    (hop : ∀ op ∈ ops, ∀ k', Spec.lruUses k' op → k' ∈ k :: keys) (hput : ∀ v', .put k v' ∉ ops) (hclear : .clear ∉ ops)
    {l : List (K × V)} (hr : Recent k v keys l) (hd : (l.map (·.1)).Nodup) :
    Recent k v keys (Spec.lruRun n l ops) ∧ ((Spec.lruRun n l ops).map (·.1)).Nodup := by
  induction ops generalizing l with
  | nil => exact ⟨hr, hd⟩
  | cons op ops ih =>
    refine ih (fun o ho => hop o (List.mem_cons_of_mem _ ho)) (fun v' h => hput v' (List.mem_cons_of_mem _ h))
      (fun h => hclear (List.mem_cons_of_mem _ h)) (recent_step hr hd hn (hop op List.mem_cons_self) ?_ ?_) (step_nodup n hd op)
    · rintro v' rfl; exact hput v' List.mem_cons_self
    · rintro rfl; exact hclear List.mem_cons_self

/-- If `k` is present then all of `used` is more recent. -/
def Older (k : K) (used : List K) (l : List (K × V)) : Prop :=
  k ∉ l.map (·.1) ∨ ∃ pre v post, l = pre ++ (k, v) :: post ∧ ∀ k' ∈ used, k' ∈ pre.map (·.1)

theorem older_filter {k k' : K} {v' : V} {used : List K} {l : List (K × V)} (hr : Older k used l) (hne : k' ≠ k) :
    Older k (k' :: used) ((k', v') :: l.filter (fun e => e.1 != k')) := by
  rcases hr with hr | ⟨pre, v, post, rfl, hp⟩
  · left
    simp only [List.map_cons, List.mem_cons, not_or]
    refine ⟨Ne.symm hne, fun hx => hr ?_⟩
    obtain ⟨e, he, rfl⟩ := List.mem_map.mp hx
    exact List.mem_map_of_mem (List.mem_of_mem_filter he)
  · right
    refine ⟨(k', v') :: pre.filter (fun e => e.1 != k'), v, post.filter (fun e => e.1 != k'), ?_, ?_⟩
    · rw [List.filter_append, List.filter_cons_of_pos (by simpa using Ne.symm hne)]; rfl
    · intro x hx
      simp only [List.map_cons, List.mem_cons]
      by_cases e : x = k'
      · exact Or.inl e
      · right
        rcases List.mem_cons.mp hx with h | h
        · exact absurd h e
        · obtain ⟨y, hy, rfl⟩ := List.mem_map.mp (hp x h)
          exact List.mem_map_of_mem (List.mem_filter.mpr ⟨hy, by simpa using e⟩)

theorem older_take {k : K} {used : List K} {l : List (K × V)} (hr : Older k used l) (hd : (l.map (·.1)).Nodup) (n : Nat) :
    Older k used (l.take n) := by
  rcases hr with hr | ⟨pre, v, post, rfl, hp⟩
  · exact Or.inl fun hx => hr ((List.Sublist.map (fun e : K × V => e.1) (List.take_sublist _ _)).subset hx)
  · rcases Nat.lt_or_ge pre.length n with h | h
    · right
      refine ⟨pre, v, post.take (n - pre.length - 1), ?_, hp⟩
      rw [List.take_append, List.take_of_length_le (by omega)]
      obtain ⟨m, hm⟩ : ∃ m, n - pre.length = m + 1 := ⟨n - pre.length - 1, by omega⟩
      rw [hm, List.take_succ_cons]
      rfl
    · rw [List.take_append_of_le_length h]
      left
      intro hk
      have hk' := (List.Sublist.map (·.1) (List.take_sublist n pre)).subset hk
      rw [List.map_append, List.nodup_append] at hd
      exact hd.2.2 _ hk' k (by simp) rfl

/-- The keys an operation stores. -/
def putKey : Op K V → List K
  | .put k _ => [k]
  | _ => []

theorem older_step {k : K} {used : List K} {n : Nat} {l : List (K × V)} (hr : Older k used l)
    (hd : (l.map (·.1)).Nodup) {op : Op K V} (hop : ¬ Spec.lruUses k op) :
    Older k (putKey op ++ used) (Spec.lruStep n l op) := by
  cases op with
  | clear => exact Or.inl (by simp [Spec.lruStep])
  | put k' v' => exact older_take (older_filter hr hop) (filter_keys_nodup hd _ _) n
  | get k' =>
    simp only [Spec.lruStep, Spec.lruTouch, putKey, List.nil_append]
    split
    · exact hr
    · rename_i v _
      rcases older_filter (v' := v) hr hop with h | ⟨pre, w, post, h1, h2⟩
      · exact Or.inl h
      · exact Or.inr ⟨pre, w, post, h1, fun x hx => h2 x (List.mem_cons_of_mem _ hx)⟩

theorem older_run {k : K} {n : Nat} (ops : List (Op K V)) (hop : ∀ op ∈ ops, ¬ Spec.lruUses k op) {used : List K}
    {l : List (K × V)} (hr : Older k used l) (hd : (l.map (·.1)).Nodup) (hl : l.length ≤ n) :
    ∃ used', Older k used' (Spec.lruRun n l ops) ∧ (Spec.lruRun n l ops).length ≤ n ∧
      (∀ x ∈ used, x ∈ used') ∧ ∀ x v, .put x v ∈ ops → x ∈ used' := by
  induction ops generalizing l used with
  | nil => exact ⟨used, hr, hl, fun _ h => h, by simp⟩
  | cons op ops ih =>
    obtain ⟨u, h1, h2, h3, h4⟩ := ih (fun o ho => hop o (List.mem_cons_of_mem _ ho))
      (older_step (n := n) hr hd (hop op List.mem_cons_self)) (step_nodup n hd op) (step_length n hd hl op)
    refine ⟨u, h1, h2, fun x hx => h3 x (List.mem_append_right _ hx), ?_⟩
    intro x v hx
    rcases List.mem_cons.mp hx with rfl | hx
    · exact h3 x (by simp [putKey])
    · exact h4 x v hx

theorem older_gone {k : K} {used ks : List K} {n : Nat} {l : List (K × V)} (hr : Older k used l) (hl : l.length ≤ n)
    (hks : ks.Nodup) (hn : n ≤ ks.length) (hu : ∀ x ∈ ks, x ∈ used) : l.lookup k = none := by
  rw [lookup_none_iff]
  rcases hr with hr | ⟨pre, v, post, rfl, hp⟩
  · exact hr
  · exfalso
    have := (hks.subperm (l₂ := pre.map (·.1)) (fun x hx => hp x (hu x hx))).length_le
    simp only [List.length_map, List.length_append, List.length_cons] at *
    omega

theorem Inv.contents_nodup {c : LruCache K V} (h : Inv c) : (c.contents.map (·.1)).Nodup := by
  simpa [contents, List.map_map, Function.comp_def] using h.keys

theorem older_nil {k : K} {l : List (K × V)} : Older k [] l := by
  by_cases h : k ∈ l.map (·.1)
  · obtain ⟨⟨k', v⟩, he, rfl⟩ := List.mem_map.mp h
    obtain ⟨a, b, rfl⟩ := List.append_of_mem he
    exact Or.inr ⟨a, v, b, rfl, by simp⟩
  · exact Or.inl h

end Silkworm.LruCache
