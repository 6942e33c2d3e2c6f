import Verif.Stages.Common
import Verif.Etl.Loading
import Verif.Db.BlockLemmas

/-!
# Lemmas about loading tables and setting cursors
-/

namespace Silkworm.Stages

open Silkworm.Db Silkworm.Etl Silkworm.Spec
open Silkworm.Etl.Collector (needed)

/-- With enough space loading calls the load function with the entries in order. -/
theorem etlLoad_sorted {σ : Type} (d : Disk) (flushSize : Nat) (es : List Entry) (f : σ → Entry → Outcome StageError σ) (s : σ)
    (hfit : ∀ e ∈ es, Etl.Fits e) (hne : ∀ e ∈ es, e.size ≠ 0) (hspace : ∀ n, needed es ≤ d.space n) :
    ∃ L : List Entry, L.Perm es ∧ Etl.Ordered L ∧ etlLoad d flushSize es f s = L.foldlM f s := by
  unfold etlLoad
  rcases Collector.collectAll_spec d.space es (Collector.holds_new flushSize) (by simpa using hfit) (by simpa using hne) with
    ⟨_, n, hn⟩ | ⟨c, Ls, hc, hh⟩
  · rw [List.nil_append] at hn
    exact absurd (hspace n) (Nat.not_le.mpr hn)
  · rw [List.nil_append] at hh
    rcases Collector.load_spec d.space d.heap f hh hfit hne with ⟨_, n, hn⟩ | ⟨L, c', hL, ho, hrun⟩
    · exact absurd (hspace n) (Nat.not_le.mpr hn)
    · refine ⟨L, hL, ho, ?_⟩
      simp only [hc, liftEtl, Outcome.ok_bind]
      rw [hrun s, Collector.loadEntries_foldlM]
      cases L.foldlM f s <;> rfl

/-- Loading never has undefined behaviour if the load function has none; without enough space it reports that. -/
theorem etlLoad_cases {σ : Type} (d : Disk) (flushSize : Nat) (es : List Entry) (f : σ → Entry → Outcome StageError σ) (s : σ)
    (hfit : ∀ e ∈ es, Etl.Fits e) (hne : ∀ e ∈ es, e.size ≠ 0) :
    etlLoad d flushSize es f s = .err (.etl .insufficientDiskSpace) ∨
    ∃ L : List Entry, L.Perm es ∧ Etl.Ordered L ∧ etlLoad d flushSize es f s = L.foldlM f s := by
  unfold etlLoad
  rcases Collector.collectAll_spec d.space es (Collector.holds_new flushSize) (by simpa using hfit) (by simpa using hne) with
    ⟨he, _⟩ | ⟨c, Ls, hc, hh⟩
  · exact Or.inl (by rw [he]; rfl)
  · rw [List.nil_append] at hh
    rcases Collector.load_spec d.space d.heap f hh hfit hne with ⟨hl, _⟩ | ⟨L, c', hL, ho, hrun⟩
    · exact Or.inl (by simp only [hc, liftEtl, Outcome.ok_bind, hl s]; rfl)
    · refine Or.inr ⟨L, hL, ho, ?_⟩
      simp only [hc, liftEtl, Outcome.ok_bind]
      rw [hrun s, Collector.loadEntries_foldlM]
      cases L.foldlM f s <;> rfl

/-- Putting entries without a load function. -/
theorem foldlM_putEntry (a : Bool) (L : List Entry) (t : Table) :
    L.foldlM (putEntry a) t = .ok (L.foldl (fun t e => put a t e.key e.value) t) := by
  induction L generalizing t with
  | nil => rfl
  | cons e L ih => rw [List.foldlM_cons, List.foldl_cons, ← ih]; rfl

/-! ## Appending -/

/-- No key of the table is greater than the last one. -/
def EndsLargest (t : Table) : Prop := ∀ l, t.getLast? = some l → ∀ e ∈ t, e.1 ≤ l.1

theorem endsLargest_nil : EndsLargest [] := by intro l h; simp at h

theorem putAppend_spec (t : Table) (ht : EndsLargest t) (k v : Bytes) :
    EndsLargest (putAppend t k v) ∧
      ((∀ e ∈ t, e.1 < k) → putAppend t k v = t ++ [(k, v)]) ∧
      ((∃ e ∈ t, k ≤ e.1) → putAppend t k v = t) := by
  unfold putAppend
  cases hl : t.getLast? with
  | none =>
    rw [List.getLast?_eq_none_iff] at hl
    subst hl
    refine ⟨?_, fun _ => rfl, fun ⟨e, he, _⟩ => by cases he⟩
    intro l h e he
    simp at h he
    rw [he, ← h]
    exact List.le_refl _
  | some l =>
    have hm : l ∈ t := List.mem_of_getLast? hl
    dsimp only
    by_cases hlt : lexLt l.1 k = true
    · rw [if_pos hlt]
      have hk := (lexLt_iff _ _).mp hlt
      refine ⟨?_, fun _ => rfl, fun ⟨e, he, hke⟩ => ?_⟩
      · intro m h e he
        rw [List.getLast?_append] at h
        simp at h
        rw [← h]
        rcases List.mem_append.mp he with he | he
        · exact List.le_trans (ht l hl e he) (List.le_of_lt hk)
        · rw [List.mem_singleton.mp he]; exact List.le_refl _
      · exact absurd hk (List.not_lt.mpr (List.le_trans hke (ht l hl e he)))
    · rw [if_neg hlt]
      refine ⟨ht, fun h => absurd ((lexLt_iff _ _).mpr (h l hm)) hlt, fun _ => rfl⟩

/-- Appending entries in order to an empty table keeps, of the entries with one key, the first. -/
theorem find_appendAll (L : List Entry) (ho : Etl.Ordered L) (t : Table) (ht : EndsLargest t)
    (hlt : ∀ e ∈ t, ∀ x ∈ L, e.1 ≤ x.key) (k : Bytes) :
    (L.foldl (fun t e => putAppend t e.key e.value) t).find k =
      (t.find k).or ((L.find? fun e => e.key == k).map fun e => (e.key, e.value)) := by
  induction L generalizing t with
  | nil => simp
  | cons e L ih =>
    rw [List.foldl_cons]
    obtain ⟨h1, h2, h3⟩ := putAppend_spec t ht e.key e.value
    have hoL : Etl.Ordered L := (List.pairwise_cons.mp ho).2
    have hhead : ∀ x ∈ L, e.key ≤ x.key := by
      intro x hx
      rcases (List.pairwise_cons.mp ho).1 x hx with h | ⟨h, _⟩
      · exact List.le_of_lt h
      · have : e.key = x.key := h
        rw [this]; exact List.le_refl _
    by_cases hd : ∃ f ∈ t, e.key ≤ f.1
    · rw [h3 hd, ih hoL t ht (fun f hf x hx => hlt f hf x (List.mem_cons_of_mem _ hx)), List.find?_cons]
      by_cases hk : e.key = k
      · obtain ⟨f, hf, hef⟩ := hd
        have : f.1 = e.key := List.le_antisymm (hlt f hf e (List.mem_cons_self ..)) hef
        have hs : ∃ x, t.find k = some x := by
          unfold Table.find
          rcases hx : List.find? (fun e => e.1 == k) t with _ | x
          · exact absurd (by simp [this, hk]) (List.find?_eq_none.mp hx f hf)
          · exact ⟨x, hx⟩
        obtain ⟨x, hx⟩ := hs
        simp [hx]
      · have : (e.key == k) = false := by simp [hk]
        rw [this]
    · have hall : ∀ f ∈ t, f.1 < e.key := fun f hf => List.not_le.mp fun h => hd ⟨f, hf, h⟩
      rw [h2 hall] at h1 ⊢
      rw [ih hoL _ h1 ?_, List.find?_cons]
      · unfold Table.find
        rw [List.find?_append, List.find?_cons]
        by_cases hk : e.key = k
        · have : (e.key == k) = true := by simp [hk]
          simp only [this, Option.map_some]
          cases List.find? (fun e => e.1 == k) t <;> rfl
        · have : (e.key == k) = false := by simp [hk]
          simp only [this, List.find?_nil, Option.or_none]
      · intro f hf x hx
        rcases List.mem_append.mp hf with hf | hf
        · exact hlt f hf x (List.mem_cons_of_mem _ hx)
        · rw [List.mem_singleton.mp hf]; exact hhead x hx

/-- Upserting entries in order keeps, of the entries with one key, the last; other keys stay as they are. -/
theorem find_upsertAll (L : List Entry) (t : Table) (k : Bytes) :
    (L.foldl (fun t e => t.upsert e.key e.value) t).find k =
      ((L.reverse.find? fun e => e.key == k).map fun e => (e.key, e.value)).or (t.find k) := by
  induction L generalizing t with
  | nil => simp
  | cons e L ih =>
    rw [List.foldl_cons, ih, List.reverse_cons, List.find?_append]
    cases List.find? (fun e => e.key == k) L.reverse with
    | some x => simp
    | none =>
      rw [List.find?_cons]
      by_cases hk : e.key = k
      · subst hk
        have : (e.key == e.key) = true := by simp
        simp only [Option.none_or, Option.map_none, Option.map_some]
        rw [Table.find_upsert_same]
        simp
      · have : (e.key == k) = false := by simp [hk]
        simp [this, Table.find_upsert_other _ _ (Ne.symm hk)]

/-- Loading entries whose keys differ into an empty table or one that is upserted to. -/
theorem find_load (a : Bool) (L : List Entry) (ho : Etl.Ordered L) (t : Table) (ha : a = t.isEmpty) (k v : Bytes)
    (hk : ⟨k, v⟩ ∈ L) (hu : ∀ e ∈ L, e.key = k → e.value = v) :
    (L.foldl (fun t e => put a t e.key e.value) t).find k = some (k, v) := by
  cases a with
  | true =>
    have : t = [] := List.isEmpty_iff.mp ha.symm
    subst this
    have h := find_appendAll L ho [] endsLargest_nil (fun e he => by cases he) k
    simp only [put, if_true]
    rw [h]
    rcases hx : List.find? (fun e => e.key == k) L with _ | x
    · exact absurd (by simp) (List.find?_eq_none.mp hx _ hk)
    · have h1 := List.mem_of_find?_eq_some hx
      have h2 : x.key = k := by simpa using List.find?_some hx
      rw [hx]
      simp [Table.find, h2, hu x h1 h2]
  | false =>
    simp only [put, Bool.false_eq_true, if_false]
    rw [find_upsertAll]
    rcases hx : List.find? (fun e => e.key == k) L.reverse with _ | x
    · exact absurd (by simp) (List.find?_eq_none.mp hx _ (List.mem_reverse.mpr hk))
    · have h1 := List.mem_reverse.mp (List.mem_of_find?_eq_some hx)
      have h2 : x.key = k := by simpa using List.find?_some hx
      rw [hx]
      simp [h2, hu x h1 h2]

/-- Keys that are not loaded stay as they are. -/
theorem find_load_other (a : Bool) (L : List Entry) (ho : Etl.Ordered L) (t : Table) (ha : a = t.isEmpty) (k : Bytes)
    (hk : ∀ e ∈ L, e.key ≠ k) :
    (L.foldl (fun t e => put a t e.key e.value) t).find k = t.find k := by
  cases a with
  | true =>
    have : t = [] := List.isEmpty_iff.mp ha.symm
    subst this
    have h := find_appendAll L ho [] endsLargest_nil (fun e he => by cases he) k
    simp only [put, if_true]
    rw [h, List.find?_eq_none.mpr (fun x hx => by simp [hk x hx])]
    rfl
  | false =>
    simp only [put, Bool.false_eq_true, if_false]
    rw [find_upsertAll, List.find?_eq_none.mpr (fun x hx => by simp [hk x (List.mem_reverse.mp hx)])]
    rfl

/-! ## Cursors -/

theorem fromKey_absent {t : Table} {k : Bytes} (h : ∀ e ∈ t, e.1 ≠ k) : fromKey t k = [] := by
  unfold fromKey
  induction t with
  | nil => rfl
  | cons e t ih =>
    rw [List.dropWhile_cons_of_pos (by simp [h e (List.mem_cons_self ..)])]
    exact ih fun f hf => h f (List.mem_cons_of_mem _ hf)

theorem find_none_of {t : Table} {k : Bytes} (h : ∀ e ∈ t, e.1 ≠ k) : t.find k = none :=
  List.find?_eq_none.mpr fun e he => by simp [h e he]

/-! ## Progress -/

theorem known_stage {name : Bytes} (h : name ∈ kAllStages) : isKnownStage name = true := by
  unfold isKnownStage
  rw [Bool.and_eq_true]
  refine ⟨?_, List.contains_iff_mem.mpr h⟩
  revert h
  generalize name = x
  have : ∀ x ∈ kAllStages, (!x.isEmpty) = true := by decide +kernel
  exact this x

theorem setStageProgress_known (db : Database) {name : Bytes} (h : name ∈ kAllStages) (n : Nat) :
    setStageProgress db name n = .ok { db with stageProgress := db.stageProgress.upsert name (beFixed 8 n) } := by
  unfold setStageProgress setStageData
  rw [known_stage h]
  rfl

theorem getStageProgress_upsert (db : Database) {name : Bytes} (h : name ∈ kAllStages) {n : Nat} (hn : n < 2 ^ 64) :
    getStageProgress { db with stageProgress := db.stageProgress.upsert name (beFixed 8 n) } name = .ok n := by
  unfold getStageProgress getStageData
  simp only [known_stage h, Bool.not_true, Bool.false_eq_true, if_false, Table.find_upsert_same, Silkworm.beFixed_length,
    ne_eq, not_true_eq_false]
  rw [Silkworm.beToNat_beFixed (by have : (256 : Nat) ^ 8 = 2 ^ 64 := by decide
                                   omega)]

end Silkworm.Stages
