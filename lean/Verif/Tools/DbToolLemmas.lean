import Verif.Spec.DbTool
import Verif.Db.TableLemmas
import Verif.Db.UtilLemmas
import Mathlib.Data.List.Forall2

/-!
# Lemmas on walks over a table and on the tool that looks after a database
-/

namespace Silkworm.Tools

open Silkworm.Spec Silkworm.Db

/-! ## Walking -/

theorem visit_cons {σ : Type} (func : WalkFunc σ) (e : Entry) (es : List Entry) (s : σ) :
    visit func (e :: es) s =
      if (func s e).1 then ((visit func es (func s e).2).1 + 1, (visit func es (func s e).2).2) else (0, (func s e).2) := rfl

theorem forEachLoop_eq {σ : Type} (func : WalkFunc σ) (data : Entry) (after : List Entry) (s : σ) :
    forEachLoop func data after s = visit func (List.replicate (after.length + 1) data) s := by
  induction after generalizing s with
  | nil =>
    rw [forEachLoop, List.length_nil, List.replicate_succ, List.replicate_zero, visit_cons]
    rcases h : func s data with ⟨b, t⟩
    cases b <;> rfl
  | cons e es ih =>
    rw [forEachLoop, List.length_cons, List.replicate_succ, visit_cons]
    rcases h : func s data with ⟨b, t⟩
    cases b
    · rfl
    · simp only [ih, if_true]

theorem forEach_eq {σ : Type} (func : WalkFunc σ) (c : WalkCursor) (s : σ) :
    forEach func c s = visit func ((recordsFrom c).map fun _ => c.here) s := by
  unfold forEach recordsFrom
  split
  · rfl
  · rw [forEachLoop_eq, List.map_cons, List.map_const', List.replicate_succ]

theorem visit_blind {σ : Type} {func : WalkFunc σ} (h : Blind func) (es : List Entry) (g : Entry → Entry) (s : σ) :
    visit func (es.map g) s = visit func es s := by
  induction es generalizing s with
  | nil => rfl
  | cons e es ih => rw [List.map_cons, visit_cons, visit_cons, h s (g e) e]; simp only [ih]

theorem visit_count {σ : Type} {func : WalkFunc σ} (h : NeverRefuses func) (es : List Entry) (s : σ) :
    (visit func es s).1 = es.length := by
  induction es generalizing s with
  | nil => rfl
  | cons e es ih => rw [visit_cons, if_pos (h s e), List.length_cons, ih]

/-- How many moves until the cursor has ended. -/
def movesLeft (c : WalkCursor) : Nat := (recordsFrom c).length

theorem movesLeft_zero {c : WalkCursor} : movesLeft c = 0 ↔ c.ended = true := by
  unfold movesLeft recordsFrom
  split <;> simp_all

theorem movesLeft_next {c : WalkCursor} (h : c.ended = true → c.after = []) : movesLeft c.toNext = movesLeft c - 1 ∧
    (c.toNext.ended = true → c.toNext.after = []) := by
  unfold movesLeft recordsFrom WalkCursor.toNext
  cases ha : c.after with
  | nil =>
    constructor
    · simp only [if_true, List.length_nil]; split <;> simp
    · intro _; rfl
  | cons e es =>
    have : c.ended = false := by
      cases he : c.ended
      · rfl
      · rw [h he] at ha; cases ha
    simp [this]

theorem forCount_first {σ : Type} {func : WalkFunc σ} (hf : NeverRefuses func) {data : Entry} {k : Nat} {c : WalkCursor} {s u : σ}
    {n : Nat} (h : ForCount func data k c s n u) (hk : k < 2 ^ 64) (hc : c.ended = true → c.after = []) :
    FirstFrom (movesLeft c) k n ∧ u = (visit func (List.replicate n data) s).2 := by
  induction h with
  | stop c s he =>
    refine ⟨⟨⟨by rw [movesLeft_zero.mpr he], rfl⟩, fun m _ _ => Nat.zero_le _⟩, rfl⟩
  | refused k c s t h0 h1 => have := hf s data; rw [h1] at this; cases this
  | step k c s t u n h0 h1 _ ih =>
    obtain ⟨⟨⟨i1, i2⟩, i3⟩, i4⟩ := ih (Nat.mod_lt _ (by decide)) (movesLeft_next hc).2
    rw [(movesLeft_next hc).1] at i1 i3
    refine ⟨⟨⟨by omega, by omega⟩, ?_⟩, ?_⟩
    · intro m m1 m2
      cases m with
      | zero =>
        have hz : movesLeft c = 0 := by omega
        rw [movesLeft_zero] at hz
        rcases h0 with h0 | h0
        · omega
        · rw [h0] at hz; cases hz
      | succ m =>
        have := i3 m (by omega) (by omega)
        omega
    · rw [List.replicate_succ, visit_cons, h1]
      exact i4

theorem forCount_ends {σ : Type} {func : WalkFunc σ} (hf : NeverRefuses func) {data : Entry} (n : Nat) :
    ∀ {k : Nat} {c : WalkCursor} {s : σ}, k < 2 ^ 64 → (c.ended = true → c.after = []) → FirstFrom (movesLeft c) k n →
      ForCount func data k c s n (visit func (List.replicate n data) s).2 := by
  induction n with
  | zero =>
    intro k c s hk hc h
    obtain ⟨⟨h1, h2⟩, _⟩ := h
    have : k = 0 := by omega
    subst this
    exact .stop c s (movesLeft_zero.mp (by omega))
  | succ n ih =>
    intro k c s hk hc h
    obtain ⟨⟨h1, h2⟩, h3⟩ := h
    have h0 : k ≠ 0 ∨ c.ended = false := by
      rcases Nat.eq_zero_or_pos k with hk0 | hk0
      · right
        cases he : c.ended
        · rfl
        · exfalso
          have hz := movesLeft_zero.mpr he
          have := h3 0 (by omega) (by omega)
          omega
      · left; omega
    have h4 : (visit func (List.replicate (n + 1) data) s).2 = (visit func (List.replicate n data) (func s data).2).2 := by
      rw [List.replicate_succ, visit_cons, if_pos (hf s data)]
    rw [h4]
    refine .step k c s (func s data).2 _ n h0 (by rw [← hf s data]) (ih (Nat.mod_lt _ (by decide)) (movesLeft_next hc).2 ?_)
    rw [(movesLeft_next hc).1]
    refine ⟨⟨by omega, by omega⟩, ?_⟩
    intro m m1 m2
    have := h3 (m + 1) (by omega) (by omega)
    omega

/-! ## Free pages -/

theorem loadLe_le (n x : Nat) : loadLe (le n x) = x % 256 ^ n := by
  induction n generalizing x with
  | zero => simp [le, loadLe, Nat.mod_one]
  | succ n ih =>
    rw [le, loadLe, ih, Nat.pow_succ', Nat.mod_mul]
    congr 1
    simp

theorem length_le (n x : Nat) : (le n x).length = n := by
  induction n generalizing x with
  | zero => rfl
  | succ n ih => rw [le, List.length_cons, ih]

theorem collectFree_stored (ps : Nat) {r : FreeRecord} {e : Entry} (h : r.Stored e) (i : FreeInfo) :
    collectFree ps i e = (true, { pages := i.pages + r.pages, size := i.size + r.pages * ps,
                                  entries := i.entries ++ [⟨r.txn, r.pages, r.pages * ps⟩] }) := by
  obtain ⟨h1, h2, h3, rest, h4⟩ := h
  have k1 : loadLe (e.1.take 8) = r.txn := by
    rw [h3, List.take_of_length_le (by rw [length_le]), loadLe_le]
    exact Nat.mod_eq_of_lt (by omega)
  have k2 : loadLe (e.2.take 4) = r.pages := by
    rw [h4, List.take_append_of_le_length (by rw [length_le]), List.take_of_length_le (by rw [length_le]), loadLe_le]
    exact Nat.mod_eq_of_lt (by omega)
  unfold collectFree
  simp only [k1, k2]

theorem visit_collect (ps : Nat) {rs : List FreeRecord} {es : List Entry} (h : List.Forall₂ FreeRecord.Stored rs es) (i : FreeInfo) :
    (visit (collectFree ps) es i).2 =
      { pages := i.pages + (rs.map (·.pages)).sum, size := i.size + (rs.map (·.pages)).sum * ps,
        entries := i.entries ++ rs.map fun r => ⟨r.txn, r.pages, r.pages * ps⟩ } := by
  induction h generalizing i with
  | nil => simp [visit]
  | cons h1 _ ih =>
    rw [visit_cons, collectFree_stored ps h1]
    simp only [if_true, ih, List.map_cons, List.sum_cons, List.append_assoc, List.singleton_append, Nat.add_assoc, Nat.add_mul]

theorem getFreeInfo_eq (ps : Nat) {r : FreeRecord} {rs : List FreeRecord} {free : Table}
    (h : List.Forall₂ FreeRecord.Stored (r :: rs) free) :
    FreeReported ps (List.replicate (rs.length + 1) r) (getFreeInfo ps free) := by
  cases h with
  | @cons _ e _ es h1 h2 =>
    have h3 : List.Forall₂ FreeRecord.Stored (List.replicate (rs.length + 1) r) (List.replicate (es.length + 1) e) := by
      rw [h2.length_eq]
      generalize es.length + 1 = n
      induction n with
      | zero => exact .nil
      | succ n ih => exact .cons h1 ih
    have h4 : getFreeInfo ps (e :: es) = (visit (collectFree ps) (List.replicate (es.length + 1) e) {}).2 := by
      unfold getFreeInfo forEach
      simp only [Bool.false_eq_true, if_false]
      rw [forEachLoop_eq]
    rw [h4, visit_collect ps h3]
    exact ⟨by simp, by simp, by simp⟩

/-! ## Progress -/

/-- As many ticks as are due have been printed. -/
def Progress.Kept (p : Progress) : Prop := p.width = 50 ∧ p.total ≠ 0 ∧ p.printed = min p.percent 100 / 2

theorem percent_mono (p : Progress) (n : Nat) (ht : p.total ≠ 0) : p.percent ≤ (p.setCurrent n).percent := by
  unfold Progress.percent Progress.setCurrent
  simp only [if_neg ht]
  split
  · exact Nat.zero_le _
  · rw [if_neg (by omega)]
    exact Nat.div_le_div_right (Nat.mul_le_mul_right _ (Nat.le_max_right _ _))

theorem printInterval_kept {p : Progress} (h : p.Kept) (n : Nat) :
    ∃ q, (p.setCurrent n).printInterval = some (q.printed - p.printed, q) ∧ q.Kept ∧ p.printed ≤ q.printed ∧ q.total = p.total ∧
      q.current = max n p.current := by
  obtain ⟨h1, h2, h3⟩ := h
  have hm := percent_mono p n h2
  have hw : (p.setCurrent n).width = 50 := h1
  have hp : (p.setCurrent n).printed = p.printed := rfl
  unfold Progress.printInterval
  rw [hw, hp]
  have hd : 100 / 50 = 2 := rfl
  rw [hd]
  simp only
  split
  · rename_i hz
    refine ⟨p.setCurrent n, ?_, ⟨hw, h2, ?_⟩, Nat.le_refl _, rfl, rfl⟩
    · rw [hp, Nat.sub_self]
    · rw [hp, hz, h3]; omega
  · rw [if_neg (by omega)]
    refine ⟨⟨50, p.total, max n p.current, min (p.setCurrent n).percent 100 / 2⟩, rfl, ⟨rfl, h2, ?_⟩, ?_, rfl, rfl⟩
    · rfl
    · show p.printed ≤ min (p.setCurrent n).percent 100 / 2
      omega

theorem scanLoop_eq (es : List Entry) : ∀ (batch : Nat) (p : Progress) (ks ds : Nat), p.Kept →
    ∃ q, scanLoop es batch p ks ds p.printed =
        some (ks + (es.map (·.1.length)).sum, ds + (es.map (·.2.length)).sum, q.printed, q) ∧ q.Kept ∧ q.total = p.total := by
  induction es with
  | nil => intro batch p ks ds h; exact ⟨p, by simp [scanLoop], h, rfl⟩
  | cons e es ih =>
    intro batch p ks ds h
    rw [scanLoop]
    split
    · obtain ⟨q, h1, h2, h3, h4, _⟩ := printInterval_kept h (p.current + p.total / p.width)
      rw [h1]
      simp only
      rw [Nat.add_sub_cancel' h3]
      obtain ⟨q', h5, h6, h7⟩ := ih (q.total / q.width) q (ks + e.1.length) (ds + e.2.length) h2
      refine ⟨q', ?_, h6, h7.trans h4⟩
      rw [h5]
      simp only [List.map_cons, List.sum_cons, Nat.add_assoc]
    · obtain ⟨q', h5, h6, h7⟩ := ih ((batch + (2 ^ 64 - 1)) % 2 ^ 64) p (ks + e.1.length) (ds + e.2.length) h
      refine ⟨q', ?_, h6, h7⟩
      rw [h5]
      simp only [List.map_cons, List.sum_cons, Nat.add_assoc]

theorem scanTable_eq (t : Table) :
    scanTable t = some ((t.map (·.1.length)).sum, (t.map (·.2.length)).sum, 50) := by
  cases t with
  | nil => simp [scanTable, scanLoop, Progress.printInterval, Progress.setCurrent, Progress.percent]
  | cons e es =>
    have hk : Progress.Kept { width := 50, total := (e :: es).length } :=
      ⟨rfl, by simp, by simp [Progress.percent]⟩
    generalize hb : (e :: es).length / 50 = b
    obtain ⟨q, h1, h2, h3⟩ := scanLoop_eq (e :: es) b _ 0 0 hk
    rw [scanTable, hb]
    have h1' : scanLoop (e :: es) b { width := 50, total := (e :: es).length } 0 0 0 = _ := h1
    rw [h1']
    simp only
    obtain ⟨q', k1, ⟨k2, k3, k4⟩, k5, k6, k7⟩ := printInterval_kept h2 (e :: es).length
    rw [k1]
    simp only [Nat.zero_add]
    rw [Nat.add_sub_cancel' k5, k4]
    have : 100 ≤ q'.percent := by
      have h3 : q.total = (e :: es).length := h3
      have hl : 0 < (e :: es).length := Nat.succ_pos _
      have hc : (e :: es).length ≤ max (e :: es).length q.current := Nat.le_max_left _ _
      unfold Progress.percent
      rw [if_neg k3, k6, k7, h3, if_neg (by omega), Nat.le_div_iff_mul_le hl, Nat.mul_comm]
      exact Nat.mul_le_mul_right _ hc
    rw [Nat.min_eq_right this]

/-! ## Copying -/

theorem lexLt_of {a b : Bytes} (h : a < b) : lexLt a b = true := (Etl.lexLt_iff a b).mpr h

theorem lexLt_not {a b : Bytes} (h : b < a) : lexLt a b = false := by
  rw [Etl.lexLt_false_iff]; exact List.le_of_lt h

theorem ne_of_ltB {a b : Bytes} (h : a < b) : a ≠ b := fun e => List.lt_irrefl _ (e ▸ h)

theorem upsert_end {t : Table} {k v : Bytes} (h : ∀ e ∈ t, e.1 < k) : t.upsert k v = t ++ [(k, v)] := by
  induction t with
  | nil => rfl
  | cons e t ih =>
    have h1 := h e (List.mem_cons_self ..)
    have h2 := ih fun f hf => h f (List.mem_cons_of_mem _ hf)
    rw [Table.upsert, if_neg (by simpa using ne_of_ltB h1), if_neg (by rw [lexLt_not h1]; decide), h2]
    rfl

theorem upsertMultivalue_end {t : Table} {k v : Bytes} (h : ∀ e ∈ t, e.1 < k ∨ (e.1 = k ∧ e.2 < v)) :
    t.upsertMultivalue k v = t ++ [(k, v)] := by
  induction t with
  | nil => rfl
  | cons e t ih =>
    have h1 := h e (List.mem_cons_self ..)
    have h2 := ih fun f hf => h f (List.mem_cons_of_mem _ hf)
    rw [upsertMultivalue_cons, h2]
    rcases h1 with h1 | ⟨h1, h3⟩
    · have a1 := ne_of_ltB h1
      have a4 := a1.symm
      have a2 := lexLt_not h1
      simp [a1, a2, a4]
    · have a1 := ne_of_ltB h3
      have a2 := lexLt_not h3
      have a3 : lexLt k k = false := by rw [Etl.lexLt_false_iff]; exact List.le_refl _
      simp [h1, a1, a2, a3]

theorem putEntry_end (up : Bool) (flags : Nat) {t : Table} {k v : Bytes}
    (h : if isMulti flags then ∀ e ∈ t, e.1 < k ∨ (e.1 = k ∧ e.2 < v) else ∀ e ∈ t, e.1 < k) :
    putEntry up flags t k v = t ++ [(k, v)] := by
  unfold putEntry
  cases hm : isMulti flags
  · rw [hm] at h
    simp only [Bool.false_eq_true, if_false] at h ⊢
    split
    · exact upsert_end h
    · unfold appendEntry
      cases hl : t.getLast? with
      | none => rw [List.getLast?_eq_none_iff.mp hl]; rfl
      | some e => simp only [lexLt_of (h e (List.mem_of_getLast? hl)), if_true]
  · rw [hm] at h
    simp only [if_true] at h ⊢
    split
    · exact upsertMultivalue_end h
    · unfold appendDup
      rw [if_neg, upsertMultivalue_end h]
      simp only [List.any_eq_true, not_exists, not_and, Bool.and_eq_true, beq_iff_eq, Bool.not_eq_true']
      intro e he h1 h2
      rcases h e he with h3 | ⟨_, h3⟩
      · exact ne_of_ltB h3 h1
      · rw [lexLt_of h3] at h2; cases h2

/-- What is left of a table, after it has been put entry by entry. -/
def putAll (up : Bool) (flags : Nat) (es : List Entry) (t : Table) : Table :=
  es.foldl (fun t e => putEntry up flags t e.1 e.2) t

theorem putAll_end (up : Bool) (flags : Nat) (es : List Entry) : ∀ (acc : Table),
    (if isMulti flags then MultiOrdered (acc ++ es) else Spec.Ordered (acc ++ es)) → putAll up flags es acc = acc ++ es := by
  induction es with
  | nil => intro acc _; simp [putAll]
  | cons e es ih =>
    intro acc h
    have h1 : putEntry up flags acc e.1 e.2 = acc ++ [e] := by
      apply putEntry_end
      cases hm : isMulti flags
      · rw [hm] at h
        simp only [Bool.false_eq_true, if_false] at h ⊢
        intro f hf
        exact (List.pairwise_append.mp h).2.2 f hf e (List.mem_cons_self ..)
      · rw [hm] at h
        simp only [if_true] at h ⊢
        intro f hf
        exact (List.pairwise_append.mp h).2.2 f hf e (List.mem_cons_self ..)
    have h2 := ih (acc ++ [e]) (by rw [List.append_assoc]; exact h)
    rw [List.append_assoc] at h2
    rw [← List.singleton_append, ← h2]
    unfold putAll
    rw [List.singleton_append, List.foldl_cons, h1]

theorem modifyTable_modify (ts : List NamedTable) (n : Bytes) (f g : Table → Table) :
    modifyTable (modifyTable ts n f) n g = modifyTable ts n fun t => g (f t) := by
  unfold modifyTable
  rw [List.map_map]
  apply List.map_congr_left
  intro t _
  simp only [Function.comp]
  by_cases h : t.name = n
  · simp [h]
  · simp [h]

theorem modifyTable_id (ts : List NamedTable) (n : Bytes) : modifyTable ts n (fun t => t) = ts := by
  unfold modifyTable
  conv => rhs; rw [← List.map_id ts]
  apply List.map_congr_left
  intro t _
  split <;> rfl

theorem modifyTable_absent {ts : List NamedTable} {n : Bytes} (h : ∀ t ∈ ts, t.name ≠ n) (f : Table → Table) :
    modifyTable ts n f = ts := by
  unfold modifyTable
  conv => rhs; rw [← List.map_id ts]
  apply List.map_congr_left
  intro t ht
  rw [if_neg (h t ht)]
  rfl

theorem copyEntries_eq (o : CopyOptions) (n : Bytes) (fl : Nat) (es : List Entry) : ∀ (c p : List NamedTable) (w : Nat),
    (copyEntries o n fl es c p w).2 = (modifyTable p n (putAll o.upsert fl es), uncommitted o.commitSize es w) ∧
      ((∀ e ∈ es, e.1 ≠ []) → (es ≠ [] ∨ c = p) → uncommitted o.commitSize es w = 0 →
        (copyEntries o n fl es c p w).1 = modifyTable p n (putAll o.upsert fl es)) := by
  induction es with
  | nil =>
    intro c p w
    have : modifyTable p n (putAll o.upsert fl []) = p := modifyTable_id p n
    refine ⟨by rw [this]; rfl, fun _ h _ => ?_⟩
    rw [this]
    rcases h with h | h
    · exact absurd rfl h
    · exact h
  | cons e es ih =>
    intro c p w
    have hc : ∀ p, modifyTable (modifyTable p n fun t => putEntry o.upsert fl t e.1 e.2) n (putAll o.upsert fl es) =
        modifyTable p n (putAll o.upsert fl (e :: es)) := by
      intro p
      rw [modifyTable_modify]
      rfl
    rw [copyEntries, uncommitted]
    split
    · have := ih (modifyTable p n fun t => putEntry o.upsert fl t e.1 e.2) (modifyTable p n fun t => putEntry o.upsert fl t e.1 e.2) 0
      rw [hc] at this
      exact ⟨this.1, fun h1 _ h3 => this.2 (fun f hf => h1 f (List.mem_cons_of_mem _ hf)) (Or.inr rfl) h3⟩
    · have := ih c (modifyTable p n fun t => putEntry o.upsert fl t e.1 e.2) (w + (e.1.length + e.2.length))
      rw [hc] at this
      refine ⟨this.1, fun h1 _ h3 => this.2 (fun f hf => h1 f (List.mem_cons_of_mem _ hf)) (Or.inl ?_) h3⟩
      rintro rfl
      rw [uncommitted] at h3
      have := List.length_pos_iff.mpr (h1 e (List.mem_cons_self ..))
      omega

theorem skipped_iff (o : CopyOptions) (t : NamedTable) : skipped o t = false ↔ Wanted o t := by
  unfold skipped Wanted
  have h1 : ((o.tables.length != 0 && !o.tables.contains t.name) = false) ↔ (o.tables = [] ∨ t.name ∈ o.tables) := by
    cases h : o.tables <;> simp [imp_iff_not_or]
  have h2 : ((o.xtables.length != 0 && o.xtables.contains t.name) = false) ↔ t.name ∉ o.xtables := by
    cases h : o.xtables <;> simp
  have h3 : ((t.entries.length == 0 && o.noempty) = false) ↔ (o.noempty = true → t.entries ≠ []) := by
    cases h : t.entries <;> cases o.noempty <;> simp
  rw [Bool.or_eq_false_iff, Bool.or_eq_false_iff, h1, h2, h3, and_assoc]

theorem copyTable_unwanted {o : CopyOptions} {t : NamedTable} (h : ¬ Wanted o t) (info : List NamedTable) (tg : CopyTarget) :
    copyTable o info t tg = some tg := by
  have : skipped o t = true := by
    cases hs : skipped o t
    · exact absurd ((skipped_iff o t).mp hs) h
    · rfl
  unfold copyTable
  rw [if_pos this]

theorem copyLoop_unwanted {o : CopyOptions} {ts : List NamedTable} (h : ∀ t ∈ ts, ¬ Wanted o t) (info rest : List NamedTable)
    (tg : CopyTarget) : copyLoop o info (ts ++ rest) tg = copyLoop o info rest tg := by
  induction ts with
  | nil => rfl
  | cons t ts ih =>
    rw [List.cons_append, copyLoop, copyTable_unwanted (h t (List.mem_cons_self ..))]
    exact ih fun x hx => h x (List.mem_cons_of_mem _ hx)

theorem copyLoop_rest {o : CopyOptions} {ts : List NamedTable} (h : ∀ t ∈ ts, ¬ Wanted o t) (info : List NamedTable)
    (tg : CopyTarget) : copyLoop o info ts tg = (false, tg) := by
  have := copyLoop_unwanted h info [] tg
  rw [List.append_nil] at this
  exact this

theorem doCopy_of {o : CopyOptions} {source target : List NamedTable} (hne : source ≠ []) {b : Bool} {tg : CopyTarget}
    (h : copyLoop o target source { committed := target, pending := some target } = (b, tg)) :
    doCopy o source target = (if b then -1 else 0, tg.committed) := by
  have hl := List.length_pos_iff.mpr hne
  unfold doCopy
  rw [if_neg (by omega)]
  simp only [h]

theorem doCopy_one {o : CopyOptions} {pre post target : List NamedTable} {t : NamedTable} (hpre : ∀ x ∈ pre, ¬ Wanted o x)
    (hpost : ∀ x ∈ post, ¬ Wanted o x) {tg : CopyTarget}
    (h : copyTable o target t { committed := target, pending := some target } = some tg) :
    doCopy o (pre ++ t :: post) target = (0, tg.committed) := by
  have h1 : copyLoop o target (pre ++ t :: post) { committed := target, pending := some target } = (false, tg) := by
    rw [copyLoop_unwanted hpre, copyLoop, h]
    exact copyLoop_rest hpost _ _
  rw [doCopy_of (by simp) h1]
  rfl

theorem find_absent {ts : List NamedTable} {n : Bytes} (h : ∀ t ∈ ts, t.name ≠ n) : ts.find? (fun i => i.name == n) = none := by
  rw [List.find?_eq_none]
  intro t ht
  simpa using h t ht

/-- A table that is not in the target is copied as it is. -/
theorem copyTable_absent {o : CopyOptions} {t : NamedTable} (hw : Wanted o t) (hne : t.entries ≠ [])
    (hk : ∀ e ∈ t.entries, e.1 ≠ []) (ho : TableOrdered t) {info : List NamedTable} {c p : List NamedTable}
    (hi : ∀ i ∈ info, i.name ≠ t.name) (hp : ∀ i ∈ p, i.name ≠ t.name) (w : Nat) :
    copyTable o info t { committed := c, pending := some p, written := w } =
      some { committed := p ++ [t]
             pending := if uncommitted o.commitSize t.entries w = 0 then some (p ++ [t]) else none
             written := uncommitted o.commitSize t.entries w } := by
  have hs := (skipped_iff o t).mpr hw
  unfold copyTable
  rw [if_neg (by rw [hs]; decide), find_absent hi]
  have ha : (p.any fun q => q.name == t.name) = false := by
    rw [List.any_eq_false]
    intro q hq
    simpa using hp q hq
  simp only [ha, Bool.false_eq_true, if_false]
  have hmod : modifyTable (p ++ [{ t with entries := [] }]) t.name (putAll o.upsert t.flags t.entries) = p ++ [t] := by
    have h1 : modifyTable (p ++ [{ t with entries := [] }]) t.name (putAll o.upsert t.flags t.entries) =
        modifyTable p t.name (putAll o.upsert t.flags t.entries) ++
          modifyTable [{ t with entries := [] }] t.name (putAll o.upsert t.flags t.entries) := List.map_append ..
    have h2 : putAll o.upsert t.flags t.entries [] = t.entries := by
      have := putAll_end o.upsert t.flags t.entries [] (by rw [List.nil_append]; exact ho)
      rw [List.nil_append] at this
      exact this
    rw [h1, modifyTable_absent hp]
    unfold modifyTable
    simp only [List.map_cons, List.map_nil, if_true, h2]
  obtain ⟨e1, e2⟩ := copyEntries_eq o t.name t.flags t.entries c (p ++ [{ t with entries := [] }]) w
  rw [hmod] at e1 e2
  unfold copyInto
  simp only [e1]
  by_cases hz : uncommitted o.commitSize t.entries w = 0
  · simp only [hz, ne_eq, not_true_eq_false, if_false, if_true]
    rw [e2 hk (Or.inl hne) hz]
  · simp only [hz, ne_eq, not_false_eq_true, if_true, if_false]

theorem copyTable_unneeded {o : CopyOptions} {info : List NamedTable} (hn : (info.map (·.name)).Nodup) {t : NamedTable}
    (h : ¬ Needed o info t) (tg : CopyTarget) : copyTable o info t tg = some tg := by
  by_cases hw : Wanted o t
  · have h2 : ¬ (o.upsert = true ∨ ∀ i ∈ info, i.name = t.name → i.entries = []) := fun x => h ⟨hw, x⟩
    rw [not_or] at h2
    obtain ⟨h3, h4⟩ := h2
    simp only [not_forall] at h4
    obtain ⟨i, hi, he, hne⟩ := h4
    have hf : info.find? (fun i => i.name == t.name) = some i := by
      clear h h3
      induction info with
      | nil => cases hi
      | cons j info ih =>
        rw [List.map_cons, List.nodup_cons] at hn
        rw [List.find?_cons]
        rcases List.mem_cons.mp hi with rfl | hi
        · rw [he]; simp
        · have : j.name ≠ t.name := by
            intro hj
            apply hn.1
            rw [hj, ← he]
            exact List.mem_map_of_mem hi
          rw [beq_eq_false_iff_ne.mpr this]
          exact ih hn.2 hi
    unfold copyTable
    split
    · rfl
    · rw [hf]
      simp only
      rw [if_pos]
      simp [hne, h3]
  · exact copyTable_unwanted hw _ _

theorem copyTable_stopped {o : CopyOptions} {info : List NamedTable} {t : NamedTable} (h : Needed o info t) {tg : CopyTarget}
    (hp : tg.pending = none) : copyTable o info t tg = none := by
  obtain ⟨hw, h2⟩ := h
  unfold copyTable
  rw [if_neg (by rw [(skipped_iff o t).mpr hw]; decide), hp]
  cases hf : info.find? (fun i => i.name == t.name) with
  | none => rfl
  | some i =>
    simp only
    rw [if_neg]
    have hm := List.mem_of_find?_eq_some hf
    have hn := List.find?_some hf
    rcases h2 with h2 | h2
    · simp [h2]
    · have := h2 i hm (by simpa using hn)
      simp [this]

theorem copyLoop_stopped {o : CopyOptions} {info : List NamedTable} (hn : (info.map (·.name)).Nodup) {tg : CopyTarget}
    (hp : tg.pending = none) {ts : List NamedTable} (h : ∃ t ∈ ts, Needed o info t) : copyLoop o info ts tg = (true, tg) := by
  induction ts with
  | nil => obtain ⟨t, ht, _⟩ := h; cases ht
  | cons t ts ih =>
    rw [copyLoop]
    by_cases hx : Needed o info t
    · rw [copyTable_stopped hx hp]
    · rw [copyTable_unneeded hn hx]
      obtain ⟨x, hx1, hx2⟩ := h
      rcases List.mem_cons.mp hx1 with rfl | hx1
      · exact absurd hx2 hx
      · exact ih ⟨x, hx1, hx2⟩

theorem copyTable_empty {o : CopyOptions} {info : List NamedTable} {t : NamedTable} (h : Wanted o t → t.entries = []) (c p : List NamedTable) :
    ∃ q, copyTable o info t { committed := c, pending := some p, written := 0 } =
      some { committed := c, pending := some q, written := 0 } := by
  by_cases hw : Wanted o t
  · have he := h hw
    have hi : ∀ p, copyInto o t { committed := c, pending := some p, written := 0 } p = { committed := c, pending := some p, written := 0 } := by
      intro p
      unfold copyInto
      rw [he]
      rfl
    have hi2 : ∀ p q, copyInto o t { committed := c, pending := some p, written := 0 } q =
        { committed := c, pending := some q, written := 0 } := by
      intro p q
      unfold copyInto
      rw [he]
      rfl
    unfold copyTable
    rw [if_neg (by rw [(skipped_iff o t).mpr hw]; decide)]
    split
    · simp only [hi2]
      exact ⟨_, rfl⟩
    · split
      · exact ⟨p, rfl⟩
      · simp only
        split
        · exact ⟨p, rfl⟩
        · rw [hi]; exact ⟨p, rfl⟩
  · exact ⟨p, copyTable_unwanted hw _ _⟩

theorem copyLoop_empty {o : CopyOptions} {info : List NamedTable} (c : List NamedTable) :
    ∀ (ts : List NamedTable) (p : List NamedTable), (∀ t ∈ ts, Wanted o t → t.entries = []) →
      ∃ q, copyLoop o info ts { committed := c, pending := some p, written := 0 } =
        (false, { committed := c, pending := some q, written := 0 }) := by
  intro ts
  induction ts with
  | nil => intro p _; exact ⟨p, rfl⟩
  | cons t ts ih =>
    intro p h
    obtain ⟨q, hq⟩ := copyTable_empty (info := info) (h t (List.mem_cons_self ..)) c p
    rw [copyLoop, hq]
    exact ih q fun x hx => h x (List.mem_cons_of_mem _ hx)

theorem putAll_find {flags : Nat} (hm : isMulti flags = false) {es : List Entry} {n : Bytes}
    (ho : TableOrdered ⟨n, flags, es⟩) : ∀ (t : Table) (k : Bytes), Table.find (putAll true flags es t) k = (Table.find es k).or (Table.find t k) := by
  replace ho : Spec.Ordered es := by unfold TableOrdered at ho; rw [hm] at ho; exact ho
  induction es with
  | nil => intro t k; rfl
  | cons e es ih =>
    intro t k
    have h1 : putAll true flags (e :: es) t = putAll true flags es (t.upsert e.1 e.2) := by
      unfold putAll
      rw [List.foldl_cons]
      unfold putEntry
      simp only [hm, if_true, Bool.false_eq_true, if_false]
    obtain ⟨ho1, ho2⟩ := List.pairwise_cons.mp ho
    rw [h1, ih ho2]
    by_cases hk : e.1 = k
    · subst hk
      have h2 : Table.find es e.1 = none := by
        unfold Table.find
        rw [List.find?_eq_none]
        intro f hf
        have := ne_of_ltB (ho1 f hf)
        simpa using this.symm
      have h3 : Table.find (e :: es) e.1 = some e := by unfold Table.find; simp
      rw [h2, h3, Table.find_upsert_same]
      rfl
    · have h3 : Table.find (e :: es) k = Table.find es k := by
        unfold Table.find
        rw [List.find?_cons, beq_eq_false_iff_ne.mpr hk]
      rw [h3, Table.find_upsert_other _ _ (Ne.symm hk)]

theorem putAll_mem {flags : Nat} (hm : isMulti flags = true) (es : List Entry) : ∀ (t : Table) (e : Entry),
    e ∈ putAll true flags es t ↔ e ∈ es ∨ e ∈ t := by
  induction es with
  | nil => intro t e; simp [putAll]
  | cons f es ih =>
    intro t e
    have h1 : putAll true flags (f :: es) t = putAll true flags es (t.upsertMultivalue f.1 f.2) := by
      unfold putAll
      rw [List.foldl_cons]
      unfold putEntry
      simp only [hm, if_true]
    rw [h1, ih, mem_upsertMultivalue, List.mem_cons]
    constructor
    · rintro (h | h | h)
      · exact .inl (.inr h)
      · exact .inl (.inl h)
      · exact .inr h
    · rintro ((h | h) | h)
      · exact .inr (.inl h)
      · exact .inl h
      · exact .inr (.inr h)

/-- A table of the target into which another is merged. -/
theorem copyTable_merge {o : CopyOptions} {t i : NamedTable} (hw : Wanted o t) (hup : o.upsert = true) (hne : t.entries ≠ [])
    (hk : ∀ e ∈ t.entries, e.1 ≠ []) {before after : List NamedTable} (hi : i.name = t.name) (hfl : t.flags = i.flags)
    (hn : ((before ++ i :: after).map (·.name)).Nodup) :
    copyTable o (before ++ i :: after) t { committed := before ++ i :: after, pending := some (before ++ i :: after), written := 0 } =
      some { committed := before ++ { i with entries := putAll true t.flags t.entries i.entries } :: after
             pending := if uncommitted o.commitSize t.entries 0 = 0 then
               some (before ++ { i with entries := putAll true t.flags t.entries i.entries } :: after) else none
             written := uncommitted o.commitSize t.entries 0 } := by
  rw [List.map_append, List.map_cons, List.nodup_append, List.nodup_cons] at hn
  obtain ⟨_, ⟨n1, _⟩, n2⟩ := hn
  have hb : ∀ x ∈ before, x.name ≠ t.name := by
    intro x hx
    rw [← hi]
    exact n2 x.name (List.mem_map_of_mem hx) i.name (List.mem_cons_self ..)
  have ha : ∀ x ∈ after, x.name ≠ t.name := by
    intro x hx he
    apply n1
    rw [hi, ← he]
    exact List.mem_map_of_mem hx
  have hf : (before ++ i :: after).find? (fun x => x.name == t.name) = some i := by
    rw [List.find?_append, find_absent hb, List.find?_cons, hi]
    simp
  have hmod : modifyTable (before ++ i :: after) t.name (putAll o.upsert t.flags t.entries) =
      before ++ { i with entries := putAll true t.flags t.entries i.entries } :: after := by
    have h1 : modifyTable (before ++ i :: after) t.name (putAll o.upsert t.flags t.entries) =
        modifyTable before t.name (putAll o.upsert t.flags t.entries) ++
          (if i.name = t.name then { i with entries := putAll o.upsert t.flags t.entries i.entries } else i) ::
          modifyTable after t.name (putAll o.upsert t.flags t.entries) := by
      unfold modifyTable
      rw [List.map_append, List.map_cons]
    rw [h1, modifyTable_absent hb, modifyTable_absent ha, if_pos hi, hup]
  unfold copyTable
  rw [if_neg (by rw [(skipped_iff o t).mpr hw]; decide), hf]
  simp only [hup, Bool.not_true, Bool.and_false, Bool.false_eq_true, if_false, hfl, ne_eq, not_true_eq_false]
  obtain ⟨e1, e2⟩ := copyEntries_eq o t.name t.flags t.entries (before ++ i :: after) (before ++ i :: after) 0
  rw [hmod] at e1 e2
  unfold copyInto
  simp only [e1]
  by_cases hz : uncommitted o.commitSize t.entries 0 = 0
  · simp only [hz, ne_eq, not_true_eq_false, if_false, if_true]
    rw [e2 hk (Or.inl hne) hz, hfl]
  · simp only [hz, ne_eq, not_false_eq_true, if_true, if_false]
    rw [hfl]

/-! ## Compacting -/

theorem replaceFile_backup {src bak tgt c : Bytes} {fs : Files} (hsb : src ≠ bak)
    (hs : fs src = some c) : replaceFile false src bak tgt fs = (-1, (fs.put src none).put bak (some c)) := by
  have hr : ∀ g : Files, g = (fs.put src none).put bak (some c) → g.rename src tgt = none ∧ (g src).isSome = false := by
    rintro g rfl
    have : ((fs.put src none).put bak (some c)) src = none := by simp [Files.put, hsb]
    unfold Files.rename
    rw [this]
    exact ⟨rfl, rfl⟩
  have h1 : (if (fs bak).isSome then fs.remove bak else fs).rename src bak = some ((fs.put src none).put bak (some c)) := by
    split
    · unfold Files.rename Files.remove
      have : (fs.put bak none) src = some c := by simp [Files.put, hsb, hs]
      rw [this]
      simp only [Option.some.injEq]
      funext p
      simp only [Files.put]
      split
      · rfl
      · rfl
    · unfold Files.rename
      rw [hs]
  unfold replaceFile
  simp only [Bool.false_eq_true, if_false]
  rw [h1]
  obtain ⟨k1, k2⟩ := hr _ rfl
  simp only [k2, Bool.false_eq_true, if_false, k1]

theorem replaceFile_nobak {src bak tgt c : Bytes} {fs : Files} (hs : fs src = some c) :
    replaceFile true src bak tgt fs = (-1, fs.put src none) := by
  have hr : (fs.put src none).rename src tgt = none := by
    unfold Files.rename
    have : (fs.put src none) src = none := by simp [Files.put]
    rw [this]
  unfold replaceFile
  simp only [if_true, hs, Option.isSome_some]
  unfold Files.remove
  rw [hr]

/-! ## Emptying -/

theorem matchAnswer_yes {w : Bytes} (h : Affirmed w) : matchAnswer w = some false := by
  rcases h with rfl | rfl <;> decide

theorem matchAnswer_no {w : Bytes} (h : Denied w) : matchAnswer w = some true := by
  rcases h with rfl | rfl <;> decide

theorem matchAnswer_unclear {w : Bytes} (h : Unclear w) : matchAnswer w = none := by
  obtain ⟨h1, h2, h3, h4⟩ := h
  match w with
  | [] => exact absurd rfl h1
  | [c] =>
    unfold matchAnswer
    simp only [Affirmed, Denied, List.cons.injEq, and_true, not_or] at h2 h3
    simp [h2, h3]
  | [c, d] =>
    unfold matchAnswer
    simp only
    rw [if_neg]
    simp only [Bool.and_eq_true, Bool.or_eq_true, beq_iff_eq]
    rintro ⟨hc, hd⟩
    exact h4 c d (by simpa [Affirmed] using hc) (by simpa [Denied] using hd) rfl
  | _ :: _ :: _ :: _ => rfl

theorem askUser_unclear (us : List Bytes) (h : ∀ w ∈ us, Unclear w) : ∀ (w w' : Bytes) (rest : List Bytes) (b : Bool),
    matchAnswer w = some b → askUser w' (us ++ w :: rest) = some (b, rest) := by
  induction us with
  | nil => intro w w' rest b hb; rw [List.nil_append, askUser, hb]
  | cons u us ih =>
    intro w w' rest b hb
    rw [List.cons_append, askUser, matchAnswer_unclear (h u (List.mem_cons_self ..))]
    exact ih (fun x hx => h x (List.mem_cons_of_mem _ hx)) w u rest b hb

theorem askUser_stuck (us : List Bytes) (h : ∀ w ∈ us, Unclear w) : ∀ (w : Bytes), (us ≠ [] ∨ Unclear w) → askUser w us = none := by
  induction us with
  | nil =>
    intro w hw
    rcases hw with hw | hw
    · exact absurd rfl hw
    · rw [askUser, matchAnswer_unclear hw]; rfl
  | cons u us ih =>
    intro w _
    rw [askUser, matchAnswer_unclear (h u (List.mem_cons_self ..))]
    exact ih (fun x hx => h x (List.mem_cons_of_mem _ hx)) u (Or.inr (h u (List.mem_cons_self ..)))

/-- What one name does to the tables. -/
def emptyOne (drop : Bool) (name : Bytes) (db : List NamedTable) : List NamedTable :=
  if drop then db.filter (fun t => t.name != name) else modifyTable db name fun _ => []

theorem clearLoop_cons (drop yes : Bool) (name : Bytes) (names input : List Bytes) (db : List NamedTable) :
    clearLoop drop yes (name :: names) input db =
      match db.find? fun t => t.name == name with
      | none => clearLoop drop yes names input db
      | some t =>
        if t.entries.length = 0 ∧ drop = false then clearLoop drop yes names input db
        else if yes then clearLoop drop yes names input (emptyOne drop name db)
        else
          match askUser [] input with
          | none => none
          | some (true, rest) => clearLoop drop yes names rest db
          | some (false, rest) => clearLoop drop yes names rest (emptyOne drop name db) := by
  rw [clearLoop]
  rfl

theorem emptied_cons (drop : Bool) (name : Bytes) (names : List Bytes) (db : List NamedTable) :
    Emptied drop (name :: names) db = Emptied drop names (emptyOne drop name db) := by
  unfold Emptied emptyOne
  cases drop
  · simp only [Bool.false_eq_true, if_false]
    unfold modifyTable
    rw [List.map_map]
    apply List.map_congr_left
    intro t _
    by_cases h1 : t.name = name <;> by_cases h2 : t.name ∈ names <;> simp [h1, h2]
  · simp only [if_true]
    rw [List.filter_filter]
    apply List.filter_congr
    intro t _
    by_cases h1 : t.name = name <;> by_cases h2 : t.name ∈ names <;> simp [h1, h2]

theorem emptied_nil (drop : Bool) (db : List NamedTable) : Emptied drop [] db = db := by
  unfold Emptied
  cases drop <;> simp

theorem emptyOne_names (drop : Bool) (name : Bytes) {db : List NamedTable} (h : (db.map (·.name)).Nodup) :
    ((emptyOne drop name db).map (·.name)).Nodup := by
  unfold emptyOne
  cases drop
  · have : (modifyTable db name fun _ => []).map (·.name) = db.map (·.name) := by
      unfold modifyTable
      rw [List.map_map]
      apply List.map_congr_left
      intro t _
      simp only [Function.comp]
      split <;> rfl
    simp only [Bool.false_eq_true, if_false, this]
    exact h
  · simp only [if_true]
    exact h.sublist ((List.filter_sublist).map _)

theorem emptyOne_absent (drop : Bool) {name : Bytes} {db : List NamedTable} (h : db.find? (fun t => t.name == name) = none) :
    emptyOne drop name db = db := by
  rw [List.find?_eq_none] at h
  have h : ∀ t ∈ db, t.name ≠ name := fun t ht => by simpa using h t ht
  unfold emptyOne
  cases drop
  · simp only [Bool.false_eq_true, if_false]
    exact modifyTable_absent h _
  · simp only [if_true]
    rw [List.filter_eq_self]
    intro t ht
    simpa using h t ht

theorem find_named {db : List NamedTable} (h : (db.map (·.name)).Nodup) {t : NamedTable} (ht : t ∈ db) :
    db.find? (fun i => i.name == t.name) = some t := by
  induction db with
  | nil => cases ht
  | cons j db ih =>
    rw [List.map_cons, List.nodup_cons] at h
    rw [List.find?_cons]
    rcases List.mem_cons.mp ht with rfl | ht
    · simp
    · have : j.name ≠ t.name := fun hj => h.1 (hj ▸ List.mem_map_of_mem ht)
      rw [beq_eq_false_iff_ne.mpr this]
      exact ih h.2 ht

theorem emptyOne_empty {name : Bytes} {db : List NamedTable} (hn : (db.map (·.name)).Nodup) {t : NamedTable}
    (h : db.find? (fun t => t.name == name) = some t) (he : t.entries = []) : emptyOne false name db = db := by
  unfold emptyOne modifyTable
  simp only [Bool.false_eq_true, if_false]
  conv => rhs; rw [← List.map_id db]
  apply List.map_congr_left
  intro u hu
  split
  · rename_i hun
    have := find_named hn hu
    rw [hun, h] at this
    cases this
    rw [← he]
    rfl
  · rfl

theorem clearLoop_yes (drop : Bool) (names input : List Bytes) : ∀ (db : List NamedTable), (db.map (·.name)).Nodup →
    clearLoop drop true names input db = some (Emptied drop names db) := by
  induction names with
  | nil => intro db _; rw [clearLoop, emptied_nil]
  | cons n ns ih =>
    intro db hn
    rw [clearLoop_cons, emptied_cons]
    cases hf : db.find? fun t => t.name == n with
    | none => simp only [ih db hn, emptyOne_absent drop hf]
    | some t =>
      simp only
      split
      · rename_i h
        obtain ⟨h1, rfl⟩ := h
        rw [emptyOne_empty hn hf (List.length_eq_zero_iff.mp h1)]
        exact ih db hn
      · rw [if_pos trivial]
        exact ih _ (emptyOne_names drop n hn)

theorem clearLoop_eof (drop : Bool) (names : List Bytes) : ∀ (db : List NamedTable),
    clearLoop drop false names [] db = clearLoop drop true names [] db := by
  induction names with
  | nil => intro db; rw [clearLoop, clearLoop]
  | cons n ns ih =>
    intro db
    rw [clearLoop_cons, clearLoop_cons]
    have ha : askUser [] [] = some (false, []) := rfl
    simp only [ha, ih, Bool.false_eq_true, if_false, if_true]

theorem mem_emptyOne {drop : Bool} {name : Bytes} {db : List NamedTable} {t : NamedTable} (h : t ∈ db) (hn : t.name ≠ name) :
    t ∈ emptyOne drop name db := by
  unfold emptyOne
  cases drop
  · simp only [Bool.false_eq_true, if_false]
    unfold modifyTable
    rw [List.mem_map]
    exact ⟨t, h, if_neg hn⟩
  · simp only [if_true, List.mem_filter]
    exact ⟨h, by simpa using hn⟩

/-- The words given to these questions. -/
def wordsOf (qs : List Question) : List Bytes := qs.flatMap fun q => q.unclear ++ [q.answer]

theorem clearLoop_answers (drop : Bool) (rest : List Bytes) (qs : List Question) : ∀ (db : List NamedTable),
    (db.map (·.name)).Nodup → (qs.map (·.name)).Nodup → (∀ q ∈ qs, q.Asked drop db) →
      clearLoop drop false (qs.map (·.name)) (wordsOf qs ++ rest) db =
        some (Emptied drop ((qs.filter fun q => decide (Affirmed q.answer)).map (·.name)) db) := by
  induction qs with
  | nil => intro db _ _ _; rw [List.map_nil, clearLoop]; exact congrArg some (emptied_nil drop db).symm
  | cons q qs ih =>
    intro db hn hq ha
    rw [List.map_cons, List.nodup_cons] at hq
    obtain ⟨⟨t, ht, hname, hdo⟩, hu, hans⟩ := ha q (List.mem_cons_self ..)
    have ha' : ∀ x ∈ qs, x.Asked drop db := fun x hx => ha x (List.mem_cons_of_mem _ hx)
    have hf : db.find? (fun t => t.name == q.name) = some t := by rw [← hname]; exact find_named hn ht
    have hw : wordsOf (q :: qs) ++ rest = q.unclear ++ q.answer :: (wordsOf qs ++ rest) := by
      unfold wordsOf
      simp [List.flatMap_cons, List.append_assoc]
    rw [List.map_cons, clearLoop_cons, hf, hw]
    simp only
    rw [if_neg (by
      rintro ⟨h1, h2⟩
      rcases hdo with h3 | h3
      · exact h3 (List.length_eq_zero_iff.mp h1)
      · rw [h2] at h3; cases h3)]
    simp only [Bool.false_eq_true, if_false]
    rcases hans with hy | hno
    · rw [askUser_unclear _ hu _ _ _ _ (matchAnswer_yes hy)]
      simp only
      rw [List.filter_cons_of_pos (by simpa using hy), List.map_cons, emptied_cons]
      refine ih _ (emptyOne_names drop q.name hn) hq.2 ?_
      intro x hx
      obtain ⟨⟨u, hu1, hu2, hu3⟩, hx2, hx3⟩ := ha' x hx
      refine ⟨⟨u, mem_emptyOne hu1 ?_, hu2, hu3⟩, hx2, hx3⟩
      rw [hu2]
      intro he
      exact hq.1 (he ▸ List.mem_map_of_mem hx)
    · rw [askUser_unclear _ hu _ _ _ _ (matchAnswer_no hno)]
      simp only
      have hnot : ¬ Affirmed q.answer := by
        rcases hno with h | h <;> rw [h] <;> decide
      rw [List.filter_cons_of_neg (by simpa using hnot)]
      exact ih db hn hq.2 ha'

end Silkworm.Tools
