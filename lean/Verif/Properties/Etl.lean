import Verif.Etl.Loading
import Verif.Spec.Etl

/-!
# C50, C51: collecting and loading
-/

namespace Silkworm.Properties

open Silkworm.Etl Silkworm.Etl.Collector Silkworm.Spec

variable {σ ε : Type}

/-! ## C50 -/

/-- How loading ends when the calls of the load function end with `r`: with the collector `c` afterwards, or with the
failure of the load function. -/
def finished (r : Outcome ε σ) (c : Collector) : Outcome (LoadError ε) (σ × Collector) :=
  match r with
  | .ok s => .ok (s, c)
  | .err e => .err (.load e)
  | .ub => .ub

/-- C50 for entries that are not empty: with enough space on disk, loading calls the load function with the entries that
were collected, each as often as it was collected, in order of their keys and, for equal keys, of their values, whatever
the buffer size, the number of files and the choice of the priority queue among equal entries. If the load function fails
loading ends there. -/
theorem c50_load_partial (space : Nat → Nat) (h : Heap) (f : σ → Entry → Outcome ε σ) (s : σ) (optimalSize : Nat)
    (es : List Entry) (hfit : ∀ e ∈ es, EntryFits (e.key, e.value)) (hne : ∀ e ∈ es, e.key ≠ [] ∨ e.value ≠ [])
    (hspace : ∀ n, (es.map fun e => e.key.length + e.value.length + 8).sum ≤ space n) :
    ∃ c, collectAll space (new optimalSize) es = .ok c ∧ c.size = es.length ∧
      ∃ (L : List Entry) (c' : Collector), IsSorting (es.map fun e => (e.key, e.value)) (L.map fun e => (e.key, e.value)) ∧
        load space h f s c = finished (L.foldlM f s) c' := by
  have hsz : ∀ e ∈ es, e.size ≠ 0 := by
    intro e he hz
    unfold Entry.size at hz
    rcases hne e he with h | h <;> exact h (List.length_eq_zero_iff.mp (by omega))
  rcases collectAll_spec space es (holds_new optimalSize) hfit hsz with ⟨_, n, hn⟩ | ⟨c, Ls, hc, hh⟩
  · exact absurd (hspace n) (Nat.not_le.mpr hn)
  · rw [List.nil_append] at hh
    refine ⟨c, hc, hh.count, ?_⟩
    rcases load_spec space h f hh hfit hsz with ⟨_, n, hn⟩ | ⟨L, c', hL, ho, hrun⟩
    · exact absurd (hspace n) (Nat.not_le.mpr hn)
    · refine ⟨L, c', ⟨hL.map _, List.pairwise_map.mpr ho⟩, ?_⟩
      rw [hrun s, loadEntries_foldlM]
      cases L.foldlM f s <;> rfl

/-- C50: without enough space on disk collecting or loading reports that, before anything is delivered; there is no other
way to fail. -/
theorem c50_space (space : Nat → Nat) (h : Heap) (f : σ → Entry → Outcome ε σ) (s : σ) (optimalSize : Nat)
    (es : List Entry) (hfit : ∀ e ∈ es, EntryFits (e.key, e.value)) (hne : ∀ e ∈ es, e.key ≠ [] ∨ e.value ≠ []) :
    collectAll space (new optimalSize) es = .err .insufficientDiskSpace ∨
      ∃ c, collectAll space (new optimalSize) es = .ok c ∧
        (load space h f s c = .err (.etl .insufficientDiskSpace) ∨
          ∃ (L : List Entry) (c' : Collector), IsSorting (es.map fun e => (e.key, e.value)) (L.map fun e => (e.key, e.value)) ∧
            load space h f s c = finished (L.foldlM f s) c') := by
  have hsz : ∀ e ∈ es, e.size ≠ 0 := by
    intro e he hz
    unfold Entry.size at hz
    rcases hne e he with h | h <;> exact h (List.length_eq_zero_iff.mp (by omega))
  rcases collectAll_spec space es (holds_new optimalSize) hfit hsz with ⟨hc, _⟩ | ⟨c, Ls, hc, hh⟩
  · exact Or.inl hc
  · rw [List.nil_append] at hh
    refine Or.inr ⟨c, hc, ?_⟩
    rcases load_spec space h f hh hfit hsz with ⟨hl, _⟩ | ⟨L, c', hL, ho, hrun⟩
    · exact Or.inl (hl s)
    · refine Or.inr ⟨L, c', ⟨hL.map _, List.pairwise_map.mpr ho⟩, ?_⟩
      rw [hrun s, loadEntries_foldlM]
      cases L.foldlM f s <;> rfl

theorem etl_map_injective {a b : List Entry} (h : a.map (fun e => (e.key, e.value)) = b.map fun e => (e.key, e.value)) :
    a = b := by
  refine List.map_inj_right (f := fun e : Entry => (e.key, e.value)) ?_ |>.mp h
  intro x y hxy
  cases x; cases y
  simpa using hxy

/-- C50: what a load function makes of the entries does not depend on the buffer size, on how the entries were spread over
files or on the choice of the priority queue. -/
theorem c50_independent_partial (space space' : Nat → Nat) (h h' : Heap) (f : σ → Entry → Outcome ε σ) (s : σ)
    (optimalSize optimalSize' : Nat) (es es' : List Entry) (hp : es.Perm es')
    (hfit : ∀ e ∈ es, EntryFits (e.key, e.value)) (hne : ∀ e ∈ es, e.key ≠ [] ∨ e.value ≠ [])
    (c c' : Collector) (hc : collectAll space (new optimalSize) es = .ok c)
    (hc' : collectAll space' (new optimalSize') es' = .ok c')
    (s1 s2 : σ) (d d' : Collector) (h1 : load space h f s c = .ok (s1, d)) (h2 : load space' h' f s c' = .ok (s2, d')) :
    s1 = s2 := by
  have hfit' : ∀ e ∈ es', EntryFits (e.key, e.value) := fun e he => hfit e (hp.mem_iff.mpr he)
  have hne' : ∀ e ∈ es', e.key ≠ [] ∨ e.value ≠ [] := fun e he => hne e (hp.mem_iff.mpr he)
  rcases c50_space space h f s optimalSize es hfit hne with he | ⟨x, hx, hr⟩
  · rw [hc] at he; exact absurd he (by simp)
  · rw [hc] at hx
    cases Outcome.ok.inj hx
    rcases c50_space space' h' f s optimalSize' es' hfit' hne' with he | ⟨x, hx', hr'⟩
    · rw [hc'] at he; exact absurd he (by simp)
    · rw [hc'] at hx'
      cases Outcome.ok.inj hx'
      rcases hr with hr | ⟨L, e, hL, hr⟩
      · rw [h1] at hr; exact absurd hr (by simp)
      · rcases hr' with hr' | ⟨L', e', hL', hr'⟩
        · rw [h2] at hr'; exact absurd hr' (by simp)
        · have : L = L' := by
            refine etl_map_injective ?_
            exact List.Perm.eq_of_pairwise (fun a b _ _ h1 h2 => precedes_antisymm h1 h2) hL.2 hL'.2
              (hL.1.trans ((hp.map _).trans hL'.1.symm))
          subst this
          rw [h1] at hr
          rw [h2] at hr'
          cases hf : L.foldlM f s with
          | ok t =>
            rw [hf] at hr hr'
            exact (Prod.mk.inj (Outcome.ok.inj hr)).1.trans (Prod.mk.inj (Outcome.ok.inj hr')).1.symm
          | err t => rw [hf] at hr; exact absurd hr (by simp [finished])
          | ub => rw [hf] at hr; exact absurd hr (by simp [finished])

/-- Position of the first element of a queue that no other is smaller than. -/
def firstMin (q : List (Entry × Nat)) : Nat := q.findIdx fun x => q.all fun y => !Entry.lt y.1 x.1

theorem exists_min (q : List (Entry × Nat)) (h : q ≠ []) : ∃ x ∈ q, ∀ y ∈ q, Entry.lt y.1 x.1 = false := by
  induction q with
  | nil => exact absurd rfl h
  | cons a q ih =>
    by_cases hq : q = []
    · subst hq
      refine ⟨a, List.mem_cons_self .., fun y hy => ?_⟩
      rw [List.mem_singleton.mp hy]
      exact (lt_false_iff _ _).mpr (Or.inr ⟨rfl, List.le_refl _⟩)
    · obtain ⟨x, hx, hm⟩ := ih hq
      rcases precedes_total a.1.pair x.1.pair with hp | hp
      · refine ⟨a, List.mem_cons_self .., fun y hy => (lt_false_iff _ _).mpr ?_⟩
        rcases List.mem_cons.mp hy with hy | hy
        · rw [hy]; exact Or.inr ⟨rfl, List.le_refl _⟩
        · exact precedes_trans hp ((lt_false_iff _ _).mp (hm y hy))
      · refine ⟨x, List.mem_cons_of_mem _ hx, fun y hy => (lt_false_iff _ _).mpr ?_⟩
        rcases List.mem_cons.mp hy with hy | hy
        · rw [hy]; exact hp
        · exact (lt_false_iff _ _).mp (hm y hy)

/-- A priority queue: the first of the smallest elements is on top. -/
def exHeap : Heap where
  top := firstMin
  top_lt q h := by
    obtain ⟨x, hx, hm⟩ := exists_min q h
    exact List.findIdx_lt_length_of_exists ⟨x, hx, by simpa using hm⟩
  top_min q h := by
    obtain ⟨x, hx, hm⟩ := exists_min q h
    have hlt : firstMin q < q.length := List.findIdx_lt_length_of_exists ⟨x, hx, by simpa using hm⟩
    have := List.findIdx_getElem (w := hlt)
    intro y hy
    have h2 : (!Entry.lt y.1 (q[firstMin q]'hlt).1) = true := (List.all_eq_true.mp this) y hy
    simpa using h2

/-- A load function that records what it is called with. -/
def exRecord (l : List Entry) (e : Entry) : Outcome Empty (List Entry) := .ok (l ++ [e])

/-- Collect and load; the entries in the order of the calls of the load function. -/
def exDelivered (optimalSize : Nat) (es : List Entry) : Outcome (LoadError Empty) (List Entry) := do
  let c ← lift (collectAll (fun _ => 1000) (new optimalSize) es)
  let (l, _) ← load (fun _ => 1000) exHeap exRecord [] c
  .ok l

def exEntries : List Entry := [⟨[3], [1]⟩, ⟨[1, 0], [9]⟩, ⟨[1], [5]⟩, ⟨[3], [0]⟩, ⟨[2], []⟩, ⟨[1], [5]⟩, ⟨[], [7]⟩]

example : exDelivered 1000 exEntries =
    .ok [⟨[], [7]⟩, ⟨[1], [5]⟩, ⟨[1], [5]⟩, ⟨[1, 0], [9]⟩, ⟨[2], []⟩, ⟨[3], [0]⟩, ⟨[3], [1]⟩] := by decide +kernel
example : exDelivered 4 exEntries = exDelivered 1000 exEntries ∧ exDelivered 0 exEntries = exDelivered 1000 exEntries := by
  decide +kernel
example : collectAll (fun n => if n = 0 then 20 else 5) (new 4) exEntries = .err .insufficientDiskSpace := by
  decide +kernel
example : ∃ c, collectAll (fun _ => 1000) (new 4) exEntries = .ok c ∧ c.size = 7 ∧
    ∃ (L : List Entry) (c' : Collector), IsSorting (exEntries.map fun e => (e.key, e.value)) (L.map fun e => (e.key, e.value)) ∧
      load (fun _ => 1000) exHeap exRecord [] c = finished (L.foldlM exRecord []) c' :=
  c50_load_partial (fun _ => 1000) exHeap exRecord [] 4 exEntries (by decide) (by decide) (fun _ => by decide)

/-- C50 as stated does not hold: an entry with empty key and empty value adds nothing to the size of the buffer, and a
buffer of size 0 is not flushed, so the entry is lost if others have been written to a file. -/
theorem c50_violated : ¬ ∀ (optimalSize : Nat) (es : List Entry), (∀ e ∈ es, EntryFits (e.key, e.value)) →
    ∃ L : List Entry, IsSorting (es.map fun e => (e.key, e.value)) (L.map fun e => (e.key, e.value)) ∧
      exDelivered optimalSize es = .ok L := by
  intro h
  obtain ⟨L, hL, hd⟩ := h 2 [⟨[1], [2]⟩, ⟨[], []⟩] (by decide)
  have he : exDelivered 2 [⟨[1], [2]⟩, ⟨[], []⟩] = .ok [⟨[1], [2]⟩] := by decide +kernel
  rw [he] at hd
  have := hL.1.length_eq
  rw [← Outcome.ok.inj hd] at this
  exact absurd this (by decide)

/-- The result of an outcome. -/
def exGet {ε α : Type} (d : α) : Outcome ε α → α
  | .ok c => c
  | _ => d

theorem exGet_ok {ε α : Type} (d : α) {o : Outcome ε α} (h : o.isOk = true) : o = .ok (exGet d o) := by
  cases o with
  | ok a => rfl
  | err e => exact absurd h (by simp [Outcome.isOk])
  | ub => exact absurd h (by simp [Outcome.isOk])

def exC1 : Collector := exGet (new 0) (collectAll (fun _ => 1000) (new 2) [⟨[1], [2]⟩])
def exC2 : List Entry × Collector := exGet ([], new 0) (load (fun _ => 1000) exHeap exRecord [] exC1)
def exC3 : Collector := exGet (new 0) (collectAll (fun _ => 1000) exC2.2 [⟨[3], [4]⟩])

theorem exC1_ok : collectAll (fun _ => 1000) (new 2) [⟨[1], [2]⟩] = .ok exC1 := by
  have h : (collectAll (fun _ => 1000) (new 2) [⟨[1], [2]⟩]).isOk = true := by decide +kernel
  exact exGet_ok (new 0) h

theorem exC2_ok : load (fun _ => 1000) exHeap exRecord [] exC1 = .ok exC2 := by
  have h : (load (fun _ => 1000) exHeap exRecord [] exC1).isOk = true := by decide +kernel
  rw [exC2]
  exact exGet_ok ([], new 0) h

theorem exC3_ok : collectAll (fun _ => 1000) exC2.2 [⟨[3], [4]⟩] = .ok exC3 := by
  have h : (collectAll (fun _ => 1000) exC2.2 [⟨[3], [4]⟩]).isOk = true := by decide +kernel
  exact exGet_ok (new 0) h

/-- C50: after loading from files a collector cannot be used again: the pointers to the files it has read are null but
still in the list, and the next load dereferences them. -/
theorem c50_reuse_violated : ∃ (optimalSize : Nat) (e1 e2 : Entry) (c1 c3 : Collector) (r : List Entry × Collector),
    collectAll (fun _ => 1000) (new optimalSize) [e1] = .ok c1 ∧
    load (fun _ => 1000) exHeap exRecord [] c1 = .ok r ∧
    collectAll (fun _ => 1000) r.2 [e2] = .ok c3 ∧
    load (fun _ => 1000) exHeap exRecord [] c3 = .ub := by
  exact ⟨2, ⟨[1], [2]⟩, ⟨[3], [4]⟩, exC1, exC3, exC2, exC1_ok, exC2_ok, exC3_ok, by decide +kernel⟩

/-! ## C51 -/

/-- Calling `read_entry` a number of times. -/
def readMany : Nat → FileProvider → Outcome EtlError (List (Option (Entry × Nat)) × FileProvider)
  | 0, p => .ok ([], p)
  | n + 1, p => do
    let (x, p) ← p.readEntry
    let (xs, p) ← readMany n p
    .ok (x :: xs, p)

theorem readMany_contents (l : List Entry) : ∀ (p : FileProvider), p.file = some (contents l) → p.fileSize ≠ 0 →
    (∀ e ∈ l, Fits e) → readMany (l.length + 1) p = .ok (l.map (fun e => some (e, p.id)) ++ [none], p.reset) := by
  induction l with
  | nil =>
    intro p hf hs _
    rw [List.length_nil, readMany, readEntry_nil hf hs]
    rfl
  | cons e l ih =>
    intro p hf hs hfit
    rw [List.length_cons, readMany, readEntry_cons (e := e) (rest := contents l) (by rw [hf]; rfl) hs
      (hfit e (List.mem_cons_self ..))]
    simp only [Outcome.ok_bind]
    rw [ih { p with file := some (contents l) } rfl hs (fun e he => hfit e (List.mem_cons_of_mem _ he))]
    rfl

/-- C51: reading back a buffer with at least one entry that was written to a file yields the entries in the order of the
buffer, with the number of the file, and then the end of the data. Every further read is an error. -/
theorem c51_roundtrip (p : FileProvider) (available : Nat) (b : Buffer) (hne : b.entries ≠ [])
    (hfit : ∀ e ∈ b.entries, EntryFits (e.key, e.value)) (hspace : b.size + b.entries.length * 8 ≤ available) :
    ∃ p' p'', p.flush available b = .ok p' ∧
      readMany (b.entries.length + 1) p' = .ok (b.entries.map (fun e => some (e, p.id)) ++ [none], p'') ∧
      p''.readEntry = .err .invalidFileHandle := by
  refine ⟨{ p with fileSize := b.size + b.entries.length * 8, file := some (contents b.entries) }, _,
    by unfold FileProvider.flush; simp only; rw [if_neg (by omega)]; rfl,
    readMany_contents b.entries _ rfl ?_ hfit, rfl⟩
  have : b.entries.length ≠ 0 := fun h => hne (List.length_eq_zero_iff.mp h)
  simp only; omega

/-- C51: writing fails exactly if there is not enough space for the entries and 8 bytes for each of them. -/
theorem c51_space (p : FileProvider) (available : Nat) (b : Buffer) :
    (p.flush available b = .err .insufficientDiskSpace ↔ available < b.size + b.entries.length * 8) ∧
    p.flush available b ≠ .ub := by
  unfold FileProvider.flush
  simp only
  split <;> simp [*]

def exEtlBuffer : Buffer := ⟨100, 7, 2, [⟨[1, 2], [3]⟩, ⟨[4], [5, 6, 7]⟩, ⟨[9], [9]⟩]⟩

example : FileProvider.flush ⟨3, 0, none⟩ 23 exEtlBuffer =
    .ok ⟨3, 23, some [2, 0, 0, 0, 1, 0, 0, 0, 1, 2, 3, 1, 0, 0, 0, 3, 0, 0, 0, 4, 5, 6, 7]⟩ := by decide +kernel
example : FileProvider.flush ⟨3, 0, none⟩ 22 exEtlBuffer = .err .insufficientDiskSpace := by decide +kernel
example : ∃ p' p'', FileProvider.flush ⟨3, 0, none⟩ 50 exEtlBuffer = .ok p' ∧
    readMany 3 p' = .ok ([some (⟨[1, 2], [3]⟩, 3), some (⟨[4], [5, 6, 7]⟩, 3), none], p'') ∧
    p''.readEntry = .err .invalidFileHandle :=
  c51_roundtrip ⟨3, 0, none⟩ 50 exEtlBuffer (by decide) (by decide) (by decide)
example : (⟨3, 5, some [2, 0, 0, 0, 1, 0, 0, 0, 1]⟩ : FileProvider).readEntry = .err .ioError := by decide +kernel

end Silkworm.Properties
