import Verif.Stages.WorkersPhases

/-!
# The threads that recover senders come to an end
-/

namespace Silkworm.Workers

variable {B R : Type} {recover : B → Option (List R)} {items : List (Option B)} {n : Nat}

/-- The kick of a worker with work was not lost. -/
def Worker.Kicked (w : Worker B R) : Prop :=
  w.status = .working → (w.place = .waiting ∧ w.kicked = true) ∨ w.place = .woken ∨ w.place = .running

/-- A worker that is told to stop will see it. -/
structure Live (f : Farm B R) : Prop where
  kick : ∀ (i : Nat) (w : Worker B R), f.workers[i]? = some w → w.stopping = true →
    w.kicked = true ∨ w.place = .woken ∨ w.place = .exited
  joined : ∀ i, f.point = .join i → ∃ w, f.workers[i]? = some w ∧ w.stopping = true

/-- All batches are dispatched, and no kick was lost. -/
structure Going (f : Farm B R) : Prop where
  dispatched : f.point.Dispatched
  kicked : ∀ (i : Nat) (w : Worker B R), f.workers[i]? = some w → w.Kicked

theorem live_start : Live (start n items : Farm B R) where
  kick i w h := by simp [start] at h
  joined i h := by cases h

theorem ending_finishing {p : Point} (h : p.Ending) : p.Finishing := by
  cases p <;> first | exact h.elim | trivial

theorem Orderly.dispatched_length {f : Farm B R} (h : Orderly items n f) (hd : f.point.Dispatched) :
    f.workers.length = f.batchId := by
  rcases h.length with e | ⟨e, -⟩
  · exact e
  · rw [e] at hd; exact hd.elim

theorem Orderly.rests {f : Farm B R} (hinv : Inv recover items f) (h : Orderly items n f) (hd : f.point.Dispatched) {i : Nat}
    {w : Worker B R} (hi : f.workers[i]? = some w) (hw : w.status ≠ .working) : Rests w := by
  have hlt : i < f.batchId := by rw [← h.dispatched_length hd]; exact (List.getElem?_eq_some_iff.mp hi).1
  by_cases hs : w.status = .idle
  · exact ((h.worker i w hi).idle hlt hs).2.1
  · exact (hinv.worker i w hi).over ⟨hs, hw⟩

theorem Orderly.stopping_rests {f : Farm B R} (hinv : Inv recover items f) (h : Orderly items n f) {i : Nat}
    {w : Worker B R} (hi : f.workers[i]? = some w) (hw : w.stopping = true) : Rests w := by
  have ht := h.worker i w hi
  have he := ending_finishing (ht.stopping hw)
  refine h.rests hinv ?_ hi (ht.quiet (Or.inl he))
  cases hq : f.point <;> rw [hq] at he <;> first | exact he.elim | exact he

theorem live_worker {f g : Farm B R} (hinv : Inv recover items f) (h : Orderly items n f) (hl : Live f) {i : Nat}
    {w : Worker B R} (hi : f.workers[i]? = some w) (hs : workerStep recover f i w = .ok g) : Live g := by
  have key : ∀ (g' : Farm B R) (v : Worker B R), g'.workers = f.workers.set i v → g'.point = f.point → v.stopping = w.stopping →
      (w.stopping = true → w.kicked = true ∨ w.place = .woken ∨ w.place = .exited →
        v.kicked = true ∨ v.place = .woken ∨ v.place = .exited) → Live g' := by
    intro g' v hg hp h1 h2
    refine ⟨?_, ?_⟩
    · intro k x hx hst
      rw [hg] at hx
      rcases get_set hi hx with ⟨-, rfl⟩ | ⟨-, hx⟩
      · rw [h1] at hst
        exact h2 hst (hl.kick i w hi hst)
      · exact hl.kick k x hx hst
    · intro k hk
      rw [hp] at hk
      obtain ⟨x, hx, hst⟩ := hl.joined k hk
      by_cases e : k = i
      · subst e
        rw [hi] at hx
        cases hx
        exact ⟨v, by rw [hg]; exact set_self v hi, h1.trans hst⟩
      · exact ⟨x, by rw [hg, set_other v e]; exact hx, hst⟩
  unfold workerStep at hs
  cases hp : w.place with
  | clearing =>
    rw [hp] at hs; cases hs
    exact key _ _ rfl rfl rfl fun hh _ => absurd hp (h.stopping_rests hinv hi hh).clearing
  | waiting =>
    rw [hp] at hs
    simp only at hs
    split at hs
    · cases hs; exact key _ _ rfl rfl rfl fun _ _ => Or.inr (Or.inl rfl)
    · cases hs; exact hl
  | woken =>
    rw [hp] at hs; cases hs
    exact key _ _ rfl rfl rfl fun hh _ => Or.inr (Or.inr (if_pos hh))
  | running =>
    rw [hp] at hs
    simp only at hs
    have hno : w.stopping = true → False := fun hh => (h.stopping_rests hinv hi hh).running hp
    split at hs
    · cases hs
    · split at hs
      · cases hs
      · split at hs
        · cases hs; exact key _ _ rfl rfl rfl fun hh => (hno hh).elim
        · cases hs; exact key _ _ rfl rfl rfl fun hh => (hno hh).elim
  | signalling =>
    rw [hp] at hs
    simp only at hs
    have conv : w.kicked = true ∨ Place.signalling = .woken ∨ Place.signalling = .exited → w.kicked = true := by
      rintro (e | e | e)
      · exact e
      · cases e
      · cases e
    split at hs
    · cases hs
    · split at hs
      · cases hs; exact key _ _ rfl rfl rfl fun _ hh => Or.inl (conv (by rw [hp] at hh; exact hh))
      · cases hs; exact hl
  | resetting =>
    rw [hp] at hs
    simp only at hs
    split at hs
    · cases hs
    · cases hs
      refine key _ _ rfl rfl rfl fun _ hh => Or.inl ?_
      rw [hp] at hh
      rcases hh with e | e | e
      · exact e
      · cases e
      · cases e
  | exited => rw [hp] at hs; cases hs; exact hl

/-! ## A measure -/

/-- How many steps of its thread a worker has before it. -/
def Place.rank : Place → Nat
  | .woken => 4
  | .running => 3
  | .signalling => 2
  | .resetting => 1
  | .waiting | .exited | .clearing => 0

def Worker.rank (w : Worker B R) : Nat := w.place.rank + if w.kicked then 5 else 0

/-- Some worker has not finished. -/
def Farm.busy (f : Farm B R) : Bool := f.workers.any fun w => w.status = .working

/-- Batches not looked at. -/
def Farm.left (f : Farm B R) : Nat := f.queue.length + (f.batchId - f.completed)

/-- How many steps the thread of `recover` has before it. -/
def Farm.mainRank (f : Farm B R) : Nat :=
  match f.point with
  | .stop i => 8 * (f.workers.length - i) + 1
  | .join i => 8 * (f.workers.length - i) - 6
  | .load => 8 * f.workers.length + 2
  | .collect _ => 8 * f.workers.length + 3 + 2 * f.left
  | .pull _ _ _ => 8 * f.workers.length + 4 + 2 * f.left
  | .wait i => 8 * f.workers.length + 4 + 2 * f.left + if f.busy then f.workers.length else f.workers.length - i
  | _ => 0

def Farm.rank (f : Farm B R) : Nat := (f.workers.map Worker.rank).sum + f.mainRank

theorem sum_set {α : Type} (r : α → Nat) {l : List α} {i : Nat} {w : α} (v : α) (h : l[i]? = some w) :
    ((l.set i v).map r).sum + r w = (l.map r).sum + r v := by
  induction l generalizing i with
  | nil => simp at h
  | cons x xs ih =>
    cases i with
    | zero =>
      simp only [List.getElem?_cons_zero, Option.some.injEq] at h
      subst h
      simp only [List.set_cons_zero, List.map_cons, List.sum_cons]
      omega
    | succ i =>
      simp only [List.getElem?_cons_succ] at h
      have := ih h
      simp only [List.set_cons_succ, List.map_cons, List.sum_cons]
      omega

theorem busy_iff {f : Farm B R} : f.busy = true ↔ ∃ (i : Nat) (w : Worker B R), f.workers[i]? = some w ∧ w.status = .working := by
  unfold Farm.busy
  rw [List.any_eq_true]
  constructor
  · rintro ⟨w, hw, hs⟩
    obtain ⟨i, hi, rfl⟩ := List.getElem_of_mem hw
    exact ⟨i, _, List.getElem?_eq_getElem hi, of_decide_eq_true hs⟩
  · rintro ⟨i, w, hi, hs⟩
    exact ⟨w, List.mem_of_getElem? hi, decide_eq_true hs⟩

/-- A step of a worker. -/
theorem rank_worker {f g : Farm B R} {i : Nat} {w v : Worker B R} (hi : f.workers[i]? = some w) (hg : g.workers = f.workers.set i v)
    (hp : g.point = f.point) (hleft : g.left = f.left) (hs : v.status = .working → w.status = .working) (hr : v.rank < w.rank) :
    g.rank < f.rank := by
  have hsum := sum_set Worker.rank v hi
  have hlen : g.workers.length = f.workers.length := by rw [hg, List.length_set]
  have hbusy : g.busy = true → f.busy = true := by
    rw [busy_iff, busy_iff]
    rintro ⟨k, x, hx, hst⟩
    rw [hg] at hx
    rcases get_set hi hx with ⟨-, rfl⟩ | ⟨-, hx⟩
    · exact ⟨i, w, hi, hs hst⟩
    · exact ⟨k, x, hx, hst⟩
  have hmain : g.mainRank ≤ f.mainRank := by
    unfold Farm.mainRank
    rw [hp]
    cases f.point <;> simp only [hlen, hleft] <;> try exact Nat.le_refl _
    · cases hgb : g.busy <;> cases hfb : f.busy
      · exact Nat.le_refl _
      · simp only [if_true]
        rw [if_neg (by decide)]
        omega
      · rw [hbusy hgb] at hfb
        cases hfb
      · exact Nat.le_refl _
  unfold Farm.rank
  rw [hg]
  omega

/-- The thread of the worker is not waiting. -/
def Enabled (f : Farm B R) (w : Worker B R) : Prop :=
  w.place = .woken ∨ w.place = .running ∨ w.place = .resetting ∨ (w.place = .waiting ∧ w.kicked = true) ∨
    (w.place = .signalling ∧ f.completed = w.batchId)

/-- Everything that is known after all batches are dispatched. -/
structure Good (recover : B → Option (List R)) (items : List (Option B)) (n : Nat) (f : Farm B R) : Prop where
  inv : Inv recover items f
  orderly : Orderly items n f
  live : Live f
  going : Going f

theorem good_worker {f : Farm B R} (hc : Calm recover items) (h : Good recover items n f) {i : Nat} {w : Worker B R}
    (hi : f.workers[i]? = some w) :
    ∃ g, workerStep recover f i w = .ok g ∧ Good recover items n g ∧ g.point = f.point ∧
      (g.rank < f.rank ∨ (g = f ∧ ¬ Enabled f w)) := by
  obtain ⟨g, hs, ho, hpt⟩ := orderly_worker hc h.inv h.orderly hi
  have hi' : Inv recover items g := inv_workerStep h.inv hi hs
  have hlive := live_worker h.inv h.orderly h.live hi hs
  have hw := h.inv.worker i w hi
  have ht := h.orderly.worker i w hi
  have hlen := h.orderly.dispatched_length h.going.dispatched
  have hlt : i < f.batchId := by rw [← hlen]; exact (List.getElem?_eq_some_iff.mp hi).1
  have hnc : w.place ≠ .clearing := by
    intro hp
    by_cases hst : w.status = .working
    · rcases h.going.kicked i w hi hst with ⟨e, -⟩ | e | e <;> (rw [hp] at e; cases e)
    · exact (h.orderly.rests h.inv h.going.dispatched hi hst).clearing hp
  have key : ∀ v : Worker B R, g.workers = f.workers.set i v → g.left = f.left → (v.status = .working → w.status = .working) →
      v.rank < w.rank → v.Kicked → g.rank < f.rank ∧ Going g := by
    intro v hg h1 h2 h3 h4
    refine ⟨rank_worker hi hg hpt h1 h2 h3, by rw [hpt]; exact h.going.dispatched, ?_⟩
    intro k x hx
    rw [hg] at hx
    rcases get_set hi hx with ⟨-, rfl⟩ | ⟨-, hx⟩
    · exact h4
    · exact h.going.kicked k x hx
  have fin : (g.rank < f.rank ∧ Going g) ∨ (g = f ∧ ¬ Enabled f w) → Good recover items n g ∧ g.point = f.point ∧
      (g.rank < f.rank ∨ (g = f ∧ ¬ Enabled f w)) := by
    rintro (⟨h1, h2⟩ | ⟨rfl, h2⟩)
    · exact ⟨⟨hi', ho, hlive, h2⟩, hpt, Or.inl h1⟩
    · exact ⟨h, rfl, Or.inr ⟨rfl, h2⟩⟩
  refine ⟨g, hs, fin ?_⟩
  clear fin ho hi' hlive
  unfold workerStep at hs
  cases hp : w.place with
  | clearing => exact absurd hp hnc
  | waiting =>
    rw [hp] at hs
    simp only at hs
    split at hs
    · next hk =>
      cases hs
      refine Or.inl (key _ rfl rfl (fun e => e) ?_ (fun _ => Or.inr (Or.inl rfl)))
      show Place.rank .woken + (if false = true then 5 else 0) < Place.rank w.place + (if w.kicked = true then 5 else 0)
      rw [hp, hk]
      decide
    · next hk =>
      cases hs
      refine Or.inr ⟨rfl, ?_⟩
      rintro (e | e | e | ⟨-, e⟩ | ⟨e, -⟩)
      · rw [hp] at e; cases e
      · rw [hp] at e; cases e
      · rw [hp] at e; cases e
      · exact hk e
      · rw [hp] at e; cases e
  | woken =>
    rw [hp] at hs
    cases hs
    refine Or.inl (key _ rfl rfl (fun e => e) ?_ ?_)
    · show Place.rank (if w.stopping = true then .exited else .running) + (if w.kicked = true then 5 else 0) <
        Place.rank w.place + (if w.kicked = true then 5 else 0)
      rw [hp]
      have : Place.rank (if w.stopping = true then Place.exited else .running) < Place.rank .woken := by split <;> decide
      omega
    · intro hst
      refine Or.inr (Or.inr ?_)
      show (if w.stopping = true then Place.exited else .running) = .running
      rw [if_neg]
      intro hh
      exact ht.quiet (Or.inl (ending_finishing (ht.stopping hh))) hst
  | running =>
    rw [hp] at hs
    simp only at hs
    have hst := hw.running hp
    have hrank : ∀ (s : Status) (rs : List R), ({ w with results := rs, status := s, place := .signalling } : Worker B R).rank < w.rank := by
      intro s rs
      show Place.rank .signalling + (if w.kicked = true then 5 else 0) < Place.rank w.place + (if w.kicked = true then 5 else 0)
      rw [hp]
      have : Place.rank .signalling < Place.rank .running := by decide
      omega
    split at hs
    · cases hs
    · split at hs
      · cases hs
      · split at hs
        · cases hs; exact Or.inl (key _ rfl rfl (fun _ => hst) (hrank _ _) (fun hh => by cases hh))
        · split at hs
          · cases hs; exact Or.inl (key _ rfl rfl (fun _ => hst) (hrank _ _) (fun hh => by cases hh))
          · cases hs; exact Or.inl (key _ rfl rfl (fun _ => hst) (hrank _ _) (fun hh => by cases hh))
  | signalling =>
    rw [hp] at hs
    simp only at hs
    split at hs
    · cases hs
    · split at hs
      · next hcomp =>
        cases hs
        have hid := ht.id hlt
        refine Or.inl (key _ rfl ?_ (fun e => e) ?_ ?_)
        · show (f.queue ++ [(i, w.batchId)]).length + (f.batchId - (f.completed + 1)) = f.queue.length + (f.batchId - f.completed)
          rw [List.length_append, List.length_singleton]
          omega
        · show Place.rank .resetting + (if w.kicked = true then 5 else 0) < Place.rank w.place + (if w.kicked = true then 5 else 0)
          rw [hp]
          have : Place.rank .resetting < Place.rank .signalling := by decide
          omega
        · intro hst
          exact absurd hst (hw.signalling hp).2
      · next hcomp =>
        cases hs
        refine Or.inr ⟨rfl, ?_⟩
        rintro (e | e | e | ⟨e, -⟩ | ⟨-, e⟩)
        · rw [hp] at e; cases e
        · rw [hp] at e; cases e
        · rw [hp] at e; cases e
        · rw [hp] at e; cases e
        · exact hcomp e
  | resetting =>
    rw [hp] at hs
    simp only at hs
    split at hs
    · cases hs
    · cases hs
      refine Or.inl (key _ rfl rfl (fun e => e) ?_ ?_)
      · show Place.rank .waiting + (if w.kicked = true then 5 else 0) < Place.rank w.place + (if w.kicked = true then 5 else 0)
        rw [hp]
        have : Place.rank .waiting < Place.rank .resetting := by decide
        omega
      · intro hst
        rcases (ht.working hst).2 with e | e | e | e <;> (rw [hp] at e; cases e)
  | exited =>
    rw [hp] at hs
    cases hs
    refine Or.inr ⟨rfl, ?_⟩
    rintro (e | e | e | ⟨e, -⟩ | ⟨e, -⟩) <;> (rw [hp] at e; cases e)

/-- If nobody works and no thread can take a step, nobody waits for their turn. -/
theorem Good.no_signalling {f : Farm B R} (h : Good recover items n f) (hb : f.busy = false)
    (hen : ∀ (i : Nat) (w : Worker B R), f.workers[i]? = some w → ¬ Enabled f w) {i : Nat} {w : Worker B R}
    (hi : f.workers[i]? = some w) : w.place ≠ .signalling := by
  intro hp
  have hlen := h.orderly.dispatched_length h.going.dispatched
  have hlt : i < f.batchId := by rw [← hlen]; exact (List.getElem?_eq_some_iff.mp hi).1
  have hle := ((h.orderly.worker i w hi).before hlt).mpr (Or.inr hp)
  have hc : f.completed < f.workers.length := by omega
  have hg := List.getElem?_eq_getElem hc
  have ht := h.orderly.worker _ _ hg
  rcases (ht.before (by omega)).mp (Nat.le_refl _) with e | e
  · rw [busy_iff.mpr ⟨_, _, hg, e⟩] at hb
    cases hb
  · exact hen _ _ hg (Or.inr (Or.inr (Or.inr (Or.inr ⟨e, (ht.id (by omega)).symm⟩))))

/-- Nothing has changed but the worker that `wait_workers_completion` looks at, and it will not find that all are finished. -/
def Same (f g : Farm B R) : Prop :=
  g = f ∨ (f.busy = true ∧ ∃ i j, f.point = .wait i ∧ g = { f with point := .wait j })

theorem Same.rank {f g : Farm B R} (h : Same f g) : g.rank = f.rank := by
  rcases h with rfl | ⟨hb, i, j, hp, rfl⟩
  · rfl
  · have e : ({ f with point := .wait j } : Farm B R).mainRank = f.mainRank := by
      unfold Farm.mainRank
      rw [hp]
      show 8 * f.workers.length + 4 + 2 * f.left + (if f.busy = true then f.workers.length else f.workers.length - j) = _
      simp only [if_pos hb]
    show (f.workers.map Worker.rank).sum + _ = _ + _
    rw [e]

theorem Same.trans {f g h : Farm B R} (h1 : Same f g) (h2 : Same g h) : Same f h := by
  rcases h1 with rfl | ⟨hb, i, j, hp, rfl⟩
  · exact h2
  · rcases h2 with rfl | ⟨-, i', j', -, rfl⟩
    · exact Or.inr ⟨hb, i, j, hp, rfl⟩
    · exact Or.inr ⟨hb, i, j', hp, rfl⟩

theorem good_main {f : Farm B R} (hn : 1 ≤ n) (hc : Calm recover items) (h : Good recover items n f) :
    ∃ g, mainStep true f = .ok g ∧ Good recover items n g ∧ (g.rank < f.rank ∨ Same f g) ∧ (f.point = .done → g.point = .done) ∧
      (f.busy = false → (∀ (i : Nat) (w : Worker B R), f.workers[i]? = some w → ¬ Enabled f w) → f.point ≠ .done →
        g.rank < f.rank) := by
  obtain ⟨g, hs, ho⟩ := orderly_main hn hc h.inv h.orderly
  have hi' : Inv recover items g := inv_mainStep h.inv hs
  have ho' : g.point.Dispatched → Orderly items n g := by
    intro hd
    rcases ho with ho | ⟨j, hdo, -⟩
    · exact ho
    · exfalso
      rcases hdo.point with ⟨hp | ⟨i, id, hp⟩, -⟩ | ⟨i, -, hp | hp | hp⟩ <;> (rw [hp] at hd; exact hd.elim)
  clear ho
  have hlen := h.orderly.dispatched_length h.going.dispatched
  have hns : ¬ f.stopped = true := by
    unfold Farm.stopped; rw [h.orderly.shouldStop, h.orderly.interrupted]; decide
  refine ⟨g, hs, ?_⟩
  -- the same workers
  have same : ∀ p : Point, g.workers = f.workers → g.point = p → p.Dispatched → (∀ i, p ≠ .join i) → Good recover items n g := by
    intro p h1 h2 h3 h4
    refine ⟨hi', ho' (by rw [h2]; exact h3), ⟨?_, ?_⟩, ⟨by rw [h2]; exact h3, ?_⟩⟩
    · intro i w hi; rw [h1] at hi; exact h.live.kick i w hi
    · intro i hi; rw [h2] at hi; exact absurd hi (h4 i)
    · intro i w hi; rw [h1] at hi; exact h.going.kicked i w hi
  have less : g.workers = f.workers → g.mainRank < f.mainRank → g.rank < f.rank := by
    intro h1 h2
    unfold Farm.rank
    rw [h1]
    omega
  have hd := h.going.dispatched
  unfold mainStep at hs
  cases hp : f.point with
  | next => rw [hp] at hd; exact hd.elim
  | findIdle => rw [hp] at hd; exact hd.elim
  | findReady i => rw [hp] at hd; exact hd.elim
  | grow => rw [hp] at hd; exact hd.elim
  | destroy i => rw [hp] at hd; exact hd.elim
  | destroyStop i => rw [hp] at hd; exact hd.elim
  | destroyJoin i => rw [hp] at hd; exact hd.elim
  | thrown => rw [hp] at hd; exact hd.elim
  | done =>
    rw [hp] at hs
    cases hs
    exact ⟨h, Or.inr (Or.inl rfl), fun _ => hp, fun _ _ hh => absurd rfl hh⟩
  | load =>
    rw [hp] at hs
    cases hs
    have hlt : Farm.rank _ < f.rank := less rfl (by
      unfold Farm.mainRank
      rw [hp]
      show 8 * (f.workers.length - 0) + 1 < 8 * f.workers.length + 2
      omega)
    exact ⟨same _ rfl rfl trivial (fun i hh => by cases hh), Or.inl hlt, (fun hh => by cases hh), fun _ _ _ => hlt⟩
  | collect c =>
    cases c with
    | dispatch => rw [hp] at hd; exact hd.elim
    | finish =>
      rw [hp] at hs
      simp only at hs
      split at hs
      · cases hs
        have hlt : Farm.rank (collectedAll f .finish true) < f.rank := less rfl (by
          unfold Farm.mainRank
          rw [hp]
          show 8 * f.workers.length + 2 < 8 * f.workers.length + 3 + 2 * f.left
          omega)
        exact ⟨same .load rfl rfl trivial (fun i hh => by cases hh), Or.inl hlt, (fun hh => by cases hh), fun _ _ _ => hlt⟩
      · next x rest hq =>
        cases hs
        have hlt : Farm.rank { f with queue := rest, point := .pull .finish x.1 x.2 } < f.rank := less rfl (by
          unfold Farm.mainRank
          rw [hp]
          show 8 * f.workers.length + 4 + 2 * (rest.length + (f.batchId - f.completed)) <
            8 * f.workers.length + 3 + 2 * (f.queue.length + (f.batchId - f.completed))
          rw [hq, List.length_cons]
          omega)
        exact ⟨same _ rfl rfl trivial (fun i hh => by cases hh), Or.inl hlt, (fun hh => by cases hh), fun _ _ _ => hlt⟩
  | pull c i id =>
    cases c with
    | dispatch => rw [hp] at hd; exact hd.elim
    | finish =>
      obtain ⟨w, hi, -, hov, hns'⟩ := h.inv.entry (i, id) (by unfold Farm.pulled; rw [hp]; exact List.mem_cons_self)
      change f.workers[i]? = some w at hi
      have ht := h.orderly.worker i w hi
      have hready : w.status = .ready := by
        cases hst : w.status with
        | idle => exact absurd hst hov.1
        | working => exact absurd hst hov.2
        | error => exact absurd hst ht.noError.1
        | aborted => exact absurd hst ht.noError.2
        | ready => rfl
      rw [hp] at hs
      simp only [hi, hready] at hs
      have hns2 : ¬ ({ f.setWorker i { w with status := .idle, results := [] } with collected := f.collected ++ w.results } :
          Farm B R).stopped = true := hns
      rw [if_neg hns2] at hs
      cases hs
      have hsum := sum_set Worker.rank ({ w with status := .idle, results := [] } : Worker B R) hi
      have hr : ({ w with status := .idle, results := [] } : Worker B R).rank = w.rank := rfl
      have hlt : Farm.rank { f.setWorker i { w with status := .idle, results := [] } with
          collected := f.collected ++ w.results, point := .collect .finish } < f.rank := by
        unfold Farm.rank
        have e : f.mainRank = 8 * f.workers.length + 4 + 2 * f.left := by unfold Farm.mainRank; rw [hp]
        rw [e]
        show ((f.workers.set i _).map Worker.rank).sum + (8 * (f.workers.set i _).length + 3 + 2 * f.left) < _
        rw [List.length_set]
        omega
      refine ⟨⟨hi', ho' trivial, ⟨?_, (fun k hh => by cases hh)⟩, ⟨trivial, ?_⟩⟩, Or.inl hlt, (fun hh => by cases hh), fun _ _ _ => hlt⟩
      · intro k x hx hst
        rcases get_set hi hx with ⟨-, rfl⟩ | ⟨-, hx⟩
        · exact h.live.kick i w hi hst
        · exact h.live.kick k x hx hst
      · intro k x hx
        rcases get_set hi hx with ⟨-, rfl⟩ | ⟨-, hx⟩
        · exact fun hh => by cases hh
        · exact h.going.kicked k x hx
  | wait i =>
    rw [hp] at hs
    simp only at hs
    have hmf : f.mainRank = 8 * f.workers.length + 4 + 2 * f.left +
      (if f.busy = true then f.workers.length else f.workers.length - i) := by unfold Farm.mainRank; rw [hp]
    cases hi : f.workers[i]? with
    | none =>
      rw [hi] at hs
      cases hs
      have hge := List.getElem?_eq_none_iff.mp hi
      have hlt : Farm.rank { f with point := .collect .finish } < f.rank := less rfl (by
        rw [hmf]
        show 8 * f.workers.length + 3 + 2 * f.left < _
        omega)
      exact ⟨same _ rfl rfl trivial (fun i hh => by cases hh), Or.inl hlt, (fun hh => by cases hh), fun _ _ _ => hlt⟩
    | some w =>
      have hilt := (List.getElem?_eq_some_iff.mp hi).1
      rw [hi] at hs
      simp only at hs
      split at hs
      · next hst =>
        cases hs
        have hb : f.busy = true := busy_iff.mpr ⟨i, w, hi, hst⟩
        exact ⟨same _ rfl rfl trivial (fun i hh => by cases hh), Or.inr (Or.inr ⟨hb, i, 0, hp, rfl⟩), (fun hh => by cases hh),
          fun hh => by rw [hb] at hh; cases hh⟩
      · cases hs
        refine ⟨same _ rfl rfl trivial (fun i hh => by cases hh), ?_, (fun hh => by cases hh), ?_⟩
        · cases hb : f.busy with
          | true => exact Or.inr (Or.inr ⟨hb, i, i + 1, hp, rfl⟩)
          | false =>
            refine Or.inl (less rfl ?_)
            rw [hmf, hb]
            show 8 * f.workers.length + 4 + 2 * f.left + (if f.busy = true then f.workers.length else f.workers.length - (i + 1)) < _
            rw [hb, if_neg (by decide), if_neg (by decide)]
            omega
        · intro hb _ _
          refine less rfl ?_
          rw [hmf, hb]
          show 8 * f.workers.length + 4 + 2 * f.left + (if f.busy = true then f.workers.length else f.workers.length - (i + 1)) < _
          rw [hb, if_neg (by decide), if_neg (by decide)]
          omega
  | stop i =>
    rw [hp] at hs
    simp only at hs
    have hmf : f.mainRank = 8 * (f.workers.length - i) + 1 := by unfold Farm.mainRank; rw [hp]
    cases hi : f.workers[i]? with
    | none =>
      rw [hi] at hs
      cases hs
      have hlt : Farm.rank { f with point := .done } < f.rank := less rfl (by
        rw [hmf]
        show 0 < _
        omega)
      exact ⟨same _ rfl rfl trivial (fun i hh => by cases hh), Or.inl hlt, fun _ => rfl, fun _ _ _ => hlt⟩
    | some w =>
      have hilt := (List.getElem?_eq_some_iff.mp hi).1
      have ht := h.orderly.worker i w hi
      rw [hi] at hs
      simp only at hs
      by_cases hex : w.place = .exited
      · rw [if_pos hex] at hs
        cases hs
        have hlt : Farm.rank { f with point := .join i } < f.rank := less rfl (by
          rw [hmf]
          show 8 * (f.workers.length - i) - 6 < _
          omega)
        refine ⟨⟨hi', ho' trivial, ⟨h.live.kick, ?_⟩, ⟨trivial, h.going.kicked⟩⟩, Or.inl hlt, (fun hh => by cases hh), fun _ _ _ => hlt⟩
        intro k hk
        cases hk
        exact ⟨w, hi, ht.exited hex⟩
      · rw [if_neg hex] at hs
        cases hs
        have hsum := sum_set Worker.rank ({ w with stopping := true, kicked := true } : Worker B R) hi
        have hr : ({ w with stopping := true, kicked := true } : Worker B R).rank ≤ w.rank + 5 := by
          show w.place.rank + 5 ≤ w.place.rank + _ + 5
          omega
        have hlt : Farm.rank { f.setWorker i { w with stopping := true, kicked := true } with point := .join i } < f.rank := by
          unfold Farm.rank
          rw [hmf]
          show ((f.workers.set i _).map Worker.rank).sum + (8 * ((f.workers.set i _).length - i) - 6) < _
          rw [List.length_set]
          omega
        have hq := ht.quiet (Or.inl (by rw [hp]; trivial))
        refine ⟨⟨hi', ho' trivial, ⟨?_, ?_⟩, ⟨trivial, ?_⟩⟩, Or.inl hlt, (fun hh => by cases hh), fun _ _ _ => hlt⟩
        · intro k x hx hst
          rcases get_set hi hx with ⟨-, rfl⟩ | ⟨-, hx⟩
          · exact Or.inl rfl
          · exact h.live.kick k x hx hst
        · intro k hk
          cases hk
          exact ⟨_, set_self _ hi, rfl⟩
        · intro k x hx
          rcases get_set hi hx with ⟨-, rfl⟩ | ⟨-, hx⟩
          · exact fun hh => absurd hh hq
          · exact h.going.kicked k x hx
  | join i =>
    rw [hp] at hs
    obtain ⟨w, hi, hst⟩ := h.live.joined i hp
    have hilt := (List.getElem?_eq_some_iff.mp hi).1
    have hmf : f.mainRank = 8 * (f.workers.length - i) - 6 := by unfold Farm.mainRank; rw [hp]
    simp only [hi] at hs
    split at hs
    · cases hs
      have hlt : Farm.rank { f with point := .stop (i + 1) } < f.rank := less rfl (by
        rw [hmf]
        show 8 * (f.workers.length - (i + 1)) + 1 < _
        omega)
      exact ⟨same _ rfl rfl trivial (fun i hh => by cases hh), Or.inl hlt, (fun hh => by cases hh), fun _ _ _ => hlt⟩
    · next hex =>
      cases hs
      refine ⟨h, Or.inr (Or.inl rfl), (fun hh => by cases hh), ?_⟩
      intro hb hen _
      exfalso
      have hr := h.orderly.stopping_rests h.inv hi hst
      have hno := hen i w hi
      have ht := h.orderly.worker i w hi
      rcases h.live.kick i w hi hst with e | e | e
      · cases hpl : w.place with
        | clearing => exact hr.clearing hpl
        | waiting => exact hno (Or.inr (Or.inr (Or.inr (Or.inl ⟨hpl, e⟩))))
        | woken => exact hno (Or.inl hpl)
        | running => exact hr.running hpl
        | signalling =>
          exact h.no_signalling hb hen hi hpl
        | resetting => exact hno (Or.inr (Or.inr (Or.inl hpl)))
        | exited => exact hex hpl
      · exact hno (Or.inl e)
      · exact hex e

/-! ## Every state that can be reached -/

theorem live_of {f : Farm B R} (h : Orderly items n f) (he : ¬ f.point.Ending) : Live f where
  kick i w hi hst := absurd ((h.worker i w hi).stopping hst) he
  joined i hi := absurd (by rw [hi]; trivial) he

theorem going_of {f : Farm B R} (h : Orderly items n f) (he : f.point.Finishing) : Going f where
  dispatched := by cases hq : f.point <;> rw [hq] at he <;> first | exact he.elim | exact he
  kicked i w hi hst := absurd hst ((h.worker i w hi).quiet (Or.inl he))

theorem not_ending_main {f g : Farm B R} (hf : ¬ f.point.Finishing) (hs : mainStep true f = .ok g) : ¬ g.point.Ending := by
  unfold mainStep at hs
  cases hp : f.point with
  | load => rw [hp] at hf; exact absurd trivial hf
  | stop i => rw [hp] at hf; exact absurd trivial hf
  | join i => rw [hp] at hf; exact absurd trivial hf
  | done => rw [hp] at hf; exact absurd trivial hf
  | next =>
    rw [hp] at hs
    simp only at hs
    split at hs
    · cases hs; exact fun h => h.elim
    · split at hs
      · cases hs; exact fun h => h.elim
      · cases hs; exact fun h => h.elim
      · split at hs
        · simp only [if_true] at hs
          cases hs; exact fun h => h.elim
        · cases hs; exact fun h => h.elim
  | findIdle =>
    rw [hp] at hs
    simp only at hs
    split at hs
    · split at hs
      · cases hs
        simp only
        split <;> exact fun h => h.elim
      · cases hs; exact fun h => h.elim
    · cases hs
  | findReady i =>
    rw [hp] at hs
    simp only at hs
    split at hs
    · cases hs; exact fun h => h.elim
    · split at hs <;> (cases hs; exact fun h => h.elim)
  | grow =>
    rw [hp] at hs
    simp only [if_true] at hs
    split at hs <;> (cases hs; exact fun h => h.elim)
  | collect c =>
    cases c with
    | finish => rw [hp] at hf; exact absurd trivial hf
    | dispatch =>
      rw [hp] at hs
      simp only at hs
      split at hs <;> (cases hs; exact fun h => h.elim)
  | pull c i id =>
    cases c with
    | finish => rw [hp] at hf; exact absurd trivial hf
    | dispatch =>
      rw [hp] at hs
      simp only at hs
      split at hs
      · cases hs
      · split at hs
        · cases hs; exact fun h => h.elim
        · cases hs; exact fun h => h.elim
        · split at hs <;> (cases hs; exact fun h => h.elim)
        · split at hs <;> (cases hs; exact fun h => h.elim)
        · split at hs <;> (cases hs; exact fun h => h.elim)
  | wait i =>
    rw [hp] at hs
    simp only at hs
    split at hs
    · cases hs; exact fun h => h.elim
    · split at hs <;> (cases hs; exact fun h => h.elim)
  | destroy i =>
    rw [hp] at hs
    simp only at hs
    split at hs <;> (cases hs; exact fun h => h.elim)
  | destroyStop i =>
    rw [hp] at hs
    simp only at hs
    split at hs
    · cases hs
    · split at hs
      · cases hs
      · cases hs; exact fun h => h.elim
  | destroyJoin i =>
    rw [hp] at hs
    simp only at hs
    split at hs
    · cases hs
    · split at hs
      · cases hs; exact fun h => h.elim
      · cases hs; rw [hp]; exact fun h => h.elim
  | thrown => rw [hp] at hs; cases hs; rw [hp]; exact fun h => h.elim

theorem live_step {f g : Farm B R} (hn : 1 ≤ n) (hc : Calm recover items) (hinv : Inv recover items f) (h : Orderly items n f)
    (hl : Live f) {a : Actor} (ha : a.Calm) (hs : step recover f a = .ok g) (hg : Orderly items n g) : Live g := by
  cases a with
  | mainNoMemory => exact ha.elim
  | user => exact ha.elim
  | worker i =>
    simp only [step] at hs
    split at hs
    · cases hs; exact hl
    · next w hi => exact live_worker hinv h hl hi hs
  | main =>
    by_cases hf : f.point.Finishing
    · obtain ⟨g', h1, h2, -⟩ := good_main hn hc ⟨hinv, h, hl, going_of h hf⟩
      change mainStep true f = .ok g at hs
      rw [hs] at h1
      cases h1
      exact h2.live
    · exact live_of hg (not_ending_main hf hs)

/-- Every schedule without interrupts: either everything is in order, or results were pulled too early. -/
theorem calm_run {as : List Actor} (hn : 1 ≤ n) (hc : Calm recover items) (ha : ∀ a ∈ as, a.Calm) :
    (∃ g, run recover as (start n items) = .ok g ∧ Inv recover items g ∧ Orderly items n g ∧ Live g) ∨
      ∃ bs cs g, as = bs ++ cs ∧ run recover bs (start n items) = .ok g ∧ Inv recover items g ∧ Early g := by
  have key : ∀ (as : List Actor) (f : Farm B R), Inv recover items f → Orderly items n f → Live f → (∀ a ∈ as, a.Calm) →
      (∃ g, run recover as f = .ok g ∧ Inv recover items g ∧ Orderly items n g ∧ Live g) ∨
      ∃ bs cs g, as = bs ++ cs ∧ run recover bs f = .ok g ∧ Inv recover items g ∧ Early g := by
    intro as
    induction as with
    | nil => exact fun f h1 h2 h3 _ => Or.inl ⟨f, rfl, h1, h2, h3⟩
    | cons a as ih =>
      intro f hinv h hl ha
      have haa := ha a List.mem_cons_self
      obtain ⟨g, h1, h2⟩ := orderly_step hn hc hinv h haa
      have hi := inv_step a hinv h1
      rcases h2 with h2 | h2
      · rcases ih g hi h2 (live_step hn hc hinv h hl haa h1 h2) (fun a h => ha a (List.mem_cons_of_mem _ h)) with
          ⟨g', e, r⟩ | ⟨bs, cs, g', e, e2, r⟩
        · exact Or.inl ⟨g', by rw [run, h1]; exact e, r⟩
        · exact Or.inr ⟨a :: bs, cs, g', by rw [e]; rfl, by rw [run, h1]; exact e2, r⟩
      · exact Or.inr ⟨[a], as, g, rfl, by rw [run, h1]; rfl, hi, h2⟩
  exact key as _ (inv_start n) orderly_start live_start ha

/-! ## The end -/

theorem good_step {f : Farm B R} (hn : 1 ≤ n) (hc : Calm recover items) (h : Good recover items n f) {a : Actor} (ha : a.Calm) :
    ∃ g, step recover f a = .ok g ∧ Good recover items n g ∧ (g.rank < f.rank ∨ Same f g) ∧ (f.point = .done → g.point = .done) := by
  cases a with
  | mainNoMemory => exact ha.elim
  | user => exact ha.elim
  | main =>
    obtain ⟨g, h1, h2, h3, h4, -⟩ := good_main hn hc h
    exact ⟨g, h1, h2, h3, h4⟩
  | worker i =>
    simp only [step]
    cases hi : f.workers[i]? with
    | none => exact ⟨f, rfl, h, Or.inr (Or.inl rfl), fun e => e⟩
    | some w =>
      obtain ⟨g, h1, h2, h3, h4⟩ := good_worker hc h hi
      refine ⟨g, h1, h2, ?_, fun e => h3.trans e⟩
      rcases h4 with h4 | ⟨h4, -⟩
      · exact Or.inl h4
      · exact Or.inr (Or.inl h4)

theorem good_run {f : Farm B R} (hn : 1 ≤ n) (hc : Calm recover items) (h : Good recover items n f) {as : List Actor}
    (ha : ∀ a ∈ as, a.Calm) :
    ∃ g, run recover as f = .ok g ∧ Good recover items n g ∧ (g.rank < f.rank ∨ Same f g) ∧ (f.point = .done → g.point = .done) := by
  induction as generalizing f with
  | nil => exact ⟨f, rfl, h, Or.inr (Or.inl rfl), fun e => e⟩
  | cons a as ih =>
    obtain ⟨g, h1, h2, h3, h4⟩ := good_step hn hc h (ha a List.mem_cons_self)
    obtain ⟨k, k1, k2, k3, k4⟩ := ih h2 (fun a h => ha a (List.mem_cons_of_mem _ h))
    refine ⟨k, by rw [run, h1]; exact k1, k2, ?_, fun e => k4 (h4 e)⟩
    rcases h3 with h3 | h3
    · rcases k3 with k3 | k3
      · exact Or.inl (Nat.lt_trans k3 h3)
      · exact Or.inl (by rw [k3.rank]; exact h3)
    · rcases k3 with k3 | k3
      · exact Or.inl (by rw [← h3.rank]; exact k3)
      · exact Or.inr (h3.trans k3)

/-- There is a thread that can go on, and nothing the others do changes that. -/
theorem helpful {f : Farm B R} (hn : 1 ≤ n) (hc : Calm recover items) (h : Good recover items n f) (hd : f.point ≠ .done) :
    ∃ a, (a = .main ∨ ∃ i, i < n ∧ a = .worker i) ∧
      ∀ g, Good recover items n g → Same f g → ∃ k, step recover g a = .ok k ∧ Good recover items n k ∧ k.rank < f.rank := by
  by_cases hen : ∃ (i : Nat) (w : Worker B R), f.workers[i]? = some w ∧ Enabled f w
  · obtain ⟨i, w, hi, hen⟩ := hen
    have hin : i < n := Nat.lt_of_lt_of_le (List.getElem?_eq_some_iff.mp hi).1 h.orderly.upper
    refine ⟨.worker i, Or.inr ⟨i, hin, rfl⟩, ?_⟩
    intro g hg hs
    have hgi : g.workers[i]? = some w ∧ Enabled g w := by
      rcases hs with rfl | ⟨-, _, _, -, rfl⟩
      · exact ⟨hi, hen⟩
      · exact ⟨hi, hen⟩
    obtain ⟨k, h1, h2, -, h4⟩ := good_worker hc hg hgi.1
    refine ⟨k, by simp only [step, hgi.1]; exact h1, h2, ?_⟩
    rcases h4 with h4 | ⟨-, h4⟩
    · rw [← hs.rank]; exact h4
    · exact absurd hgi.2 h4
  · have hen' : ∀ (i : Nat) (w : Worker B R), f.workers[i]? = some w → ¬ Enabled f w := fun i w hi he => hen ⟨i, w, hi, he⟩
    have hb : f.busy = false := by
      cases hb : f.busy with
      | false => rfl
      | true =>
        obtain ⟨i, w, hi, hst⟩ := busy_iff.mp hb
        exfalso
        rcases h.going.kicked i w hi hst with e | e | e
        · exact hen' i w hi (Or.inr (Or.inr (Or.inr (Or.inl e))))
        · exact hen' i w hi (Or.inl e)
        · exact hen' i w hi (Or.inr (Or.inl e))
    refine ⟨.main, Or.inl rfl, ?_⟩
    intro g hg hs
    rcases hs with rfl | ⟨hbb, -⟩
    · obtain ⟨k, h1, h2, -, -, h5⟩ := good_main hn hc h
      exact ⟨k, h1, h2, h5 hb hen' hd⟩
    · rw [hb] at hbb
      cases hbb

/-- In a round every thread gets its turn, in any order and as often as it may be. -/
def Round (n : Nat) (as : List Actor) : Prop :=
  (∀ a ∈ as, a.Calm) ∧ Actor.main ∈ as ∧ ∀ i < n, Actor.worker i ∈ as

theorem good_round {f : Farm B R} (hn : 1 ≤ n) (hc : Calm recover items) (h : Good recover items n f) {as : List Actor}
    (ha : Round n as) : ∃ g, run recover as f = .ok g ∧ Good recover items n g ∧ (g.rank < f.rank ∨ g.point = .done) := by
  by_cases hd : f.point = .done
  · obtain ⟨g, h1, h2, -, h4⟩ := good_run hn hc h ha.1
    exact ⟨g, h1, h2, Or.inr (h4 hd)⟩
  obtain ⟨a, hmem, hstep⟩ := helpful hn hc h hd
  have hin : a ∈ as := by
    rcases hmem with rfl | ⟨i, hi, rfl⟩
    · exact ha.2.1
    · exact ha.2.2 i hi
  obtain ⟨bs, cs, rfl⟩ := List.append_of_mem hin
  obtain ⟨g, h1, h2, h3, h4⟩ := good_run hn hc h (as := bs) (fun x hx => ha.1 x (List.mem_append_left _ hx))
  have hcs : ∀ x ∈ cs, x.Calm := fun x hx => ha.1 x (List.mem_append_right _ (List.mem_cons_of_mem _ hx))
  have haa : a.Calm := ha.1 a (List.mem_append_right _ List.mem_cons_self)
  have fin : ∀ k, Good recover items n k → k.rank < f.rank → run recover (bs ++ a :: cs) f = run recover cs k →
      ∃ g, run recover (bs ++ a :: cs) f = .ok g ∧ Good recover items n g ∧ (g.rank < f.rank ∨ g.point = .done) := by
    intro k hk hlt hrun
    obtain ⟨m, m1, m2, m3, -⟩ := good_run hn hc hk hcs
    refine ⟨m, by rw [hrun]; exact m1, m2, Or.inl ?_⟩
    rcases m3 with m3 | m3
    · exact Nat.lt_trans m3 hlt
    · rw [m3.rank]; exact hlt
  rcases h3 with h3 | h3
  · obtain ⟨k, k1, k2, k3, -⟩ := good_step hn hc h2 haa
    refine fin k k2 ?_ (by rw [run_append, h1]; simp only [run, k1])
    rcases k3 with k3 | k3
    · exact Nat.lt_trans k3 h3
    · rw [k3.rank]; exact h3
  · obtain ⟨k, k1, k2, k3⟩ := hstep g h2 h3
    exact fin k k2 k3 (by rw [run_append, h1]; simp only [run, k1])

theorem good_rounds {f : Farm B R} (hn : 1 ≤ n) (hc : Calm recover items) (h : Good recover items n f) {rounds : List (List Actor)}
    (hr : ∀ as ∈ rounds, Round n as) (hl : f.rank < rounds.length) :
    ∃ g, run recover rounds.flatten f = .ok g ∧ Good recover items n g ∧ g.point = .done := by
  induction rounds generalizing f with
  | nil => exact absurd hl (Nat.not_lt_zero _)
  | cons as rounds ih =>
    obtain ⟨g, h1, h2, h3⟩ := good_round hn hc h (hr as List.mem_cons_self)
    have hr' := fun bs hb => hr bs (List.mem_cons_of_mem _ hb)
    rw [List.flatten_cons, run_append, h1]
    rcases h3 with h3 | h3
    · simp only [List.length_cons] at hl
      exact ih h2 hr' (by omega)
    · obtain ⟨k, k1, k2, -, k4⟩ := good_run hn hc h2 (as := rounds.flatten) (fun a ha => by
        obtain ⟨bs, hb, hab⟩ := List.mem_flatten.mp ha
        exact (hr' bs hb).1 a hab)
      exact ⟨k, k1, k2, k4 h3⟩

/-- The measure is small. -/
theorem Good.rank_le {f : Farm B R} (h : Good recover items n f) : f.rank ≤ 20 * n + 4 := by
  have hlen := h.orderly.dispatched_length h.going.dispatched
  have hup := h.orderly.upper
  have hsum : (f.workers.map Worker.rank).sum ≤ 9 * f.workers.length := by
    have : ∀ ws : List (Worker B R), (ws.map Worker.rank).sum ≤ 9 * ws.length := by
      intro ws
      induction ws with
      | nil => exact Nat.le_refl _
      | cons w ws ih =>
        have : w.rank ≤ 9 := by
          unfold Worker.rank
          cases w.place <;> cases w.kicked <;> decide
        simp only [List.map_cons, List.sum_cons, List.length_cons]
        omega
    exact this _
  have hleft : f.left ≤ f.workers.length := by
    obtain ⟨c, -, hc, -⟩ := h.inv.order
    have := h.inv.completed
    rw [List.length_append] at hc
    unfold Farm.left
    omega
  have hmain : f.mainRank ≤ 11 * f.workers.length + 4 := by
    unfold Farm.mainRank
    split <;> try omega
    split <;> omega
  unfold Farm.rank
  omega

/-! ## Everything is collected -/

/-- All batches were signalled, and once all are looked at, all their results are there. -/
structure Full (recover : B → Option (List R)) (items : List (Option B)) (f : Farm B R) : Prop where
  completed : f.completed = items.length
  collected : f.point = .load ∨ f.point.Ending → f.collected = firstResults recover items items.length
  loaded : f.point.Ending → f.loaded = !f.collected.isEmpty

theorem full_worker {f g : Farm B R} (hinv : Inv recover items f) (h : Full recover items f) {i : Nat} {w : Worker B R}
    (hi : f.workers[i]? = some w) (hs : workerStep recover f i w = .ok g) : Full recover items g := by
  have hg := inv_workerStep hinv hi hs
  have hle := Nat.le_trans hg.completed hg.bound
  have key : g.completed = f.completed ∨ g.completed = f.completed + 1 := by
    unfold workerStep at hs
    split at hs
    · cases hs; exact Or.inl rfl
    · split at hs <;> (cases hs; exact Or.inl rfl)
    · cases hs; exact Or.inl rfl
    · split at hs
      · cases hs
      · split at hs
        · cases hs
        · split at hs
          · cases hs; exact Or.inl rfl
          · split at hs <;> (cases hs; exact Or.inl rfl)
    · split at hs
      · cases hs
      · split at hs
        · cases hs; exact Or.inr rfl
        · cases hs; exact Or.inl rfl
    · split at hs
      · cases hs
      · cases hs; exact Or.inl rfl
    · cases hs; exact Or.inl rfl
  have rest : g.point = f.point ∧ g.collected = f.collected ∧ g.loaded = f.loaded := by
    unfold workerStep at hs
    split at hs
    · cases hs; exact ⟨rfl, rfl, rfl⟩
    · split at hs <;> (cases hs; exact ⟨rfl, rfl, rfl⟩)
    · cases hs; exact ⟨rfl, rfl, rfl⟩
    · split at hs
      · cases hs
      · split at hs
        · cases hs
        · split at hs
          · cases hs; exact ⟨rfl, rfl, rfl⟩
          · split at hs <;> (cases hs; exact ⟨rfl, rfl, rfl⟩)
    · split at hs
      · cases hs
      · split at hs <;> (cases hs; exact ⟨rfl, rfl, rfl⟩)
    · split at hs
      · cases hs
      · cases hs; exact ⟨rfl, rfl, rfl⟩
    · cases hs; exact ⟨rfl, rfl, rfl⟩
  obtain ⟨r1, r2, r3⟩ := rest
  have hc := h.completed
  refine ⟨by omega, ?_, ?_⟩
  · rw [r1, r2]; exact h.collected
  · rw [r1, r2, r3]; exact h.loaded

theorem full_main {f g : Farm B R} (hg : Good recover items n f) (h : Full recover items f) (hs : mainStep true f = .ok g) :
    Full recover items g := by
  have hns : ¬ f.stopped = true := by
    unfold Farm.stopped; rw [hg.orderly.shouldStop, hg.orderly.interrupted]; decide
  have hd := hg.going.dispatched
  unfold mainStep at hs
  cases hp : f.point with
  | next => rw [hp] at hd; exact hd.elim
  | findIdle => rw [hp] at hd; exact hd.elim
  | findReady i => rw [hp] at hd; exact hd.elim
  | grow => rw [hp] at hd; exact hd.elim
  | destroy i => rw [hp] at hd; exact hd.elim
  | destroyStop i => rw [hp] at hd; exact hd.elim
  | destroyJoin i => rw [hp] at hd; exact hd.elim
  | thrown => rw [hp] at hd; exact hd.elim
  | done => rw [hp] at hs; cases hs; exact h
  | load =>
    rw [hp] at hs
    cases hs
    refine ⟨h.completed, fun _ => h.collected (Or.inl hp), fun _ => ?_⟩
    show (!f.collected.isEmpty && !f.stopped) = _
    rw [Bool.eq_false_iff.mpr hns]
    exact Bool.and_true _
  | collect c =>
    cases c with
    | dispatch => rw [hp] at hd; exact hd.elim
    | finish =>
      rw [hp] at hs
      simp only at hs
      split at hs
      · next hq =>
        cases hs
        refine ⟨h.completed, fun _ => ?_, fun hh => hh.elim⟩
        obtain ⟨c, -, hc, hcol⟩ := hg.inv.order
        have hpull : f.pulled = [] := by unfold Farm.pulled; rw [hp]
        rw [hpull, hq] at hc
        have hcc : c = items.length := by
          have := h.completed
          simpa using hc.trans this
        subst hcc
        exact (hcol hg.orderly.shouldStop).1
      · cases hs
        exact ⟨h.completed, (fun hh => by rcases hh with hh | hh; cases hh; exact hh.elim), fun hh => hh.elim⟩
  | pull c i id =>
    cases c with
    | dispatch => rw [hp] at hd; exact hd.elim
    | finish =>
      obtain ⟨w, hi, -, hov, -⟩ := hg.inv.entry (i, id) (by unfold Farm.pulled; rw [hp]; exact List.mem_cons_self)
      change f.workers[i]? = some w at hi
      have ht := hg.orderly.worker i w hi
      have hready : w.status = .ready := by
        cases hst : w.status with
        | idle => exact absurd hst hov.1
        | working => exact absurd hst hov.2
        | error => exact absurd hst ht.noError.1
        | aborted => exact absurd hst ht.noError.2
        | ready => rfl
      rw [hp] at hs
      simp only [hi, hready] at hs
      have hns2 : ¬ ({ f.setWorker i { w with status := .idle, results := [] } with collected := f.collected ++ w.results } :
          Farm B R).stopped = true := hns
      rw [if_neg hns2] at hs
      cases hs
      exact ⟨h.completed, (fun hh => by rcases hh with hh | hh; cases hh; exact hh.elim), fun hh => hh.elim⟩
  | wait i =>
    rw [hp] at hs
    simp only at hs
    split at hs
    · cases hs; exact ⟨h.completed, (fun hh => by rcases hh with hh | hh; cases hh; exact hh.elim), fun hh => hh.elim⟩
    · split at hs <;>
        (cases hs; exact ⟨h.completed, (fun hh => by rcases hh with hh | hh; cases hh; exact hh.elim), fun hh => hh.elim⟩)
  | stop i =>
    have he : f.point.Ending := by rw [hp]; trivial
    rw [hp] at hs
    simp only at hs
    split at hs
    · cases hs; exact ⟨h.completed, fun _ => h.collected (Or.inr he), fun _ => h.loaded he⟩
    · cases hs
      split
      · exact ⟨h.completed, fun _ => h.collected (Or.inr he), fun _ => h.loaded he⟩
      · exact ⟨h.completed, fun _ => h.collected (Or.inr he), fun _ => h.loaded he⟩
  | join i =>
    have he : f.point.Ending := by rw [hp]; trivial
    rw [hp] at hs
    simp only at hs
    split at hs
    · cases hs
    · split at hs
      · cases hs; exact ⟨h.completed, fun _ => h.collected (Or.inr he), fun _ => h.loaded he⟩
      · cases hs; exact h

theorem full_run {f g : Farm B R} (hn : 1 ≤ n) (hc : Calm recover items) (hg : Good recover items n f) (h : Full recover items f)
    {as : List Actor} (ha : ∀ a ∈ as, a.Calm) (hs : run recover as f = .ok g) : Full recover items g := by
  refine (run_invariant (P := fun f => Good recover items n f ∧ Full recover items f) (Q := Actor.Calm) ?_ ha ⟨hg, h⟩ hs).2
  rintro f g a ⟨h1, h2⟩ ha hs
  obtain ⟨g', hs', h3, -⟩ := good_step hn hc h1 ha
  rw [hs] at hs'
  cases hs'
  refine ⟨h3, ?_⟩
  cases a with
  | mainNoMemory => exact ha.elim
  | user => exact ha.elim
  | main => exact full_main h1 h2 hs
  | worker i =>
    simp only [step] at hs
    split at hs
    · cases hs; exact h2
    · next w hi => exact full_worker h1.inv h2 hi hs

/-- The threads of the workers can all finish while the thread of `recover` waits. -/
theorem quiesce (hc : Calm recover items) : ∀ (r : Nat) (f : Farm B R), f.rank ≤ r → Good recover items n f →
    ∃ as g, (∀ a ∈ as, a.Calm) ∧ run recover as f = .ok g ∧ Good recover items n g ∧ g.point = f.point ∧ g.completed = items.length := by
  intro r
  induction r using Nat.strongRecOn with
  | ind r ih =>
  intro f hr h
  by_cases hen : ∃ (i : Nat) (w : Worker B R), f.workers[i]? = some w ∧ Enabled f w
  · obtain ⟨i, w, hi, hen⟩ := hen
    obtain ⟨g, h1, h2, h3, h4⟩ := good_worker hc h hi
    rcases h4 with h4 | ⟨-, h4⟩
    · obtain ⟨as, k, k0, k1, k2, k3, k4⟩ := ih g.rank (by omega) g (Nat.le_refl _) h2
      refine ⟨.worker i :: as, k, ?_, ?_, k2, k3.trans h3, k4⟩
      · intro a ha
        rcases List.mem_cons.mp ha with rfl | ha
        · trivial
        · exact k0 a ha
      · rw [run]
        simp only [step, hi, h1]
        exact k1
    · exact absurd hen h4
  · have hen' : ∀ (i : Nat) (w : Worker B R), f.workers[i]? = some w → ¬ Enabled f w := fun i w hi he => hen ⟨i, w, hi, he⟩
    have hnw : ∀ (i : Nat) (w : Worker B R), f.workers[i]? = some w → w.status ≠ .working := by
      intro i w hi hst
      rcases h.going.kicked i w hi hst with e | e | e
      · exact hen' i w hi (Or.inr (Or.inr (Or.inr (Or.inl e))))
      · exact hen' i w hi (Or.inl e)
      · exact hen' i w hi (Or.inr (Or.inl e))
    have hb : f.busy = false := by
      cases hb : f.busy with
      | false => rfl
      | true =>
        obtain ⟨i, w, hi, hst⟩ := busy_iff.mp hb
        exact absurd hst (hnw i w hi)
    refine ⟨[], f, (fun a ha => by cases ha), rfl, h, rfl, ?_⟩
    have hlen := h.orderly.dispatched_length h.going.dispatched
    have htodo := h.orderly.over h.going.dispatched
    rw [h.inv.todo, List.drop_eq_nil_iff] at htodo
    have h1 := h.inv.bound
    have h2 := h.inv.completed
    rcases Nat.lt_or_ge f.completed f.batchId with hlt | hge
    · exfalso
      have hc : f.completed < f.workers.length := by omega
      have hg := List.getElem?_eq_getElem hc
      rcases ((h.orderly.worker _ _ hg).before hlt).mp (Nat.le_refl _) with e | e
      · exact hnw _ _ hg e
      · exact h.no_signalling hb hen' hg e
    · omega

/-- A round. -/
def aRound (n : Nat) : List Actor := .main :: (List.range n).map .worker

theorem aRound_round : Round n (aRound n) := by
  refine ⟨?_, List.mem_cons_self, fun i hi => List.mem_cons_of_mem _ (List.mem_map.mpr ⟨i, List.mem_range.mpr hi, rfl⟩)⟩
  intro a ha
  rcases List.mem_cons.mp ha with rfl | ha
  · trivial
  · obtain ⟨i, -, rfl⟩ := List.mem_map.mp ha
    trivial

theorem round_calm {rounds : List (List Actor)} (hr : ∀ as ∈ rounds, Round n as) : ∀ a ∈ rounds.flatten, a.Calm := by
  intro a ha
  obtain ⟨bs, hb, hab⟩ := List.mem_flatten.mp ha
  exact (hr bs hb).1 a hab

/-- There is a schedule with which all results are collected. -/
theorem can_finish {f : Farm B R} (hn : 1 ≤ n) (hc : Calm recover items) (h : Good recover items n f) {i : Nat} (hp : f.point = .wait i) :
    ∃ as g, (∀ a ∈ as, a.Calm) ∧ run recover as f = .ok g ∧ g.point = .done ∧
      g.collected = firstResults recover items items.length ∧ g.loaded = !g.collected.isEmpty := by
  obtain ⟨as, g, h0, h1, h2, h3, h4⟩ := quiesce hc f.rank f (Nat.le_refl _) h
  have hr : ∀ as ∈ List.replicate (20 * n + 5) (aRound n), Round n as := by
    intro as ha
    rw [List.eq_of_mem_replicate ha]
    exact aRound_round
  have hle := h2.rank_le
  obtain ⟨k, k1, k2, k3⟩ := good_rounds hn hc h2 hr (by rw [List.length_replicate]; omega)
  have hfull : Full recover items g := by
    rw [hp] at h3
    exact ⟨h4, (fun hh => by rw [h3] at hh; rcases hh with hh | hh; cases hh; exact hh.elim), fun hh => by rw [h3] at hh; exact hh.elim⟩
  have hk := full_run hn hc h2 hfull (round_calm hr) k1
  have he : k.point.Ending := by rw [k3]; trivial
  refine ⟨as ++ (List.replicate (20 * n + 5) (aRound n)).flatten, k, ?_, by rw [run_append, h1]; exact k1, k3,
    hk.collected (Or.inr he), hk.loaded he⟩
  intro a ha
  rcases List.mem_append.mp ha with ha | ha
  · exact h0 a ha
  · exact round_calm hr a ha

/-! ## From the beginning -/

/-- Some batches are dispatched, one to each worker, and all workers are as if they had not noticed. -/
structure Begun (f : Farm B R) : Prop where
  point : f.point = .next
  worker : ∀ (i : Nat) (w : Worker B R), f.workers[i]? = some w → w.status = .working ∧ w.place = .waiting ∧ w.kicked = true

theorem findReady_run {f : Farm B R} (hw : ∀ (i : Nat) (w : Worker B R), f.workers[i]? = some w → w.status = .working) :
    ∀ (d k : Nat), f.workers.length = k + d →
      run recover (List.replicate d .main) { f with point := .findReady k } = .ok { f with point := .findReady f.workers.length } := by
  intro d
  induction d with
  | zero => intro k hk; rw [hk]; rfl
  | succ d ih =>
    intro k hk
    have hi := List.getElem?_eq_getElem (show k < f.workers.length by omega)
    rw [List.replicate_succ, run]
    have e : step recover { f with point := .findReady k } .main = .ok { f with point := .findReady (k + 1) } := by
      simp only [step, mainStep, hi]
      rw [if_pos (Or.inr (hw _ _ hi))]
    rw [e]
    exact ih (k + 1) (by omega)

theorem assign_last (b : B) (id : Nat) {ws : List (Worker B R)} (hw : ∀ w ∈ ws, w.status ≠ .idle) {w : Worker B R} (hi : w.status = .idle) :
    assign b id (ws ++ [w]) = some (ws ++ [{ w with batch := some b, batchId := id, status := .working, kicked := true }]) := by
  induction ws with
  | nil => simp only [List.nil_append, assign, if_pos hi]
  | cons x xs ih =>
    rw [List.cons_append, assign, if_neg (hw x List.mem_cons_self), ih fun w h => hw w (List.mem_cons_of_mem _ h)]
    rfl

theorem run_two {f g h : Farm B R} {a b : Actor} (h1 : step recover f a = .ok g) (h2 : step recover g b = .ok h) :
    run recover [a, b] f = .ok h := by
  simp only [run, h1, h2]

/-- One more batch. -/
theorem begun_step {f : Farm B R} {b : B} {rest : List (Option B)} (h : Begun f) (hs : f.stopped = false) (ht : f.todo = some b :: rest)
    (hm : f.workers.length < f.maxWorkers) :
    ∃ as g, (∀ a ∈ as, a.Calm) ∧ run recover as f = .ok g ∧ g.todo = rest ∧ g.workers.length = f.workers.length + 1 ∧
      g.point = (if rest = [] then .wait 0 else .next) ∧
      ∀ (i : Nat) (w : Worker B R), g.workers[i]? = some w → w.status = .working ∧ w.place = .waiting ∧ w.kicked = true := by
  have hns : ¬ f.stopped = true := by rw [hs]; decide
  -- from the new worker on
  have tail : ∀ f' : Farm B R, f'.workers = f.workers ++ [({} : Worker B R)] → f'.todo = some b :: rest → f'.point = .findIdle →
      ∃ g, run recover [.worker f.workers.length, .main] f' = .ok g ∧ g.todo = rest ∧ g.workers.length = f.workers.length + 1 ∧
      g.point = (if rest = [] then .wait 0 else .next) ∧
      ∀ (i : Nat) (w : Worker B R), g.workers[i]? = some w → w.status = .working ∧ w.place = .waiting ∧ w.kicked = true := by
    intro f' h1 h2 h3
    have hi : f'.workers[f.workers.length]? = some ({} : Worker B R) := by rw [h1]; simp
    have hset : f'.workers.set f.workers.length ({ place := .waiting } : Worker B R) =
        f.workers ++ [({ place := .waiting } : Worker B R)] := by
      rw [h1, List.set_append_right _ _ (Nat.le_refl _), Nat.sub_self]
      rfl
    have has := assign_last b f'.batchId (ws := f.workers) (fun w hw => by
      obtain ⟨i, hi, rfl⟩ := List.getElem_of_mem hw
      rw [(h.worker i _ (List.getElem?_eq_getElem hi)).1]
      decide) (w := ({ place := .waiting } : Worker B R)) rfl
    rw [← hset] at has
    have e1 : step recover f' (.worker f.workers.length) =
        .ok (f'.setWorker f.workers.length ({ place := .waiting } : Worker B R)) := by
      simp only [step, hi]; rfl
    have e2 : step recover (f'.setWorker f.workers.length ({ place := .waiting } : Worker B R)) .main =
        .ok { f' with
          workers := f.workers ++ [({ batch := some b, batchId := f'.batchId, status := .working, kicked := true, place := .waiting } : Worker B R)],
          batchId := f'.batchId + 1, todo := rest, point := if rest = [] then .wait 0 else .next } := by
      simp only [step, mainStep, Farm.setWorker, h3, h2, has]
    refine ⟨_, run_two e1 e2, rfl, by simp, rfl, ?_⟩
    intro i w hw
    change (f.workers ++ [_])[i]? = some w at hw
    rcases Nat.lt_or_ge i f.workers.length with hlt | hge
    · rw [List.getElem?_append_left hlt] at hw
      exact h.worker i w hw
    · rw [List.getElem?_append_right hge] at hw
      cases hd : i - f.workers.length with
      | zero =>
        rw [hd] at hw
        cases hw
        exact ⟨rfl, rfl, rfl⟩
      | succ d => rw [hd] at hw; simp at hw
  by_cases hw : f.workers = []
  · have e : step recover f .main = .ok { f with workers := [({} : Worker B R)], point := .findIdle } := by
      simp only [step, mainStep, h.point, if_neg hns, ht, if_pos hw, if_true]
    obtain ⟨g, g1, g2⟩ := tail { f with workers := [({} : Worker B R)], point := .findIdle } (by rw [hw]; rfl) ht rfl
    refine ⟨[.main] ++ [.worker f.workers.length, .main], g, ?_, ?_, g2⟩
    · intro a ha
      simp only [List.mem_append, List.mem_cons, List.not_mem_nil, or_false] at ha
      rcases ha with rfl | rfl | rfl <;> trivial
    · rw [run_append]
      simp only [run, e] at g1 ⊢
      exact g1
  · have e1 : step recover f .main = .ok { f with point := .findIdle } := by
      simp only [step, mainStep, h.point, if_neg hns, ht, if_neg hw]
    have hnone : assign b f.batchId f.workers = none := by
      have hall : ∀ w ∈ f.workers, w.status ≠ .idle := fun w hw => by
        obtain ⟨i, hi, rfl⟩ := List.getElem_of_mem hw
        rw [(h.worker i _ (List.getElem?_eq_getElem hi)).1]
        decide
      have : ∀ ws : List (Worker B R), (∀ w ∈ ws, w.status ≠ .idle) → assign b f.batchId ws = none := by
        intro ws
        induction ws with
        | nil => exact fun _ => rfl
        | cons x xs ih =>
          intro hx
          rw [assign, if_neg (hx x List.mem_cons_self), ih fun w h => hx w (List.mem_cons_of_mem _ h)]
          rfl
      exact this _ hall
    have e2 : step recover { f with point := .findIdle } .main = .ok { f with point := .findReady 0 } := by
      simp only [step, mainStep, ht, hnone]
    have e3 := findReady_run (recover := recover) (f := f) (fun i w hi => (h.worker i w hi).1) f.workers.length 0 (by omega)
    have e4 : step recover { f with point := .findReady f.workers.length } .main = .ok { f with point := .grow } := by
      simp only [step, mainStep, List.getElem?_eq_none (Nat.le_refl _)]
    have e5 : step recover { f with point := .grow } .main = .ok { f with workers := f.workers ++ [({} : Worker B R)], point := .findIdle } := by
      simp only [step, mainStep, if_true]
      rw [if_pos (Nat.ne_of_lt hm)]
    obtain ⟨g, g1, g2⟩ := tail { f with workers := f.workers ++ [({} : Worker B R)], point := .findIdle } rfl ht rfl
    refine ⟨[.main, .main] ++ (List.replicate f.workers.length .main ++ ([.main, .main] ++ [.worker f.workers.length, .main])), g, ?_, ?_, g2⟩
    · intro a ha
      simp only [List.mem_append, List.mem_cons, List.not_mem_nil, or_false, List.mem_replicate] at ha
      rcases ha with (rfl | rfl) | ⟨-, rfl⟩ | (rfl | rfl) | rfl | rfl <;> trivial
    · rw [run_append]
      have a1 : run recover [.main, .main] f = .ok { f with point := .findReady 0 } := by
        simp only [run, e1, e2]
      rw [a1]
      simp only
      rw [run_append, e3]
      simp only
      rw [run_append]
      have a2 : run recover [.main, .main] { f with point := .findReady f.workers.length } =
          .ok { f with workers := f.workers ++ [({} : Worker B R)], point := .findIdle } := by
        simp only [run, e4, e5]
      rw [a2]
      exact g1

theorem begun_run (hn : 1 ≤ n) (hc : Calm recover items) (hl : items.length ≤ n) : ∀ (rest : List (Option B)) (f : Farm B R),
    Inv recover items f → Orderly items n f → Begun f → f.todo = rest → f.workers.length + rest.length = items.length →
    ∃ as g, (∀ a ∈ as, a.Calm) ∧ run recover as f = .ok g ∧ Good recover items n g ∧ g.point = .wait 0 := by
  intro rest
  induction rest with
  | nil =>
    intro f hinv ho hb ht hlen
    have hs : f.stopped = false := by unfold Farm.stopped; rw [ho.shouldStop, ho.interrupted]; rfl
    have hns : ¬ f.stopped = true := by rw [hs]; decide
    have e : step recover f .main = .ok { f with point := .wait 0 } := by
      simp only [step, mainStep, hb.point, if_neg hns, ht]
    obtain ⟨g, h1, h2⟩ := orderly_step hn hc hinv ho (a := .main) trivial
    have hi := inv_step _ hinv h1
    rw [e] at h1
    cases h1
    have hg : Orderly items n { f with point := .wait 0 } := by
      rcases h2 with h2 | ⟨j, h2, -⟩
      · exact h2
      · rcases h2.point with ⟨hp | ⟨i, id, hp⟩, -⟩ | ⟨i, -, hp | hp | hp⟩ <;> cases hp
    refine ⟨[.main], _, ?_, by rw [run, e]; rfl, ⟨hi, hg, live_of hg (fun h => h.elim), ⟨trivial, ?_⟩⟩, rfl⟩
    · intro a ha
      rcases List.mem_cons.mp ha with rfl | ha
      · trivial
      · cases ha
    · exact fun i w hi _ => Or.inl (hb.worker i w hi).2
  | cons o rest ih =>
    intro f hinv ho hb ht hlen
    have hs : f.stopped = false := by unfold Farm.stopped; rw [ho.shouldStop, ho.interrupted]; rfl
    have hitem : items[f.batchId]? = some o := by
      have h0 : (items.drop f.batchId)[0]? = some o := by rw [← hinv.todo, ht]; rfl
      rw [List.getElem?_drop] at h0
      exact h0
    cases o with
    | none =>
      have := hc f.batchId (List.getElem?_eq_some_iff.mp hitem).1
      unfold resultOf at this
      rw [hitem] at this
      cases this
    | some b =>
      rw [List.length_cons] at hlen
      obtain ⟨as, g, h1, h2, h3, h4, h5, h6⟩ := begun_step (recover := recover) hb hs ht (by rw [ho.max]; omega)
      have hg : Inv recover items g ∧ Orderly items n g := by
        rcases orderly_run hn hc hinv ho h1 with ⟨g', e, r1, r2⟩ | ⟨bs, cs, g', rfl, e, r1, ⟨j, r2, -⟩⟩
        · rw [h2] at e
          cases e
          exact ⟨r1, r2⟩
        · rw [run_append, e] at h2
          have := (doomed_run hc r1 r2 h2).point
          exfalso
          rw [h5] at this
          rcases this with ⟨hp | ⟨i, id, hp⟩, -⟩ | ⟨i, -, hp | hp | hp⟩ <;> (split at hp <;> cases hp)
      cases hr : rest with
      | nil =>
        rw [hr] at h5
        refine ⟨as, g, h1, h2, ⟨hg.1, hg.2, live_of hg.2 (by rw [h5]; exact fun h => h.elim), ⟨by rw [h5]; trivial, ?_⟩⟩, h5⟩
        exact fun i w hi _ => Or.inl (h6 i w hi).2
      | cons o' rest' =>
        rw [hr, if_neg (by simp)] at h5
        obtain ⟨bs, k, k1, k2, k3, k4⟩ := ih g hg.1 hg.2 ⟨h5, h6⟩ h3 (by omega)
        refine ⟨as ++ bs, k, ?_, by rw [run_append, h2]; exact k2, k3, k4⟩
        intro a ha
        rcases List.mem_append.mp ha with ha | ha
        · exact h1 a ha
        · exact k1 a ha

theorem can_finish_start (hn : 1 ≤ n) (hc : Calm recover items) (hl : items.length ≤ n) :
    ∃ as g, (∀ a ∈ as, a.Calm) ∧ run recover as (start n items) = .ok g ∧ g.point = .done ∧
      g.collected = firstResults recover items items.length ∧ g.loaded = !g.collected.isEmpty := by
  obtain ⟨as, f, h1, h2, h3, h4⟩ := begun_run hn hc hl items (start n items) (inv_start n) orderly_start
    ⟨rfl, fun i w h => by simp [start] at h⟩ rfl (by simp [start])
  obtain ⟨bs, g, k1, k2, k3⟩ := can_finish hn hc h3 h4
  refine ⟨as ++ bs, g, ?_, by rw [run_append, h2]; exact k2, k3⟩
  intro a ha
  rcases List.mem_append.mp ha with ha | ha
  · exact h1 a ha
  · exact k1 a ha

/-! ## A lost kick -/

/-- Worker `j` was given a batch, and its thread waits for a kick that it has cleared. -/
def Lost (f : Farm B R) (j : Nat) : Prop :=
  (∃ i, i ≤ j ∧ f.point = .wait i) ∧
    ∃ w, f.workers[j]? = some w ∧ w.status = .working ∧ w.place = .waiting ∧ w.kicked = false

theorem lost_step {f g : Farm B R} {j : Nat} (h : Lost f j) (a : Actor) (hs : step recover f a = .ok g) : Lost g j := by
  obtain ⟨⟨i, hij, hp⟩, w, hw, h1, h2, h3⟩ := h
  have main : ∀ m, mainStep m f = .ok g → Lost g j := by
    intro m hs
    unfold mainStep at hs
    rw [hp] at hs
    simp only at hs
    cases hi : f.workers[i]? with
    | none =>
      have := List.getElem?_eq_none_iff.mp hi
      have := (List.getElem?_eq_some_iff.mp hw).1
      omega
    | some x =>
      rw [hi] at hs
      simp only at hs
      split at hs
      · cases hs
        exact ⟨⟨0, Nat.zero_le _, rfl⟩, w, hw, h1, h2, h3⟩
      · next hx =>
        cases hs
        refine ⟨⟨i + 1, ?_, rfl⟩, w, hw, h1, h2, h3⟩
        rcases Nat.lt_or_ge i j with hlt | hge
        · exact hlt
        · have : i = j := by omega
          subst this
          rw [hw] at hi
          cases hi
          exact absurd h1 hx
  cases a with
  | main => exact main true hs
  | mainNoMemory => exact main false hs
  | user => cases hs; exact ⟨⟨i, hij, hp⟩, w, hw, h1, h2, h3⟩
  | worker k =>
    simp only [step] at hs
    split at hs
    · cases hs; exact ⟨⟨i, hij, hp⟩, w, hw, h1, h2, h3⟩
    · next x hx =>
      by_cases e : j = k
      · subst e
        rw [hw] at hx
        cases hx
        unfold workerStep at hs
        rw [h2] at hs
        simp only [h3] at hs
        cases hs
        exact ⟨⟨i, hij, hp⟩, w, hw, h1, h2, h3⟩
      · have key : ∀ (g' : Farm B R) (v : Worker B R), g'.workers = f.workers.set k v → g'.point = f.point → Lost g' j := by
          intro g' v e1 e2
          exact ⟨⟨i, hij, by rw [e2]; exact hp⟩, w, by rw [e1, set_other v e]; exact hw, h1, h2, h3⟩
        have keep : Lost f j := ⟨⟨i, hij, hp⟩, w, hw, h1, h2, h3⟩
        unfold workerStep at hs
        split at hs
        · cases hs; exact key _ _ rfl rfl
        · split at hs
          · cases hs; exact key _ _ rfl rfl
          · cases hs; exact keep
        · cases hs; exact key _ _ rfl rfl
        · split at hs
          · cases hs
          · split at hs
            · cases hs
            · split at hs
              · cases hs; exact key _ _ rfl rfl
              · split at hs <;> (cases hs; exact key _ _ rfl rfl)
        · split at hs
          · cases hs
          · split at hs
            · cases hs; exact key _ _ rfl rfl
            · cases hs; exact keep
        · split at hs
          · cases hs
          · cases hs; exact key _ _ rfl rfl
        · cases hs; exact keep

theorem lost_run {f g : Farm B R} {j : Nat} (h : Lost f j) {as : List Actor} (hs : run recover as f = .ok g) : Lost g j :=
  run_invariant (P := fun f => Lost f j) (Q := fun _ => True) (fun _ _ a h _ hs => lost_step h a hs) (fun _ _ => trivial) h hs

end Silkworm.Workers
