import Verif.Tools.SenderThreads
import Verif.Stages.WorkersSpec

/-!
# Invariants of the threads of cmd/check_senders.cpp
-/

namespace Silkworm.Workers

variable {B R : Type} {recover : B → Option (List R)} {items : List (Option B)} {early : Bool}

theorem toolRun_append (as bs : List Actor) (t : ToolFarm B R) :
    toolRun recover early (as ++ bs) t =
      match toolRun recover early as t with
      | .ok t => toolRun recover early bs t
      | .err e => .err e
      | .ub => .ub := by
  induction as generalizing t with
  | nil => rfl
  | cons a as ih =>
    rw [List.cons_append, toolRun, toolRun]
    cases toolStep recover early t a with
    | ok g => exact ih g
    | err e => rfl
    | ub => rfl

theorem toolRun_invariant {P : ToolFarm B R → Prop} {Q : Actor → Prop}
    (keep : ∀ f g a, P f → Q a → toolStep recover early f a = .ok g → P g) {as : List Actor} (hq : ∀ a ∈ as, Q a) {f g : ToolFarm B R}
    (hf : P f) (h : toolRun recover early as f = .ok g) : P g := by
  induction as generalizing f with
  | nil => cases h; exact hf
  | cons a as ih =>
    rw [toolRun] at h
    cases hs : toolStep recover early f a with
    | err e => rw [hs] at h; cases h
    | ub => rw [hs] at h; cases h
    | ok f' =>
      rw [hs] at h
      exact ih (fun a ha => hq a (List.mem_cons_of_mem _ ha)) (keep f f' a hf (hq a List.mem_cons_self) hs) h

theorem as_ok {t g : ToolFarm B R} {o : Outcome Empty (Farm B R)} (h : t.as o = .ok g) : ∃ f, o = .ok f ∧ g = { t with farm := f } := by
  cases o with
  | ok f => exact ⟨f, rfl, (Outcome.ok.inj h).symm⟩
  | err e => cases h
  | ub => cases h

/-- Nothing changes if the last results are pulled instead of others. -/
theorem Inv.finish {f : Farm B R} (h : Inv recover items f) {i id : Nat} (hp : f.point = .pull .dispatch i id) :
    Inv recover items { f with point := .pull .finish i id } := by
  have hl := h.notLoaded (fun i hh => by rw [hp] at hh; cases hh) (fun i hh => by rw [hp] at hh; cases hh)
    (fun hh => by rw [hp] at hh; cases hh)
  have e : ({ f with point := .pull .finish i id } : Farm B R).pulled = f.pulled := by
    unfold Farm.pulled; rw [hp]
  exact ⟨h.todo, h.bound, h.completed, h.worker, by rw [e]; exact h.entry, by rw [e]; exact h.distinct, by rw [e]; exact h.order,
    (fun hh => by change f.loaded = true at hh; rw [hl] at hh; cases hh), h.loaded⟩

theorem inv_toolMainStep {memory : Bool} {t g : ToolFarm B R} (h : Inv recover items t.farm)
    (hs : toolMainStep early memory t = .ok g) : Inv recover items g.farm := by
  unfold toolMainStep at hs
  have fail : ∀ {t : ToolFarm B R}, Inv recover items t.farm → t.farm.pulled = [] → t.farm.loaded = false →
      Inv recover items t.fail.farm := fun h hpu hl => h.point _ hpu hl (fun _ _ _ hh => by cases hh)
  split at hs
  · next hp =>
    have hl := h.notLoaded (fun i hh => by rw [hp] at hh; cases hh) (fun i hh => by rw [hp] at hh; cases hh)
      (fun hh => by rw [hp] at hh; cases hh)
    have hpu : t.farm.pulled = [] := by unfold Farm.pulled; rw [hp]
    split at hs
    · rw [← Outcome.ok.inj hs]; exact fail h hpu hl
    · next hst =>
      split at hs
      · rw [← Outcome.ok.inj hs]; exact h.point _ hpu hl (fun _ _ _ hh => by cases hh)
      · split at hs
        · rw [← Outcome.ok.inj hs]; exact h.point _ hpu hl (fun _ _ _ hh => by cases hh)
        · rw [← Outcome.ok.inj hs]; exact fail h hpu hl
      · next b rest ht =>
        split at hs
        · next hw =>
          split at hs
          · rw [← Outcome.ok.inj hs]
            refine inv_mainStep (memory := true) h ?_
            unfold mainStep
            rw [hp]
            simp only
            rw [if_neg hst, ht]
            simp only
            rw [if_pos hw, if_pos trivial]
          · rw [← Outcome.ok.inj hs]; exact fail h hpu hl
        · rw [← Outcome.ok.inj hs]; exact h.point _ hpu hl (fun _ _ _ hh => by cases hh)
  · next hp =>
    have hl := h.notLoaded (fun i hh => by rw [hp] at hh; cases hh) (fun i hh => by rw [hp] at hh; cases hh)
      (fun hh => by rw [hp] at hh; cases hh)
    have hpu : t.farm.pulled = [] := by unfold Farm.pulled; rw [hp]
    split at hs
    · rw [← Outcome.ok.inj hs]; exact h.point _ hpu hl (fun _ _ _ hh => by cases hh)
    · next x rest hq =>
      rw [← Outcome.ok.inj hs]
      refine inv_mainStep (memory := true) h ?_
      unfold mainStep
      rw [hp]
      simp only
      rw [hq]
  · next i id hp =>
    have hf := h.finish hp
    have hl : t.farm.loaded = false := h.notLoaded (fun i hh => by rw [hp] at hh; cases hh) (fun i hh => by rw [hp] at hh; cases hh)
      (fun hh => by rw [hp] at hh; cases hh)
    split at hs
    · cases hs
    · next w hi =>
      split at hs
      · next hst =>
        rw [← Outcome.ok.inj hs]
        have := inv_mainStep (memory := true) (g := { t.farm with shouldStop := true, point := .load }) hf (by
          unfold mainStep; simp only [hi, hst]; rfl)
        exact this.point (.wait 0) rfl hl (fun _ _ _ hh => by cases hh)
      · next hst =>
        rw [← Outcome.ok.inj hs]
        have := inv_mainStep (memory := true) (g := { t.farm with shouldStop := true, point := .load }) hf (by
          unfold mainStep; simp only [hi, hst]; rfl)
        exact this.point (.wait 0) rfl hl (fun _ _ _ hh => by cases hh)
      · next hst =>
        rw [← Outcome.ok.inj hs]
        by_cases hstop : t.farm.stopped = true
        · have := inv_mainStep (memory := true)
            (g := { t.farm.setWorker i { w with status := .idle, results := [] } with
              collected := t.farm.collected ++ w.results, point := .load }) hf (by
            unfold mainStep
            simp only [hi, hst]
            rw [if_pos (by exact hstop)]; rfl)
          exact this.point (if t.farm.stopped then .findIdle else .collect .dispatch) rfl hl (fun _ _ _ hh => by split at hh <;> cases hh)
        · have := inv_mainStep (memory := true)
            (g := { t.farm.setWorker i { w with status := .idle, results := [] } with
              collected := t.farm.collected ++ w.results, point := .collect .finish }) hf (by
            unfold mainStep
            simp only [hi, hst]
            rw [if_neg (by exact hstop)]; rfl)
          exact this.point (if t.farm.stopped then .findIdle else .collect .dispatch) rfl hl (fun _ _ _ hh => by split at hh <;> cases hh)
      · next hst =>
        obtain ⟨w', h1, -, h3, -⟩ := h.entry (i, id) (by unfold Farm.pulled; rw [hp]; exact List.mem_cons_self)
        rw [hi] at h1; cases h1
        exact absurd hst h3.1
      · next hst =>
        obtain ⟨w', h1, -, h3, -⟩ := h.entry (i, id) (by unfold Farm.pulled; rw [hp]; exact List.mem_cons_self)
        rw [hi] at h1; cases h1
        exact absurd hst h3.2
  · next i hp =>
    have hl := h.notLoaded (fun i hh => by rw [hp] at hh; cases hh) (fun i hh => by rw [hp] at hh; cases hh)
      (fun hh => by rw [hp] at hh; cases hh)
    have hpu : t.farm.pulled = [] := by unfold Farm.pulled; rw [hp]
    split at hs
    · rw [← Outcome.ok.inj hs]
      exact h.point (if t.failed then .stop 0 else .collect .finish) hpu hl (fun _ _ _ hh => by split at hh <;> cases hh)
    · next w _ =>
      rw [← Outcome.ok.inj hs]
      exact h.point (if w.status = .working then .wait 0 else .wait (i + 1)) hpu hl (fun _ _ _ hh => by split at hh <;> cases hh)
  · obtain ⟨f, h1, rfl⟩ := as_ok hs
    exact inv_mainStep h h1

theorem inv_toolStep {t g : ToolFarm B R} (a : Actor) (h : Inv recover items t.farm) (hs : toolStep recover early t a = .ok g) :
    Inv recover items g.farm := by
  cases a with
  | main => exact inv_toolMainStep h hs
  | mainNoMemory => exact inv_toolMainStep h hs
  | worker i => obtain ⟨f, h1, rfl⟩ := as_ok hs; exact inv_step _ h h1
  | user => obtain ⟨f, h1, rfl⟩ := as_ok (t := t) (o := step recover t.farm .user) hs; exact inv_step _ h h1

theorem inv_toolRun {as : List Actor} {n : Nat} {g : ToolFarm B R} (hr : toolRun recover early as (toolStart n items) = .ok g) :
    Inv recover items g.farm :=
  toolRun_invariant (Q := fun _ => True) (P := fun t => Inv recover items t.farm) (fun _ _ a h _ hs => inv_toolStep a h hs)
    (fun _ _ => trivial) (inv_start n) hr

/-! ## What is defined -/

/-- A worker was given a batch between its signal and `batch_.reset()`. -/
def Reassigned (f : Farm B R) : Prop := ∃ w ∈ f.workers, w.place = .resetting ∧ w.status = .working

/-- The main thread has a batch to give away. -/
def Point.Giving : Point → Prop
  | .findIdle | .findReady _ | .grow | .collect .dispatch | .pull .dispatch _ _ => True
  | _ => False

/-- The farm is being destroyed. -/
def Point.Destroying : Point → Prop
  | .destroy _ | .destroyStop _ | .destroyJoin _ | .thrown => True
  | _ => False

/-- What holds as long as nobody loses a batch. -/
structure Sound (f : Farm B R) : Prop where
  point : ¬ f.point.Destroying
  todo : f.point.Giving → ∃ b rest, f.todo = some b :: rest
  join : ∀ i, f.point = .join i → i < f.workers.length
  alive : ∀ w ∈ f.workers, w.dead = false
  armed : ∀ w ∈ f.workers, w.status = .working → w.batch.isSome = true

theorem sound_start (n : Nat) : Sound (start n items : Farm B R) where
  point h := h
  todo h := h.elim
  join i h := by cases h
  alive w h := by cases h
  armed w h := by cases h

theorem gone_of_point {f : Farm B R} (h : ¬ f.point.Destroying) : f.gone = false := by
  unfold Farm.gone
  cases hp : f.point <;> first | rfl | (rw [hp] at h; exact absurd trivial h)

theorem Sound.setWorker {f : Farm B R} (h : Sound f) {i : Nat} {w : Worker B R} (hd : w.dead = false)
    (ha : w.status = .working → w.batch.isSome = true) : Sound (f.setWorker i w) where
  point := h.point
  todo := h.todo
  join j hj := by show j < (f.workers.set i w).length; rw [List.length_set]; exact h.join j hj
  alive v hv := by rcases List.mem_or_eq_of_mem_set hv with hv | rfl; exacts [h.alive v hv, hd]
  armed v hv := by rcases List.mem_or_eq_of_mem_set hv with hv | rfl; exacts [h.armed v hv, ha]

theorem sound_workerStep {f : Farm B R} (hinv : Inv recover items f) (h : Sound f) (hn : ¬ Reassigned f) {i : Nat} {w : Worker B R}
    (hi : f.workers[i]? = some w) : ∃ g, workerStep recover f i w = .ok g ∧ Sound g := by
  have hm : w ∈ f.workers := List.mem_of_getElem? hi
  have hd := h.alive w hm
  have ha := h.armed w hm
  have hw := hinv.worker i w hi
  unfold workerStep
  cases hp : w.place with
  | clearing => exact ⟨_, rfl, h.setWorker hd ha⟩
  | waiting =>
    simp only
    split
    · exact ⟨_, rfl, h.setWorker hd ha⟩
    · exact ⟨_, rfl, h⟩
  | woken => exact ⟨_, rfl, h.setWorker hd ha⟩
  | running =>
    have hst := hw.running hp
    simp only
    rw [if_neg (by rw [hd]; decide)]
    obtain ⟨b, hb⟩ := Option.isSome_iff_exists.mp (ha hst)
    rw [hb]
    simp only
    cases recover b with
    | none => exact ⟨_, rfl, h.setWorker hd (fun hh => by cases hh)⟩
    | some rs =>
      simp only
      split <;> exact ⟨_, rfl, h.setWorker hd (fun hh => by cases hh)⟩
  | signalling =>
    simp only
    rw [if_neg (by rw [hd, gone_of_point h.point]; decide)]
    split
    · have := h.setWorker (i := i) (w := { w with place := .resetting }) hd ha
      exact ⟨_, rfl, ⟨this.point, this.todo, this.join, this.alive, this.armed⟩⟩
    · exact ⟨_, rfl, h⟩
  | resetting =>
    simp only
    rw [if_neg (by rw [hd]; decide)]
    exact ⟨_, rfl, h.setWorker hd (fun hh => absurd ⟨w, hm, hp, hh⟩ hn)⟩
  | exited => exact ⟨_, rfl, h⟩

/-- Another point. -/
theorem Sound.at {f : Farm B R} (h : Sound f) (p : Point) (h1 : ¬ p.Destroying)
    (h2 : p.Giving → ∃ b rest, f.todo = some b :: rest) (h3 : ∀ i, p = .join i → i < f.workers.length) :
    Sound { f with point := p } := ⟨h1, h2, h3, h.alive, h.armed⟩

theorem Sound.fail {t : ToolFarm B R} (h : Sound t.farm) : Sound t.fail.farm :=
  h.at (.wait 0) (fun hh => hh) (fun hh => hh.elim) (fun i hh => by cases hh)

theorem sound_toolMainStep {memory : Bool} {t : ToolFarm B R} (hinv : Inv recover items t.farm) (h : Sound t.farm) :
    ∃ g, toolMainStep false memory t = .ok g ∧ Sound g.farm := by
  unfold toolMainStep
  split
  · next hp =>
    split
    · exact ⟨_, rfl, h.fail⟩
    · split
      · exact ⟨_, rfl, h.at (.wait 0) (fun hh => hh) (fun hh => hh.elim) (fun i hh => by cases hh)⟩
      · rw [if_neg (by decide)]; exact ⟨_, rfl, h.fail⟩
      · next b rest ht =>
        split
        · split
          · refine ⟨_, rfl, ⟨fun hh => hh, fun _ => ⟨b, rest, ht⟩, (fun i hh => by cases hh), ?_, ?_⟩⟩
            · intro w hw; rw [List.mem_singleton.mp hw]
            · intro w hw; rw [List.mem_singleton.mp hw]; intro hh; cases hh
          · exact ⟨_, rfl, h.fail⟩
        · exact ⟨_, rfl, h.at .findIdle (fun hh => hh) (fun _ => ⟨b, rest, ht⟩) (fun i hh => by cases hh)⟩
  · next hp =>
    have ht := h.todo (by rw [hp]; trivial)
    split
    · exact ⟨_, rfl, h.at .findIdle (fun hh => hh) (fun _ => ht) (fun i hh => by cases hh)⟩
    · exact ⟨_, rfl, ⟨fun hh => hh, fun _ => ht, (fun i hh => by cases hh), h.alive, h.armed⟩⟩
  · next i id hp =>
    have ht := h.todo (by rw [hp]; trivial)
    obtain ⟨w, hi, -, hov, -⟩ := hinv.entry (i, id) (by unfold Farm.pulled; rw [hp]; exact List.mem_cons_self)
    change t.farm.workers[i]? = some w at hi
    rw [hi]
    simp only
    have hm : w ∈ t.farm.workers := List.mem_of_getElem? hi
    cases hst : w.status with
    | error => exact ⟨_, rfl, ⟨fun hh => hh, fun hh => hh.elim, (fun i hh => by cases hh), h.alive, h.armed⟩⟩
    | aborted => exact ⟨_, rfl, ⟨fun hh => hh, fun hh => hh.elim, (fun i hh => by cases hh), h.alive, h.armed⟩⟩
    | ready =>
      have := h.setWorker (i := i) (w := { w with status := .idle, results := [] }) (h.alive w hm) (fun hh => by cases hh)
      refine ⟨_, rfl, ⟨?_, fun _ => ht, ?_, this.alive, this.armed⟩⟩
      · show ¬ Point.Destroying (if _ then _ else _); split <;> exact fun hh => hh
      · intro j hh
        change (if _ then _ else _) = _ at hh
        split at hh <;> cases hh
    | idle => exact absurd hst hov.1
    | working => exact absurd hst hov.2
  · next i hp =>
    split
    · refine ⟨_, rfl, h.at (if t.failed then .stop 0 else .collect .finish) ?_ ?_ ?_⟩
      · split <;> exact fun hh => hh
      · split <;> exact fun hh => hh.elim
      · intro j hh; split at hh <;> cases hh
    · next w _ =>
      refine ⟨_, rfl, h.at (if w.status = .working then .wait 0 else .wait (i + 1)) ?_ ?_ ?_⟩
      · split <;> exact fun hh => hh
      · split <;> exact fun hh => hh.elim
      · intro j hh; split at hh <;> cases hh
  · next hx1 hx2 hx3 hx4 =>
    suffices hmain : ∃ g, mainStep memory t.farm = .ok g ∧ Sound g by
      obtain ⟨g, h1, h2⟩ := hmain
      exact ⟨{ t with farm := g }, by rw [h1]; rfl, h2⟩
    unfold mainStep
    cases hp : t.farm.point with
    | next => exact absurd hp hx1
    | wait i => exact absurd hp (hx4 i)
    | findIdle =>
      obtain ⟨b, rest, ht⟩ := h.todo (by rw [hp]; trivial)
      simp only [ht]
      cases ha : assign b t.farm.batchId t.farm.workers with
      | none => exact ⟨_, rfl, ⟨fun hh => hh, fun _ => ⟨b, rest, rfl⟩, (fun i hh => by cases hh), h.alive, h.armed⟩⟩
      | some ws =>
        obtain ⟨i, w, hi, hidle, -, rfl⟩ := assign_some ha
        have := h.setWorker (i := i) (w := { w with batch := some b, batchId := t.farm.batchId, status := .working, kicked := true })
          (h.alive w (List.mem_of_getElem? hi)) (fun _ => rfl)
        refine ⟨_, rfl, ⟨?_, ?_, ?_, this.alive, this.armed⟩⟩
        · show ¬ Point.Destroying (if _ then _ else _); split <;> exact fun hh => hh
        · intro hh
          change Point.Giving (if _ then _ else _) at hh
          split at hh <;> exact hh.elim
        · intro j hh
          change (if _ then _ else _) = _ at hh
          split at hh <;> cases hh
    | findReady i =>
      have ht := h.todo (by rw [hp]; trivial)
      simp only
      split
      · exact ⟨_, rfl, h.at .grow (fun hh => hh) (fun _ => ht) (fun i hh => by cases hh)⟩
      · split
        · exact ⟨_, rfl, h.at (.findReady (i + 1)) (fun hh => hh) (fun _ => ht) (fun i hh => by cases hh)⟩
        · exact ⟨_, rfl, h.at (.collect .dispatch) (fun hh => hh) (fun _ => ht) (fun i hh => by cases hh)⟩
    | grow =>
      have ht := h.todo (by rw [hp]; trivial)
      simp only
      split
      · split
        · refine ⟨_, rfl, ⟨fun hh => hh, fun _ => ht, (fun i hh => by cases hh), ?_, ?_⟩⟩
          · intro w hw
            rcases List.mem_append.mp hw with hw | hw
            · exact h.alive w hw
            · rw [List.mem_singleton.mp hw]
          · intro w hw
            rcases List.mem_append.mp hw with hw | hw
            · exact h.armed w hw
            · rw [List.mem_singleton.mp hw]; intro hh; cases hh
        · exact ⟨_, rfl, ⟨fun hh => hh, fun _ => ht, (fun i hh => by cases hh), h.alive, h.armed⟩⟩
      · exact ⟨_, rfl, h.at .findIdle (fun hh => hh) (fun _ => ht) (fun i hh => by cases hh)⟩
    | collect c =>
      cases c with
      | dispatch => exact absurd hp hx2
      | finish =>
        simp only
        split
        · exact ⟨_, rfl, h.at .load (fun hh => hh) (fun hh => hh.elim) (fun i hh => by cases hh)⟩
        · exact ⟨_, rfl, ⟨fun hh => hh, fun hh => hh.elim, (fun i hh => by cases hh), h.alive, h.armed⟩⟩
    | pull c i id =>
      cases c with
      | dispatch => exact absurd hp (hx3 i id)
      | finish =>
        obtain ⟨w, hi, -, hov, -⟩ := hinv.entry (i, id) (by unfold Farm.pulled; rw [hp]; exact List.mem_cons_self)
        change t.farm.workers[i]? = some w at hi
        simp only [hi]
        have hm : w ∈ t.farm.workers := List.mem_of_getElem? hi
        cases hst : w.status with
        | error => exact ⟨_, rfl, ⟨fun hh => hh, fun hh => hh.elim, (fun i hh => by cases hh), h.alive, h.armed⟩⟩
        | aborted => exact ⟨_, rfl, ⟨fun hh => hh, fun hh => hh.elim, (fun i hh => by cases hh), h.alive, h.armed⟩⟩
        | ready =>
          have := h.setWorker (i := i) (w := { w with status := .idle, results := [] }) (h.alive w hm) (fun hh => by cases hh)
          simp only
          split
          · exact ⟨_, rfl, ⟨fun hh => hh, fun hh => hh.elim, (fun i hh => by cases hh), this.alive, this.armed⟩⟩
          · exact ⟨_, rfl, ⟨fun hh => hh, fun hh => hh.elim, (fun i hh => by cases hh), this.alive, this.armed⟩⟩
        | idle => exact absurd hst hov.1
        | working => exact absurd hst hov.2
    | load => exact ⟨_, rfl, ⟨fun hh => hh, fun hh => hh.elim, (fun i hh => by cases hh), h.alive, h.armed⟩⟩
    | stop i =>
      simp only
      split
      · exact ⟨_, rfl, h.at .done (fun hh => hh) (fun hh => hh.elim) (fun i hh => by cases hh)⟩
      · next w hi =>
        have hm : w ∈ t.farm.workers := List.mem_of_getElem? hi
        have hlt : i < t.farm.workers.length := (List.getElem?_eq_some_iff.mp hi).1
        refine ⟨_, rfl, ?_⟩
        split
        · exact h.at (.join i) (fun hh => hh) (fun hh => hh.elim) (fun j hh => by cases hh; exact hlt)
        · have := h.setWorker (i := i) (w := { w with stopping := true, kicked := true }) (h.alive w hm) (h.armed w hm)
          exact this.at (.join i) (fun hh => hh) (fun hh => hh.elim) (fun j hh => by
            cases hh; show i < (t.farm.workers.set i _).length; rw [List.length_set]; exact hlt)
    | join i =>
      have hlt := h.join i hp
      simp only [List.getElem?_eq_getElem hlt]
      split
      · exact ⟨_, rfl, h.at (.stop (i + 1)) (fun hh => hh) (fun hh => hh.elim) (fun i hh => by cases hh)⟩
      · exact ⟨_, rfl, h⟩
    | done => exact ⟨_, rfl, h⟩
    | destroy i => exact absurd (by rw [hp]; trivial) h.point
    | destroyStop i => exact absurd (by rw [hp]; trivial) h.point
    | destroyJoin i => exact absurd (by rw [hp]; trivial) h.point
    | thrown => exact absurd (by rw [hp]; trivial) h.point

theorem sound_toolStep {t : ToolFarm B R} (a : Actor) (hinv : Inv recover items t.farm) (h : Sound t.farm)
    (hn : ¬ Reassigned t.farm) : ∃ g, toolStep recover false t a = .ok g ∧ Sound g.farm := by
  cases a with
  | main => exact sound_toolMainStep hinv h
  | mainNoMemory => exact sound_toolMainStep hinv h
  | worker i =>
    unfold toolStep step
    simp only
    split
    · exact ⟨t, rfl, h⟩
    · next w hi =>
      obtain ⟨g, h1, h2⟩ := sound_workerStep (recover := recover) hinv h hn hi
      exact ⟨{ t with farm := g }, by rw [h1]; rfl, h2⟩
  | user => exact ⟨_, rfl, ⟨h.point, h.todo, h.join, h.alive, h.armed⟩⟩

theorem sound_toolRun : ∀ (as : List Actor) {t : ToolFarm B R}, Inv recover items t.farm → Sound t.farm →
    (∃ g, toolRun recover false as t = .ok g ∧ Sound g.farm) ∨
    ∃ before after g, as = before ++ after ∧ toolRun recover false before t = .ok g ∧ Reassigned g.farm
  | [], t, _, h => .inl ⟨t, rfl, h⟩
  | a :: as, t, hinv, h => by
    by_cases hn : Reassigned t.farm
    · exact .inr ⟨[], a :: as, t, rfl, rfl, hn⟩
    · obtain ⟨g, h1, h2⟩ := sound_toolStep a hinv h hn
      rcases sound_toolRun as (inv_toolStep a hinv h1) h2 with ⟨x, h3, h4⟩ | ⟨bs, cs, x, rfl, h3, h4⟩
      · exact .inl ⟨x, by rw [toolRun, h1]; exact h3, h4⟩
      · exact .inr ⟨a :: bs, cs, x, rfl, by rw [toolRun, h1]; exact h3, h4⟩

/-! ## What never ends -/

theorem lost_toolStep {early : Bool} {t g : ToolFarm B R} {j : Nat} (h : Lost t.farm j) (a : Actor)
    (hs : toolStep recover early t a = .ok g) : Lost g.farm j := by
  have main : ∀ m, toolMainStep early m t = .ok g → Lost g.farm j := by
    intro m hs
    obtain ⟨⟨i, hij, hp⟩, w, hw, h1, h2, h3⟩ := h
    unfold toolMainStep at hs
    rw [hp] at hs
    simp only at hs
    have hlt := (List.getElem?_eq_some_iff.mp hw).1
    rw [List.getElem?_eq_getElem (show i < t.farm.workers.length by omega)] at hs
    simp only at hs
    split at hs
    · cases hs
      exact ⟨⟨0, Nat.zero_le _, rfl⟩, w, hw, h1, h2, h3⟩
    · next hx =>
      cases hs
      refine ⟨⟨i + 1, ?_, rfl⟩, w, hw, h1, h2, h3⟩
      rcases Nat.lt_or_ge i j with hij' | hge
      · exact hij'
      · have : i = j := by omega
        subst this
        rw [List.getElem?_eq_getElem hlt] at hw
        cases hw
        exact absurd h1 hx
  cases a with
  | main => exact main true hs
  | mainNoMemory => exact main false hs
  | worker i => obtain ⟨f, h1, rfl⟩ := as_ok hs; exact lost_step h _ h1
  | user => cases hs; exact lost_step h .user (g := { t.farm with interrupted := true }) (recover := recover) rfl

theorem lost_toolRun {early : Bool} {t g : ToolFarm B R} {j : Nat} (h : Lost t.farm j) {as : List Actor}
    (hs : toolRun recover early as t = .ok g) : Lost g.farm j :=
  toolRun_invariant (P := fun t => Lost t.farm j) (Q := fun _ => True) (fun _ _ a h _ hs => lost_toolStep h a hs) (fun _ _ => trivial) h hs

/-! ## What can be done with one worker -/

/-- The worker has recovered batch `id` and waits; `rest` is to come. -/
def resting (n : Nat) (c r : List R) (id : Nat) (rest : List (Option B)) (p : Point) : ToolFarm B R :=
  { farm := { maxWorkers := n, todo := rest, workers := [{ status := .ready, batchId := id, results := r, place := .waiting }],
              batchId := id + 1, completed := id + 1, queue := [(0, id)], collected := c, point := p } }

/-- Where the main thread is after a batch was dispatched. -/
def afterDispatch (rest : List (Option B)) : Point := match rest with | [] => .wait 0 | _ :: _ => .next

theorem ite_rest (rest : List (Option B)) [Decidable (rest = [])] : (if rest = [] then Point.wait 0 else .next) = afterDispatch rest := by
  cases rest with
  | nil => rw [if_pos rfl]; rfl
  | cons x xs => rw [if_neg (by simp)]; rfl

theorem resting_next {n : Nat} {c r r' : List R} {id : Nat} {b : B} {rest : List (Option B)} {early : Bool} (hb : recover b = some r') :
    toolRun recover early (List.replicate 7 .main ++ List.replicate 5 (.worker 0)) (resting n c r id (some b :: rest) .next) =
      .ok (resting n (c ++ r) r' (id + 1) rest (afterDispatch rest)) := by
  cases rest <;>
    simp [resting, List.replicate, toolRun, toolStep, toolMainStep, mainStep, step, workerStep, Farm.stopped, Farm.setWorker, Farm.gone,
      ToolFarm.as, assign, hb, afterDispatch]

theorem resting_first {n : Nat} {r : List R} {b : B} {rest : List (Option B)} {early : Bool} (hb : recover b = some r) :
    toolRun recover early ([.main, .worker 0, .main] ++ List.replicate 5 (.worker 0)) (toolStart n (some b :: rest)) =
      .ok (resting n [] r 0 rest (afterDispatch rest)) := by
  cases rest <;>
    simp [resting, List.replicate, toolRun, toolStep, toolMainStep, mainStep, step, workerStep, Farm.stopped, Farm.setWorker, Farm.gone,
      ToolFarm.as, assign, hb, afterDispatch, toolStart, start]

theorem resting_last {n : Nat} {c r : List R} {id : Nat} {early : Bool} :
    ∃ g, toolRun recover early (List.replicate 8 .main ++ [.worker 0, .worker 0, .main, .main])
      (resting n c r id ([] : List (Option B)) (.wait 0)) = .ok g ∧ g.farm.point = .done ∧ g.farm.collected = c ++ r ∧
      g.farm.loaded = !(c ++ r).isEmpty ∧ g.failed = false := by
  refine ⟨_, rfl, rfl, rfl, ?_, rfl⟩
  show (!(c ++ r).isEmpty && !(false || false)) = _
  simp

theorem resting_finish {n : Nat} {early : Bool} : ∀ (bs : List B) (rs : List (List R)) (c r : List R) (id : Nat),
    bs.map recover = rs.map some →
    ∃ as g, (∀ a ∈ as, a = .main ∨ a = .worker 0) ∧
      toolRun recover early as (resting n c r id (bs.map some) (afterDispatch (bs.map some))) = .ok g ∧ g.farm.point = .done ∧
      g.farm.collected = c ++ r ++ rs.flatten ∧ g.farm.loaded = !(c ++ r ++ rs.flatten).isEmpty ∧ g.failed = false
  | [], rs, c, r, id, h => by
    cases rs with
    | cons x xs => cases h
    | nil =>
      obtain ⟨g, h1, h2, h3, h4, h5⟩ := resting_last (recover := recover) (n := n) (c := c) (r := r) (id := id) (early := early) (B := B)
      refine ⟨_, g, ?_, h1, h2, by simpa using h3, by simpa using h4, h5⟩
      decide
  | b :: bs, rs, c, r, id, h => by
    cases rs with
    | nil => cases h
    | cons x xs =>
      rw [List.map_cons, List.map_cons] at h
      obtain ⟨hb, hbs⟩ := List.cons.inj h
      obtain ⟨as, g, h1, h2, h3, h4, h5, h6⟩ := resting_finish (early := early) (n := n) bs xs (c ++ r) x (id + 1) hbs
      refine ⟨(List.replicate 7 .main ++ List.replicate 5 (.worker 0)) ++ as, g, ?_, ?_, h3, by simpa using h4, by simpa using h5, h6⟩
      · intro a ha
        rcases List.mem_append.mp ha with hx | hx
        · clear ha; revert a; decide
        · exact h1 a hx
      · rw [toolRun_append]
        show (match toolRun recover early _ (resting n c r id (some b :: bs.map some) .next) with | .ok t => _ | .err e => _ | .ub => _) = _
        rw [resting_next hb]
        exact h2

theorem can_finish_tool {n : Nat} {early : Bool} (bs : List B) (rs : List (List R)) (h : bs.map recover = rs.map some) :
    ∃ as g, (∀ a ∈ as, a = .main ∨ a = .worker 0) ∧ toolRun recover early as (toolStart n (bs.map some)) = .ok g ∧
      g.farm.point = .done ∧ g.farm.collected = rs.flatten ∧ g.farm.loaded = !rs.flatten.isEmpty ∧ g.failed = false := by
  cases bs with
  | nil =>
    cases rs with
    | cons x xs => cases h
    | nil => exact ⟨List.replicate 5 .main, _, by decide, rfl, rfl, rfl, rfl, rfl⟩
  | cons b bs =>
    cases rs with
    | nil => cases h
    | cons x xs =>
      rw [List.map_cons, List.map_cons] at h
      obtain ⟨hb, hbs⟩ := List.cons.inj h
      obtain ⟨as, g, h1, h2, h3, h4, h5, h6⟩ := resting_finish (early := early) (n := n) bs xs [] x 0 hbs
      refine ⟨([.main, .worker 0, .main] ++ List.replicate 5 (.worker 0)) ++ as, g, ?_, ?_, h3, by simpa using h4, by simpa using h5, h6⟩
      · intro a ha
        rcases List.mem_append.mp ha with hx | hx
        · clear ha; revert a; decide
        · exact h1 a hx
      · rw [toolRun_append]
        rw [List.map_cons, resting_first hb]
        exact h2

end Silkworm.Workers
