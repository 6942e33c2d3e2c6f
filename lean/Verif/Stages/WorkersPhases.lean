import Verif.Stages.WorkersLemmas

/-!
# What the threads do if every key can be recovered and nobody interrupts them
-/

namespace Silkworm.Workers

variable {B R : Type} {recover : B → Option (List R)} {items : List (Option B)} {n : Nat}

/-- Every batch can be filled and every key can be recovered. -/
def Calm (recover : B → Option (List R)) (items : List (Option B)) : Prop :=
  ∀ j < items.length, (resultOf recover items j).isSome = true

/-- No interrupt, and enough memory. -/
def Actor.Calm : Actor → Prop
  | .main | .worker _ => True
  | .mainNoMemory | .user => False

/-- `stop_all_workers` and after it. -/
def Point.Ending : Point → Prop
  | .stop _ | .join _ | .done => True
  | _ => False

/-- After `wait_workers_completion`. -/
def Point.Finishing : Point → Prop
  | .collect .finish | .pull .finish _ _ | .load | .stop _ | .join _ | .done => True
  | _ => False

/-- All batches are dispatched. -/
def Point.Dispatched : Point → Prop
  | .wait _ => True
  | p => p.Finishing

/-- A batch is being dispatched. -/
def Point.Dispatching : Point → Prop
  | .findIdle | .findReady _ | .grow => True
  | _ => False

/-- What is true of worker `i`. -/
structure Tidy (p : Point) (next completed i : Nat) (w : Worker B R) : Prop where
  alive : w.dead = false
  noError : w.status ≠ .error ∧ w.status ≠ .aborted
  exited : w.place = .exited → w.stopping = true
  stopping : w.stopping = true → p.Ending
  fresh : next ≤ i → w.status = .idle ∧ (w.place = .clearing ∨ w.place = .waiting) ∧ w.kicked = false
  id : i < next → w.batchId = i
  working : w.status = .working →
    w.batch.isSome = true ∧ (w.place = .clearing ∨ w.place = .waiting ∨ w.place = .woken ∨ w.place = .running)
  idle : i < next → w.status = .idle → p.Finishing ∧ Rests w ∧ w.place ≠ .signalling
  quiet : p.Finishing ∨ (∃ k, p = .wait k ∧ i < k) → w.status ≠ .working
  before : i < next → (completed ≤ i ↔ w.status = .working ∨ w.place = .signalling)

/-- Before anything goes wrong. -/
structure Orderly (items : List (Option B)) (n : Nat) (f : Farm B R) : Prop where
  max : f.maxWorkers = n
  shouldStop : f.shouldStop = false
  interrupted : f.interrupted = false
  upper : f.workers.length ≤ n
  length : f.workers.length = f.batchId ∨ (f.point = .findIdle ∧ f.workers.length = f.batchId + 1)
  point : f.point = .next ∨ f.point.Dispatching ∨ f.point.Dispatched
  task : f.point.Dispatching → f.todo ≠ []
  over : f.point.Dispatched → f.todo = []
  range : ∀ i, f.point = .join i → i < f.workers.length
  worker : ∀ (i : Nat) (w : Worker B R), f.workers[i]? = some w → Tidy f.point f.batchId f.completed i w

/-- A thread that nobody will kick. -/
def Stuck (f : Farm B R) (j : Nat) : Prop :=
  ∃ w, f.workers[j]? = some w ∧ w.kicked = false ∧ (w.place = .signalling ∨ w.place = .resetting ∨ w.place = .waiting)

/-- Results were pulled while a batch was to be dispatched. -/
structure Doomed (f : Farm B R) (j : Nat) : Prop where
  stuck : Stuck f j
  point : ((f.point = .collect .dispatch ∨ ∃ i id, f.point = .pull .dispatch i id) ∧
      ∀ (i : Nat) (w : Worker B R), f.workers[i]? = some w → w.status ≠ .error ∧ w.status ≠ .aborted ∧ w.stopping = false) ∨
    ∃ i, i ≤ j ∧ (f.point = .destroy i ∨ f.point = .destroyStop i ∨ f.point = .destroyJoin i)

/-- Results are going to be pulled while a batch is to be dispatched. -/
def Early (f : Farm B R) : Prop :=
  ∃ j, Doomed f j ∧ f.point = .collect .dispatch ∧ f.todo ≠ [] ∧ f.workers.length = f.batchId

theorem orderly_start : Orderly items n (start n items : Farm B R) where
  max := rfl
  shouldStop := rfl
  interrupted := rfl
  upper := Nat.zero_le _
  length := Or.inl rfl
  point := Or.inl rfl
  task h := h.elim
  over h := h.elim
  range i h := by cases h
  worker i w h := by simp [start] at h

/-! ## After results were pulled too early -/

theorem Stuck.set {f : Farm B R} {j i : Nat} {w v : Worker B R} (h : Stuck f j) (hi : f.workers[i]? = some w)
    (hv : (w.kicked = false ∧ (w.place = .signalling ∨ w.place = .resetting ∨ w.place = .waiting)) →
      (v.kicked = false ∧ (v.place = .signalling ∨ v.place = .resetting ∨ v.place = .waiting))) : Stuck (f.setWorker i v) j := by
  obtain ⟨u, h1, h2⟩ := h
  by_cases e : j = i
  · subst e
    rw [hi] at h1
    cases h1
    exact ⟨v, set_self v hi, hv h2⟩
  · exact ⟨u, by show (f.workers.set i v)[j]? = _; rw [set_other v e]; exact h1, h2⟩

theorem doomed_worker {f g : Farm B R} {j i : Nat} {w : Worker B R} (hc : Calm recover items) (hinv : Inv recover items f)
    (h : Doomed f j) (hi : f.workers[i]? = some w) (hs : workerStep recover f i w = .ok g) : Doomed g j := by
  -- what a step may do
  have key : ∀ (g' : Farm B R) (v : Worker B R), g'.workers = f.workers.set i v → g'.point = f.point → v.stopping = w.stopping →
      ((w.kicked = false ∧ (w.place = .signalling ∨ w.place = .resetting ∨ w.place = .waiting)) →
        (v.kicked = false ∧ (v.place = .signalling ∨ v.place = .resetting ∨ v.place = .waiting))) →
      (w.status ≠ .error ∧ w.status ≠ .aborted ∧ w.stopping = false → v.status ≠ .error ∧ v.status ≠ .aborted) →
      Doomed g' j := by
    intro g' v hg hp h1 h2 h3
    have hst := h.stuck.set hi h2
    refine ⟨?_, ?_⟩
    · obtain ⟨u, hu⟩ := hst
      exact ⟨u, by rw [hg]; exact hu.1, hu.2⟩
    · rw [hp]
      rcases h.point with ⟨ha, hb⟩ | hb
      · refine Or.inl ⟨ha, ?_⟩
        intro k x hx
        rw [hg] at hx
        rcases get_set hi hx with ⟨-, rfl⟩ | ⟨-, hx⟩
        · obtain ⟨q1, q2, q3⟩ := hb i w hi
          obtain ⟨r1, r2⟩ := h3 ⟨q1, q2, q3⟩
          exact ⟨r1, r2, h1.trans q3⟩
        · exact hb k x hx
      · exact Or.inr hb
  unfold workerStep at hs
  cases hp : w.place with
  | clearing =>
    rw [hp] at hs
    cases hs
    exact key _ _ rfl rfl rfl (fun hh => by rw [hp] at hh; rcases hh.2 with h | h | h <;> cases h) (fun hh => ⟨hh.1, hh.2.1⟩)
  | waiting =>
    rw [hp] at hs
    simp only at hs
    split at hs
    · next hk =>
      cases hs
      exact key _ _ rfl rfl rfl (fun hh => by rw [hh.1] at hk; cases hk) (fun hh => ⟨hh.1, hh.2.1⟩)
    · cases hs; exact h
  | woken =>
    rw [hp] at hs
    cases hs
    exact key _ _ rfl rfl rfl (fun hh => by rw [hp] at hh; rcases hh.2 with h | h | h <;> cases h) (fun hh => ⟨hh.1, hh.2.1⟩)
  | running =>
    rw [hp] at hs
    have hno : (w.kicked = false ∧ (w.place = .signalling ∨ w.place = .resetting ∨ w.place = .waiting)) → False :=
      fun hh => by rw [hp] at hh; rcases hh.2 with h | h | h <;> cases h
    simp only at hs
    split at hs
    · cases hs
    · split at hs
      · cases hs
      · next b hb =>
        have hw := hinv.worker i w hi
        have hitem := hw.batch b hb
        have hres := hc w.batchId (List.getElem?_eq_some_iff.mp hitem).1
        unfold resultOf at hres
        rw [hitem] at hres
        change (recover b).isSome = true at hres
        split at hs
        · next hr => rw [hr] at hres; cases hres
        · split at hs
          · next hst =>
            cases hs
            exact key _ _ rfl rfl rfl (fun hh => (hno hh).elim) (fun hh => by rw [hh.2.2] at hst; cases hst)
          · cases hs
            exact key _ _ rfl rfl rfl (fun hh => (hno hh).elim) (fun _ => ⟨(fun hh => by cases hh), (fun hh => by cases hh)⟩)
  | signalling =>
    rw [hp] at hs
    simp only at hs
    split at hs
    · cases hs
    · split at hs
      · cases hs
        exact key _ _ rfl rfl rfl (fun hh => ⟨hh.1, Or.inr (Or.inl rfl)⟩) (fun hh => ⟨hh.1, hh.2.1⟩)
      · cases hs; exact h
  | resetting =>
    rw [hp] at hs
    simp only at hs
    split at hs
    · cases hs
    · cases hs
      exact key _ _ rfl rfl rfl (fun hh => ⟨hh.1, Or.inr (Or.inr rfl)⟩) (fun hh => ⟨hh.1, hh.2.1⟩)
  | exited => rw [hp] at hs; cases hs; exact h

theorem doomed_main {f g : Farm B R} {j : Nat} {memory : Bool} (hinv : Inv recover items f) (h : Doomed f j)
    (hs : mainStep memory f = .ok g) : Doomed g j := by
  have thrown : ∀ f' : Farm B R, Stuck f' j → Doomed f'.throw j := fun f' h' =>
    ⟨h', Or.inr ⟨0, Nat.zero_le _, Or.inl rfl⟩⟩
  obtain ⟨u, hu1, hu2, hu3⟩ := id h.stuck
  unfold mainStep at hs
  rcases h.point with ⟨hp | ⟨i, id, hp⟩, hw⟩ | ⟨i, hij, hp | hp | hp⟩
  · rw [hp] at hs
    simp only at hs
    split at hs
    · rw [← Outcome.ok.inj hs]; exact thrown f h.stuck
    · cases hs
      exact ⟨h.stuck, Or.inl ⟨Or.inr ⟨_, _, rfl⟩, hw⟩⟩
  · have hent := hinv.entry (i, id) (by unfold Farm.pulled; rw [hp]; exact List.mem_cons_self)
    obtain ⟨w, hi, -, hov, -⟩ := hent
    change f.workers[i]? = some w at hi
    rw [hp] at hs
    simp only [hi] at hs
    obtain ⟨w1, w2, w3⟩ := hw i w hi
    cases hst : w.status with
    | idle => exact absurd hst hov.1
    | working => exact absurd hst hov.2
    | error => exact absurd hst w1
    | aborted => exact absurd hst w2
    | ready =>
      rw [hst] at hs
      simp only at hs
      have hset := h.stuck.set (v := { w with status := .idle, results := [] }) hi fun hh => hh
      split at hs
      · rw [← Outcome.ok.inj hs]
        exact thrown _ hset
      · rw [← Outcome.ok.inj hs]
        refine ⟨hset, Or.inl ⟨Or.inl rfl, ?_⟩⟩
        intro k x hx
        rcases get_set hi hx with ⟨-, rfl⟩ | ⟨-, hx⟩
        · exact ⟨(fun hh => by cases hh), (fun hh => by cases hh), w3⟩
        · exact hw k x hx
  · rw [hp] at hs
    simp only at hs
    split at hs
    · next hn =>
      exfalso
      have := List.getElem?_eq_none_iff.mp hn
      have := (List.getElem?_eq_some_iff.mp hu1).1
      omega
    · next w hi =>
      rw [← Outcome.ok.inj hs]
      exact ⟨h.stuck.set hi fun hh => hh, Or.inr ⟨i, hij, Or.inr (Or.inl rfl)⟩⟩
  · rw [hp] at hs
    simp only at hs
    split at hs
    · cases hs
    · next w hi =>
      split at hs
      · cases hs
      · rw [← Outcome.ok.inj hs]
        exact ⟨h.stuck.set hi fun hh => hh, Or.inr ⟨i, hij, Or.inr (Or.inr rfl)⟩⟩
  · rw [hp] at hs
    simp only at hs
    split at hs
    · cases hs
    · next w hi =>
      split at hs
      · next hex =>
        cases hs
        refine ⟨h.stuck, Or.inr ⟨i + 1, ?_, Or.inl rfl⟩⟩
        rcases Nat.lt_or_eq_of_le hij with hlt | rfl
        · exact hlt
        · rw [hi] at hu1
          cases hu1
          rw [hex] at hu3
          rcases hu3 with e | e | e <;> cases e
      · cases hs; exact h

theorem doomed_step {f g : Farm B R} {j : Nat} (hc : Calm recover items) (hinv : Inv recover items f) (h : Doomed f j) (a : Actor)
    (hs : step recover f a = .ok g) : Doomed g j := by
  cases a with
  | main => exact doomed_main hinv h hs
  | mainNoMemory => exact doomed_main hinv h hs
  | worker i =>
    simp only [step] at hs
    split at hs
    · cases hs; exact h
    · next w hi => exact doomed_worker hc hinv h hi hs
  | user => cases hs; exact ⟨h.stuck, h.point⟩

theorem doomed_run {f g : Farm B R} {j : Nat} (hc : Calm recover items) (hinv : Inv recover items f) (h : Doomed f j)
    {as : List Actor} (hs : run recover as f = .ok g) : Doomed g j :=
  (run_invariant (P := fun f => Inv recover items f ∧ Doomed f j) (Q := fun _ => True)
    (fun _ _ a h _ hs => ⟨inv_step a h.1 hs, doomed_step hc h.1 h.2 a hs⟩) (fun _ _ => trivial) ⟨hinv, h⟩ hs).2

theorem Doomed.point_ne {f : Farm B R} {j : Nat} (h : Doomed f j) : f.point ≠ .done ∧ f.point ≠ .thrown := by
  rcases h.point with ⟨hp | ⟨i, id, hp⟩, -⟩ | ⟨i, -, hp | hp | hp⟩ <;>
    (rw [hp]; exact ⟨fun hh => (by cases hh), fun hh => (by cases hh)⟩)

/-! ## Before that -/

theorem Orderly.setWorker {f : Farm B R} (h : Orderly items n f) {i : Nat} {w v : Worker B R} (hi : f.workers[i]? = some w)
    (hv : Tidy f.point f.batchId f.completed i v) : Orderly items n (f.setWorker i v) where
  max := h.max
  shouldStop := h.shouldStop
  interrupted := h.interrupted
  upper := by show (f.workers.set i v).length ≤ n; rw [List.length_set]; exact h.upper
  length := by
    show (f.workers.set i v).length = _ ∨ (_ ∧ (f.workers.set i v).length = _)
    rw [List.length_set]; exact h.length
  point := h.point
  task := h.task
  over := h.over
  range k hk := by show k < (f.workers.set i v).length; rw [List.length_set]; exact h.range k hk
  worker k x hx := by
    rcases get_set hi hx with ⟨rfl, rfl⟩ | ⟨-, hx⟩
    · exact hv
    · exact h.worker k x hx

theorem Orderly.not_gone {f : Farm B R} (h : Orderly items n f) : f.gone = false := by
  unfold Farm.gone
  rcases h.point with hp | hp | hp
  · rw [hp]
  · cases hq : f.point <;> rw [hq] at hp <;> first | rfl | exact hp.elim
  · cases hq : f.point <;> rw [hq] at hp <;> first | rfl | exact hp.elim

theorem orderly_worker {f : Farm B R} (hc : Calm recover items) (hinv : Inv recover items f) (h : Orderly items n f) {i : Nat}
    {w : Worker B R} (hi : f.workers[i]? = some w) :
    ∃ g, workerStep recover f i w = .ok g ∧ Orderly items n g ∧ g.point = f.point := by
  have hw := hinv.worker i w hi
  have ht := h.worker i w hi
  have old : w.status ≠ .idle → i < f.batchId := fun hs => Nat.lt_of_not_le fun hle => hs (ht.fresh hle).1
  unfold workerStep
  cases hp : w.place with
  | clearing =>
    refine ⟨_, rfl, h.setWorker hi ?_, rfl⟩
    refine ⟨ht.alive, ht.noError, (fun hh => by cases hh), ht.stopping, ?_, ht.id, ?_, ?_, ht.quiet, ?_⟩
    · exact fun hh => ⟨(ht.fresh hh).1, Or.inr rfl, rfl⟩
    · exact fun hh => ⟨(ht.working hh).1, Or.inr (Or.inl rfl)⟩
    · exact fun h1 h2 => absurd hp (ht.idle h1 h2).2.1.clearing
    · intro h1
      rw [ht.before h1, hp]
      constructor
      · rintro (h2 | h2)
        · exact Or.inl h2
        · cases h2
      · rintro (h2 | h2)
        · exact Or.inl h2
        · cases h2
  | waiting =>
    simp only
    split
    · next hk =>
      refine ⟨_, rfl, h.setWorker hi ?_, rfl⟩
      refine ⟨ht.alive, ht.noError, (fun hh => by cases hh), ht.stopping, ?_, ht.id, ?_, ?_, ht.quiet, ?_⟩
      · intro hh
        have := (ht.fresh hh).2.2
        rw [hk] at this
        cases this
      · exact fun hh => ⟨(ht.working hh).1, Or.inr (Or.inr (Or.inl rfl))⟩
      · intro h1 h2
        obtain ⟨k1, k2, k3⟩ := ht.idle h1 h2
        exact ⟨k1, ⟨(fun hh => by cases hh), fun _ => k2.kick hk, (fun hh => by cases hh), (fun hh => by cases hh)⟩,
          (fun hh => by cases hh)⟩
      · intro h1
        rw [ht.before h1, hp]
        constructor
        · rintro (h2 | h2)
          · exact Or.inl h2
          · cases h2
        · rintro (h2 | h2)
          · exact Or.inl h2
          · cases h2
    · exact ⟨_, rfl, h, rfl⟩
  | woken =>
    have nosig : (if w.stopping = true then Place.exited else .running) ≠ .signalling := by split <;> decide
    refine ⟨_, rfl, h.setWorker hi ?_, rfl⟩
    refine ⟨ht.alive, ht.noError, ?_, ht.stopping, ?_, ht.id, ?_, ?_, ht.quiet, ?_⟩
    · intro hh
      change (if w.stopping = true then Place.exited else .running) = .exited at hh
      split at hh
      · next hst => exact hst
      · cases hh
    · intro hh
      rcases (ht.fresh hh).2.1 with e | e <;> (rw [hp] at e; cases e)
    · intro hh
      refine ⟨(ht.working hh).1, ?_⟩
      show (if w.stopping = true then Place.exited else .running) = .clearing ∨ _
      cases hst : w.stopping with
      | false => exact Or.inr (Or.inr (Or.inr rfl))
      | true => 
        have := ht.stopping hst
        refine absurd hh (ht.quiet (Or.inl ?_))
        cases hq : f.point <;> rw [hq] at this <;> first | exact this.elim | trivial
    · intro h1 h2
      obtain ⟨k1, k2, k3⟩ := ht.idle h1 h2
      have hst := k2.woken hp
      refine ⟨k1, ⟨k2.kick, fun _ => hst, ?_, ?_⟩, nosig⟩
      · show (if w.stopping = true then Place.exited else .running) ≠ _
        rw [if_pos hst]; decide
      · show (if w.stopping = true then Place.exited else .running) ≠ _
        rw [if_pos hst]; decide
    · intro h1
      rw [ht.before h1, hp]
      constructor
      · rintro (h2 | h2)
        · exact Or.inl h2
        · cases h2
      · rintro (h2 | h2)
        · exact Or.inl h2
        · exact absurd h2 nosig
  | running =>
    have hst := hw.running hp
    obtain ⟨b, hb⟩ := Option.isSome_iff_exists.mp (ht.working hst).1
    have hitem := hw.batch b hb
    have hres := hc w.batchId (List.getElem?_eq_some_iff.mp hitem).1
    unfold resultOf at hres
    rw [hitem] at hres
    obtain ⟨rs, hr⟩ := Option.isSome_iff_exists.mp (show (recover b).isSome = true from hres)
    have hlt := old (by rw [hst]; decide)
    have key : ∀ (s : Status) (rs : List R), s.Over → s ≠ .error ∧ s ≠ .aborted →
        Tidy f.point f.batchId f.completed i { w with results := rs, status := s, place := .signalling } := by
      intro s rs h1 h2
      refine ⟨ht.alive, h2, (fun hh => by cases hh), ht.stopping, fun hh => absurd hh (Nat.not_le.mpr hlt), ht.id,
        fun hh => absurd hh h1.2, fun _ hh => absurd hh h1.1, fun _ => h1.2, ?_⟩
      intro hlt
      rw [ht.before hlt]
      exact ⟨fun _ => Or.inr rfl, fun _ => Or.inl hst⟩
    have hal : ¬ w.dead = true := by rw [ht.alive]; decide
    rw [hb] at key
    simp only [if_neg hal, hb, hr]
    have hnst : ¬ w.stopping = true := by
      intro hh
      have := ht.stopping hh
      refine absurd hst (ht.quiet (Or.inl ?_))
      cases hq : f.point <;> rw [hq] at this <;> first | exact this.elim | trivial
    rw [if_neg hnst]
    exact ⟨_, rfl, h.setWorker hi (key .ready rs ⟨by decide, by decide⟩ ⟨by decide, by decide⟩), rfl⟩
  | signalling =>
    have hov := hw.signalling hp
    have hlt := old hov.1
    have hid := ht.id hlt
    have hal : ¬ (w.dead || f.gone) = true := by rw [ht.alive, h.not_gone]; decide
    simp only [if_neg hal]
    split
    · next hcomp =>
      refine ⟨_, rfl, ?_, rfl⟩
      have hset : ∀ (k : Nat) (x : Worker B R), (f.workers.set i { w with place := .resetting })[k]? = some x →
          Tidy f.point f.batchId (f.completed + 1) k x := by
        intro k x hx
        rcases get_set hi hx with ⟨rfl, rfl⟩ | ⟨hne, hx⟩
        · refine ⟨ht.alive, ht.noError, (fun hh => by cases hh), ht.stopping, fun hh => absurd hh (Nat.not_le.mpr hlt), ht.id,
            fun hh => absurd hh hov.2, fun _ hh => absurd hh hov.1, ht.quiet, ?_⟩
          intro _
          constructor
          · intro hle
            omega
          · rintro (h2 | h2)
            · exact absurd h2 hov.2
            · cases h2
        · have hx' := h.worker k x hx
          refine ⟨hx'.alive, hx'.noError, hx'.exited, hx'.stopping, hx'.fresh, hx'.id, hx'.working, hx'.idle, hx'.quiet, ?_⟩
          intro hk
          rw [← hx'.before hk]
          omega
      have hlen : (f.workers.set i { w with place := .resetting }).length = f.workers.length := List.length_set
      refine ⟨h.max, h.shouldStop, h.interrupted, ?_, ?_, h.point, h.task, h.over, ?_, hset⟩
      · show (f.workers.set i { w with place := .resetting }).length ≤ n
        rw [hlen]; exact h.upper
      · show (f.workers.set i { w with place := .resetting }).length = _ ∨ (_ ∧ (f.workers.set i { w with place := .resetting }).length = _)
        rw [hlen]; exact h.length
      · intro k hk
        show k < (f.workers.set i { w with place := .resetting }).length
        rw [hlen]; exact h.range k hk
    · exact ⟨_, rfl, h, rfl⟩
  | resetting =>
    have hal : ¬ w.dead = true := by rw [ht.alive]; decide
    simp only [if_neg hal]
    refine ⟨_, rfl, h.setWorker hi ?_, rfl⟩
    have hnw : w.status ≠ .working := by
      intro hh
      rcases (ht.working hh).2 with e | e | e | e <;> (rw [hp] at e; cases e)
    refine ⟨ht.alive, ht.noError, (fun hh => by cases hh), ht.stopping, ?_, ht.id, fun hh => absurd hh hnw, ?_, ht.quiet, ?_⟩
    · intro hh
      rcases (ht.fresh hh).2.1 with e | e <;> (rw [hp] at e; cases e)
    · intro h1 h2
      obtain ⟨k1, k2, k3⟩ := ht.idle h1 h2
      exact ⟨k1, ⟨k2.kick, (fun hh => by cases hh), (fun hh => by cases hh), (fun hh => by cases hh)⟩, (fun hh => by cases hh)⟩
    · intro h1
      rw [ht.before h1, hp]
      constructor
      · rintro (h2 | h2)
        · exact Or.inl h2
        · cases h2
      · rintro (h2 | h2)
        · exact Or.inl h2
        · cases h2
  | exited => exact ⟨_, rfl, h, rfl⟩

theorem Tidy.repoint {p p' : Point} {next completed i : Nat} {w : Worker B R} (h : Tidy p next completed i w)
    (h1 : p.Ending → p'.Ending) (h2 : p.Finishing → p'.Finishing)
    (h3 : p'.Finishing ∨ (∃ k, p' = .wait k ∧ i < k) → w.status ≠ .working) : Tidy p' next completed i w :=
  ⟨h.alive, h.noError, h.exited, fun e => h1 (h.stopping e), h.fresh, h.id, h.working,
    fun a b => ⟨h2 (h.idle a b).1, (h.idle a b).2⟩, h3, h.before⟩

/-- Another point and the same workers. -/
theorem Orderly.repoint {f : Farm B R} (h : Orderly items n f) (p : Point) (hl : f.workers.length = f.batchId ∨ p = .findIdle)
    (hp : p = .next ∨ p.Dispatching ∨ p.Dispatched) (ht : p.Dispatching → f.todo ≠ []) (ho : p.Dispatched → f.todo = [])
    (hr : ∀ i, p = .join i → i < f.workers.length) (h1 : f.point.Ending → p.Ending) (h2 : f.point.Finishing → p.Finishing)
    (h3 : ∀ (i : Nat) (w : Worker B R), f.workers[i]? = some w → p.Finishing ∨ (∃ k, p = .wait k ∧ i < k) → w.status ≠ .working) :
    Orderly items n { f with point := p } where
  max := h.max
  shouldStop := h.shouldStop
  interrupted := h.interrupted
  upper := h.upper
  length := by
    rcases h.length with e | ⟨-, e⟩
    · exact Or.inl e
    · rcases hl with hl | hl
      · exact Or.inl hl
      · exact Or.inr ⟨hl, e⟩
  point := hp
  task := ht
  over := ho
  range := hr
  worker i w hi := (h.worker i w hi).repoint h1 h2 (h3 i w hi)

theorem tidy_fresh {p : Point} {next completed i : Nat} (hi : next ≤ i) : Tidy p next completed i ({} : Worker B R) where
  alive := rfl
  noError := ⟨(fun h => by cases h), (fun h => by cases h)⟩
  exited h := by cases h
  stopping h := by cases h
  fresh _ := ⟨rfl, Or.inl rfl, rfl⟩
  id h := absurd h (Nat.not_lt.mpr hi)
  working h := by cases h
  idle h := absurd h (Nat.not_lt.mpr hi)
  quiet _ h := by cases h
  before h := absurd h (Nat.not_lt.mpr hi)

theorem orderly_main {f : Farm B R} (hn : 1 ≤ n) (hc : Calm recover items) (hinv : Inv recover items f) (h : Orderly items n f) :
    ∃ g, mainStep true f = .ok g ∧ (Orderly items n g ∨ Early g) := by
  have hstop : f.stopped = false := by unfold Farm.stopped; rw [h.shouldStop, h.interrupted]; rfl
  have hns : ¬ f.stopped = true := by rw [hstop]; decide
  unfold mainStep
  cases hp : f.point with
  | next =>
    have hlen : f.workers.length = f.batchId := by
      rcases h.length with e | ⟨e, -⟩
      · exact e
      · rw [hp] at e; cases e
    simp only [if_neg hns]
    cases htodo : f.todo with
    | nil =>
      have e : Orderly items n { f with point := .wait 0 } := by
        refine h.repoint (.wait 0) (Or.inl hlen) (Or.inr (Or.inr trivial)) (fun hh => hh.elim) (fun _ => htodo)
          (fun i hh => by cases hh) (fun hh => by rw [hp] at hh; exact hh.elim) (fun hh => by rw [hp] at hh; exact hh.elim) ?_
        rintro i w - (hh | ⟨k, hk, hlt⟩)
        · exact hh.elim
        · cases hk; exact absurd hlt (Nat.not_lt_zero _)
      exact ⟨_, rfl, Or.inl (by simpa only [htodo] using e)⟩
    | cons o rest =>
      have hitem : items[f.batchId]? = some o := by
        have h0 : (items.drop f.batchId)[0]? = some o := by rw [← hinv.todo, htodo]; rfl
        rw [List.getElem?_drop] at h0
        exact h0
      cases o with
      | none =>
        have := hc f.batchId (List.getElem?_eq_some_iff.mp hitem).1
        unfold resultOf at this
        rw [hitem] at this
        cases this
      | some b =>
        simp only [if_true]
        split
        · next hw =>
          refine ⟨_, rfl, Or.inl ?_⟩
          rw [hw] at hlen
          refine ⟨h.max, h.shouldStop, h.interrupted, hn, Or.inr ⟨rfl, ?_⟩, Or.inr (Or.inl trivial), ?_, (fun hh => hh.elim),
            (fun i hh => by cases hh), ?_⟩
          · show 1 = f.batchId + 1
            rw [← hlen]; rfl
          · intro _ hh
            cases hh
          · intro i w hi
            have hm : w = {} := by simpa using List.mem_of_getElem? hi
            rw [hm]
            refine tidy_fresh ?_
            show f.batchId ≤ i
            rw [← hlen]; exact Nat.zero_le _
        · have e : Orderly items n { f with point := .findIdle } := by
            refine h.repoint .findIdle (Or.inr rfl) (Or.inr (Or.inl trivial)) ?_ (fun hh => hh.elim)
              (fun i hh => by cases hh) (fun hh => by rw [hp] at hh; exact hh.elim) (fun hh => by rw [hp] at hh; exact hh.elim) ?_
            · intro _ hh; rw [htodo] at hh; cases hh
            · rintro i w - (hh | ⟨k, hk, -⟩)
              · exact hh.elim
              · cases hk
          exact ⟨_, rfl, Or.inl (by simpa only [htodo] using e)⟩
  | findIdle =>
    have htask := h.task (by rw [hp]; trivial)
    cases htodo : f.todo with
    | nil => exact absurd htodo htask
    | cons o rest =>
      have hitem : items[f.batchId]? = some o := by
        have h0 : (items.drop f.batchId)[0]? = some o := by rw [← hinv.todo, htodo]; rfl
        rw [List.getElem?_drop] at h0
        exact h0
      cases o with
      | none =>
        have := hc f.batchId (List.getElem?_eq_some_iff.mp hitem).1
        unfold resultOf at this
        rw [hitem] at this
        cases this
      | some b =>
        simp only
        cases ha : assign b f.batchId f.workers with
        | none =>
          have e : Orderly items n { f with point := .findReady 0 } := by
            refine h.repoint (.findReady 0) (Or.inl ?_) (Or.inr (Or.inl trivial)) ?_ (fun hh => hh.elim)
              (fun i hh => by cases hh) (fun hh => by rw [hp] at hh; exact hh.elim) (fun hh => by rw [hp] at hh; exact hh.elim) ?_
            · rcases h.length with e | ⟨-, e⟩
              · exact e
              · exfalso
                have hlt : f.batchId < f.workers.length := by omega
                have hg := List.getElem?_eq_getElem hlt
                exact assign_none ha _ (List.getElem_mem hlt) ((h.worker _ _ hg).fresh (Nat.le_refl _)).1
            · intro _ hh; rw [htodo] at hh; cases hh
            · rintro i w - (hh | ⟨k, hk, -⟩)
              · exact hh.elim
              · cases hk
          exact ⟨_, rfl, Or.inl (by simpa only [htodo] using e)⟩
        | some ws =>
          obtain ⟨i, w, hi, hidle, -, rfl⟩ := assign_some ha
          have hilt := (List.getElem?_eq_some_iff.mp hi).1
          have ht := h.worker i w hi
          have hnext : f.batchId ≤ i := by
            apply Nat.le_of_not_lt
            intro hlt
            have := (ht.idle hlt hidle).1
            rw [hp] at this
            exact this.elim
          have hlen : f.workers.length = f.batchId + 1 := by
            rcases h.length with e | ⟨-, e⟩ <;> omega
          have hieq : i = f.batchId := by omega
          obtain ⟨-, hplace, -⟩ := ht.fresh hnext
          refine ⟨_, rfl, Or.inl ?_⟩
          have main : ∀ p : Point, (p = .wait 0 ∧ rest = [] ∨ p = .next) → Orderly items n
              { f with workers := f.workers.set i { w with batch := some b, batchId := f.batchId, status := .working, kicked := true },
                       batchId := f.batchId + 1, todo := rest, point := p } := by
            intro p hpp
            have hcase : ¬ p.Dispatching ∧ ¬ p.Finishing ∧ ¬ p.Ending ∧ (∀ k, p = .wait k → k = 0) := by
              rcases hpp with ⟨rfl, -⟩ | rfl
              · exact ⟨id, id, id, fun k hk => by cases hk; rfl⟩
              · exact ⟨id, id, id, fun k hk => by cases hk⟩
            refine ⟨h.max, h.shouldStop, h.interrupted, ?_, Or.inl ?_, ?_, fun hh => absurd hh hcase.1, ?_, ?_, ?_⟩
            · show (f.workers.set i _).length ≤ n
              rw [List.length_set]; exact h.upper
            · show (f.workers.set i _).length = f.batchId + 1
              rw [List.length_set]; exact hlen
            · rcases hpp with ⟨rfl, -⟩ | rfl
              · exact Or.inr (Or.inr trivial)
              · exact Or.inl rfl
            · intro hh
              rcases hpp with ⟨-, e⟩ | rfl
              · exact e
              · exact hh.elim
            · intro k hk
              rcases hpp with ⟨rfl, -⟩ | rfl <;> cases hk
            · intro k x hx
              rcases get_set hi hx with ⟨rfl, rfl⟩ | ⟨hne, hx⟩
              · refine ⟨ht.alive, ⟨(fun hh => by cases hh), (fun hh => by cases hh)⟩, ?_, ?_, ?_, fun _ => hieq.symm, ?_, (fun _ hh => by cases hh), ?_, ?_⟩
                · intro hh
                  rcases hplace with e | e <;> (rw [show w.place = .exited from hh] at e; cases e)
                · intro hh
                  have := ht.stopping hh
                  rw [hp] at this
                  exact this.elim
                · intro hh
                  change f.batchId + 1 ≤ k at hh
                  omega
                · intro _
                  refine ⟨rfl, ?_⟩
                  rcases hplace with e | e
                  · exact Or.inl e
                  · exact Or.inr (Or.inl e)
                · rintro (hh | ⟨k, hk, hlt⟩)
                  · exact absurd hh hcase.2.1
                  · rw [hcase.2.2.2 k hk] at hlt
                    exact absurd hlt (Nat.not_lt_zero _)
                · intro _
                  refine ⟨fun _ => Or.inl rfl, fun _ => ?_⟩
                  have := hinv.completed
                  show f.completed ≤ k
                  omega
              · have hx' := h.worker k x hx
                have hklt := (List.getElem?_eq_some_iff.mp hx).1
                have hk : k < f.batchId := by omega
                refine ⟨hx'.alive, hx'.noError, hx'.exited, ?_, ?_, fun _ => hx'.id hk, hx'.working, ?_, ?_, fun _ => hx'.before hk⟩
                · intro hh
                  have := hx'.stopping hh
                  rw [hp] at this
                  exact this.elim
                · intro hh
                  change f.batchId + 1 ≤ k at hh
                  omega
                · intro _ hh
                  have := (hx'.idle hk hh).1
                  rw [hp] at this
                  exact this.elim
                · rintro (hh | ⟨m, hm, hlt⟩)
                  · exact absurd hh hcase.2.1
                  · rw [hcase.2.2.2 m hm] at hlt
                    exact absurd hlt (Nat.not_lt_zero _)
          refine main _ ?_
          split
          · next e => exact Or.inl ⟨rfl, e⟩
          · exact Or.inr rfl
  | findReady i =>
    have hlen : f.workers.length = f.batchId := by
      rcases h.length with e | ⟨e, -⟩
      · exact e
      · rw [hp] at e; cases e
    have htask := h.task (by rw [hp]; trivial)
    simp only
    cases hi : f.workers[i]? with
    | none =>
      refine ⟨_, rfl, Or.inl (h.repoint .grow (Or.inl hlen) (Or.inr (Or.inl trivial)) (fun _ => htask) (fun hh => hh.elim)
        (fun i hh => by cases hh) (fun hh => by rw [hp] at hh; exact hh.elim) (fun hh => by rw [hp] at hh; exact hh.elim) ?_)⟩
      rintro i w - (hh | ⟨k, hk, -⟩)
      · exact hh.elim
      · cases hk
    | some w =>
      simp only
      split
      · refine ⟨_, rfl, Or.inl (h.repoint (.findReady (i + 1)) (Or.inl hlen) (Or.inr (Or.inl trivial)) (fun _ => htask)
          (fun hh => hh.elim) (fun i hh => by cases hh) (fun hh => by rw [hp] at hh; exact hh.elim)
          (fun hh => by rw [hp] at hh; exact hh.elim) ?_)⟩
        rintro i w - (hh | ⟨k, hk, -⟩)
        · exact hh.elim
        · cases hk
      · next hst =>
        refine ⟨_, rfl, Or.inr ⟨i, ⟨⟨w, hi, ?_⟩, Or.inl ⟨Or.inl rfl, ?_⟩⟩, rfl, htask, hlen⟩⟩
        · have hov : w.status.Over := ⟨fun e => hst (Or.inl e), fun e => hst (Or.inr e)⟩
          have hr := (hinv.worker i w hi).over hov
          have ht := h.worker i w hi
          have hnst : w.stopping = false := by
            cases hq : w.stopping with
            | false => rfl
            | true =>
              have := ht.stopping hq
              rw [hp] at this
              exact this.elim
          refine ⟨?_, ?_⟩
          · cases hq : w.kicked with
            | false => rfl
            | true => have := hr.kick hq; rw [hnst] at this; cases this
          · cases hq : w.place with
            | clearing => exact absurd hq hr.clearing
            | waiting => exact Or.inr (Or.inr rfl)
            | woken => have := hr.woken hq; rw [hnst] at this; cases this
            | running => exact absurd hq hr.running
            | signalling => exact Or.inl rfl
            | resetting => exact Or.inr (Or.inl rfl)
            | exited => have := ht.exited hq; rw [hnst] at this; cases this
        · intro k x hx
          have ht := h.worker k x hx
          refine ⟨ht.noError.1, ht.noError.2, ?_⟩
          cases hq : x.stopping with
          | false => rfl
          | true =>
            have := ht.stopping hq
            rw [hp] at this
            exact this.elim
  | grow =>
    have hlen : f.workers.length = f.batchId := by
      rcases h.length with e | ⟨e, -⟩
      · exact e
      · rw [hp] at e; cases e
    have htask := h.task (by rw [hp]; trivial)
    simp only [if_true]
    split
    · next hne =>
      rw [h.max] at hne
      refine ⟨_, rfl, Or.inl ⟨h.max, h.shouldStop, h.interrupted, ?_, Or.inr ⟨rfl, ?_⟩, Or.inr (Or.inl trivial), fun _ => htask,
        (fun hh => hh.elim), (fun i hh => by cases hh), ?_⟩⟩
      · show (f.workers ++ [({} : Worker B R)]).length ≤ n
        rw [List.length_append, List.length_singleton]
        have := h.upper
        omega
      · show (f.workers ++ [({} : Worker B R)]).length = f.batchId + 1
        rw [List.length_append, List.length_singleton, hlen]
      · intro i w hi
        change (f.workers ++ [({} : Worker B R)])[i]? = some w at hi
        rw [List.getElem?_append] at hi
        split at hi
        · refine (h.worker i w hi).repoint (fun hh => by rw [hp] at hh; exact hh.elim) (fun hh => by rw [hp] at hh; exact hh.elim) ?_
          rintro (hh | ⟨k, hk, -⟩)
          · exact hh.elim
          · cases hk
        · next hge =>
          have hm : w = {} := by simpa using List.mem_of_getElem? hi
          rw [hm]
          exact tidy_fresh (by show f.batchId ≤ i; omega)
    · refine ⟨_, rfl, Or.inl (h.repoint .findIdle (Or.inl hlen) (Or.inr (Or.inl trivial)) (fun _ => htask) (fun hh => hh.elim)
        (fun i hh => by cases hh) (fun hh => by rw [hp] at hh; exact hh.elim) (fun hh => by rw [hp] at hh; exact hh.elim) ?_)⟩
      rintro i w - (hh | ⟨k, hk, -⟩)
      · exact hh.elim
      · cases hk
  | collect c =>
    have hpoint := h.point
    rw [hp] at hpoint
    cases c with
    | dispatch => rcases hpoint with e | e | e <;> first | exact e.elim | cases e
    | finish =>
      have hlen : f.workers.length = f.batchId := by
        rcases h.length with e | ⟨e, -⟩
        · exact e
        · rw [hp] at e; cases e
      have htodo : f.todo = [] := h.over (by rw [hp]; trivial)
      have hquiet : ∀ (i : Nat) (w : Worker B R), f.workers[i]? = some w → w.status ≠ .working :=
        fun i w hi => (h.worker i w hi).quiet (Or.inl (by rw [hp]; trivial))
      simp only
      split
      · refine ⟨_, rfl, Or.inl (h.repoint .load (Or.inl hlen) (Or.inr (Or.inr trivial)) (fun hh => hh.elim) (fun _ => htodo)
          (fun i hh => by cases hh) (fun hh => by rw [hp] at hh; exact hh.elim) (fun _ => trivial) (fun i w hi _ => hquiet i w hi))⟩
      · next x rest hq =>
        have e := h.repoint (.pull .finish x.1 x.2) (Or.inl hlen) (Or.inr (Or.inr trivial)) (fun hh => hh.elim) (fun _ => htodo)
          (fun i hh => by cases hh) (fun hh => by rw [hp] at hh; exact hh.elim) (fun _ => trivial) (fun i w hi _ => hquiet i w hi)
        exact ⟨_, rfl, Or.inl ⟨e.max, e.shouldStop, e.interrupted, e.upper, e.length, e.point, e.task, e.over, e.range, e.worker⟩⟩
  | pull c i id =>
    have hpoint := h.point
    rw [hp] at hpoint
    cases c with
    | dispatch => rcases hpoint with e | e | e <;> first | exact e.elim | cases e
    | finish =>
      have hlen : f.workers.length = f.batchId := by
        rcases h.length with e | ⟨e, -⟩
        · exact e
        · rw [hp] at e; cases e
      have htodo : f.todo = [] := h.over (by rw [hp]; trivial)
      obtain ⟨w, hi, -, hov, hns'⟩ := hinv.entry (i, id) (by unfold Farm.pulled; rw [hp]; exact List.mem_cons_self)
      change f.workers[i]? = some w at hi
      have ht := h.worker i w hi
      have hready : w.status = .ready := by
        cases hst : w.status with
        | idle => exact absurd hst hov.1
        | working => exact absurd hst hov.2
        | error => exact absurd hst ht.noError.1
        | aborted => exact absurd hst ht.noError.2
        | ready => rfl
      have hrest := (hinv.worker i w hi).over hov
      have hlt : i < f.batchId := by rw [← hlen]; exact (List.getElem?_eq_some_iff.mp hi).1
      have hv : Tidy f.point f.batchId f.completed i ({ w with status := .idle, results := [] } : Worker B R) := by
        refine ⟨ht.alive, ⟨(fun hh => by cases hh), (fun hh => by cases hh)⟩, ht.exited, ht.stopping,
          fun hh => absurd hh (Nat.not_le.mpr hlt), ht.id, (fun hh => by cases hh), ?_, (fun _ hh => by cases hh), ?_⟩
        · exact fun _ _ => ⟨by rw [hp]; trivial, ⟨hrest.kick, hrest.woken, hrest.running, hrest.clearing⟩, hns'⟩
        · intro hh
          rw [ht.before hh]
          constructor
          · rintro (h2 | h2)
            · exact absurd h2 hov.2
            · exact absurd h2 hns'
          · rintro (h2 | h2)
            · cases h2
            · exact absurd h2 hns'
      have hset := h.setWorker hi hv
      have e := hset.repoint (.collect .finish) (Or.inl (by
          show (f.workers.set i _).length = f.batchId
          rw [List.length_set]; exact hlen)) (Or.inr (Or.inr trivial)) (fun hh => hh.elim) (fun _ => htodo)
        (fun i hh => by cases hh) (fun hh => by change f.point.Ending at hh; rw [hp] at hh; exact hh.elim) (fun _ => trivial)
        (fun k x hx _ => (hset.worker k x hx).quiet (Or.inl (by show f.point.Finishing; rw [hp]; trivial)))
      simp only [hi, hready]
      have hns2 : ¬ ({ f.setWorker i { w with status := .idle, results := [] } with collected := f.collected ++ w.results } :
          Farm B R).stopped = true := hns
      rw [if_neg hns2]
      exact ⟨_, rfl, Or.inl ⟨e.max, e.shouldStop, e.interrupted, e.upper, e.length, e.point, e.task, e.over, e.range, e.worker⟩⟩
  | wait i =>
    have hlen : f.workers.length = f.batchId := by
      rcases h.length with e | ⟨e, -⟩
      · exact e
      · rw [hp] at e; cases e
    have htodo : f.todo = [] := h.over (by rw [hp]; trivial)
    simp only
    cases hi : f.workers[i]? with
    | none =>
      refine ⟨_, rfl, Or.inl (h.repoint (.collect .finish) (Or.inl hlen) (Or.inr (Or.inr trivial)) (fun hh => hh.elim) (fun _ => htodo)
        (fun i hh => by cases hh) (fun hh => by rw [hp] at hh; exact hh.elim) (fun _ => trivial) ?_)⟩
      intro k x hx _
      refine (h.worker k x hx).quiet (Or.inr ⟨i, hp, ?_⟩)
      have := List.getElem?_eq_none_iff.mp hi
      have := (List.getElem?_eq_some_iff.mp hx).1
      omega
    | some w =>
      simp only
      split
      · refine ⟨_, rfl, Or.inl (h.repoint (.wait 0) (Or.inl hlen) (Or.inr (Or.inr trivial)) (fun hh => hh.elim) (fun _ => htodo)
          (fun i hh => by cases hh) (fun hh => by rw [hp] at hh; exact hh.elim) (fun hh => by rw [hp] at hh; exact hh.elim) ?_)⟩
        rintro k x - (hh | ⟨m, hm, hlt⟩)
        · exact hh.elim
        · cases hm; exact absurd hlt (Nat.not_lt_zero _)
      · next hst =>
        refine ⟨_, rfl, Or.inl (h.repoint (.wait (i + 1)) (Or.inl hlen) (Or.inr (Or.inr trivial)) (fun hh => hh.elim) (fun _ => htodo)
          (fun i hh => by cases hh) (fun hh => by rw [hp] at hh; exact hh.elim) (fun hh => by rw [hp] at hh; exact hh.elim) ?_)⟩
        rintro k x hx (hh | ⟨m, hm, hlt⟩)
        · exact hh.elim
        · cases hm
          rcases Nat.lt_succ_iff_lt_or_eq.mp hlt with hlt | rfl
          · exact (h.worker k x hx).quiet (Or.inr ⟨i, hp, hlt⟩)
          · rw [hi] at hx
            cases hx
            exact hst
  | load =>
    have hlen : f.workers.length = f.batchId := by
      rcases h.length with e | ⟨e, -⟩
      · exact e
      · rw [hp] at e; cases e
    have htodo : f.todo = [] := h.over (by rw [hp]; trivial)
    have e := h.repoint (.stop 0) (Or.inl hlen) (Or.inr (Or.inr trivial)) (fun hh => hh.elim) (fun _ => htodo)
      (fun i hh => by cases hh) (fun _ => trivial) (fun _ => trivial)
      (fun i w hi _ => (h.worker i w hi).quiet (Or.inl (by rw [hp]; trivial)))
    exact ⟨_, rfl, Or.inl ⟨e.max, e.shouldStop, e.interrupted, e.upper, e.length, e.point, e.task, e.over, e.range, e.worker⟩⟩
  | stop i =>
    have hlen : f.workers.length = f.batchId := by
      rcases h.length with e | ⟨e, -⟩
      · exact e
      · rw [hp] at e; cases e
    have htodo : f.todo = [] := h.over (by rw [hp]; trivial)
    have hquiet : ∀ (i : Nat) (w : Worker B R), f.workers[i]? = some w → w.status ≠ .working :=
      fun i w hi => (h.worker i w hi).quiet (Or.inl (by rw [hp]; trivial))
    simp only
    cases hi : f.workers[i]? with
    | none =>
      exact ⟨_, rfl, Or.inl (h.repoint .done (Or.inl hlen) (Or.inr (Or.inr trivial)) (fun hh => hh.elim) (fun _ => htodo)
        (fun i hh => by cases hh) (fun _ => trivial) (fun _ => trivial) (fun i w hi _ => hquiet i w hi))⟩
    | some w =>
      have hilt := (List.getElem?_eq_some_iff.mp hi).1
      refine ⟨_, rfl, Or.inl ?_⟩
      split
      · exact h.repoint (.join i) (Or.inl hlen) (Or.inr (Or.inr trivial)) (fun hh => hh.elim) (fun _ => htodo)
          (fun k hh => by cases hh; exact hilt) (fun _ => trivial) (fun _ => trivial) (fun i w hi _ => hquiet i w hi)
      · have ht := h.worker i w hi
        have hset := h.setWorker (v := { w with stopping := true, kicked := true }) hi
          ⟨ht.alive, ht.noError, fun _ => rfl, fun _ => by rw [hp]; trivial, ?_, ht.id, ht.working, ?_, ht.quiet, ht.before⟩
        · exact hset.repoint (.join i) (Or.inl (by
              show (f.workers.set i _).length = f.batchId
              rw [List.length_set]; exact hlen)) (Or.inr (Or.inr trivial)) (fun hh => hh.elim) (fun _ => htodo)
            (fun k hh => by cases hh; show i < (f.workers.set i _).length; rw [List.length_set]; exact hilt)
            (fun _ => trivial) (fun _ => trivial)
            (fun k x hx _ => (hset.worker k x hx).quiet (Or.inl (by show f.point.Finishing; rw [hp]; trivial)))
        · intro hh
          omega
        · intro h1 h2
          obtain ⟨k1, k2, k3⟩ := ht.idle h1 h2
          exact ⟨k1, ⟨fun _ => rfl, fun _ => rfl, k2.running, k2.clearing⟩, k3⟩
  | join i =>
    have hlen : f.workers.length = f.batchId := by
      rcases h.length with e | ⟨e, -⟩
      · exact e
      · rw [hp] at e; cases e
    have htodo : f.todo = [] := h.over (by rw [hp]; trivial)
    have hilt := h.range i hp
    simp only [List.getElem?_eq_getElem hilt]
    split
    · exact ⟨_, rfl, Or.inl (h.repoint (.stop (i + 1)) (Or.inl hlen) (Or.inr (Or.inr trivial)) (fun hh => hh.elim) (fun _ => htodo)
        (fun i hh => by cases hh) (fun _ => trivial) (fun _ => trivial)
        (fun i w hi _ => (h.worker i w hi).quiet (Or.inl (by rw [hp]; trivial))))⟩
    · exact ⟨_, rfl, Or.inl h⟩
  | done => exact ⟨_, rfl, Or.inl h⟩
  | destroy i => have e := h.point; rw [hp] at e; rcases e with e | e | e <;> first | exact e.elim | cases e
  | destroyStop i => have e := h.point; rw [hp] at e; rcases e with e | e | e <;> first | exact e.elim | cases e
  | destroyJoin i => have e := h.point; rw [hp] at e; rcases e with e | e | e <;> first | exact e.elim | cases e
  | thrown => have e := h.point; rw [hp] at e; rcases e with e | e | e <;> first | exact e.elim | cases e

theorem orderly_step {f : Farm B R} (hn : 1 ≤ n) (hc : Calm recover items) (hinv : Inv recover items f) (h : Orderly items n f)
    {a : Actor} (ha : a.Calm) : ∃ g, step recover f a = .ok g ∧ (Orderly items n g ∨ Early g) := by
  cases a with
  | main => exact orderly_main hn hc hinv h
  | mainNoMemory => exact ha.elim
  | user => exact ha.elim
  | worker i =>
    simp only [step]
    cases hi : f.workers[i]? with
    | none => exact ⟨f, rfl, Or.inl h⟩
    | some w =>
      obtain ⟨g, h1, h2, -⟩ := orderly_worker hc hinv h hi
      exact ⟨g, h1, Or.inl h2⟩

/-- Every schedule without interrupts keeps the order, unless results are pulled while a batch is dispatched. -/
theorem orderly_run {f : Farm B R} (hn : 1 ≤ n) (hc : Calm recover items) (hinv : Inv recover items f) (h : Orderly items n f)
    {as : List Actor} (ha : ∀ a ∈ as, a.Calm) :
    (∃ g, run recover as f = .ok g ∧ Inv recover items g ∧ Orderly items n g) ∨
      ∃ bs cs g, as = bs ++ cs ∧ run recover bs f = .ok g ∧ Inv recover items g ∧ Early g := by
  induction as generalizing f with
  | nil => exact Or.inl ⟨f, rfl, hinv, h⟩
  | cons a as ih =>
    obtain ⟨g, h1, h2⟩ := orderly_step hn hc hinv h (ha a List.mem_cons_self)
    have hi := inv_step a hinv h1
    rcases h2 with h2 | h2
    · rcases ih hi h2 (fun a h => ha a (List.mem_cons_of_mem _ h)) with ⟨g', e, r⟩ | ⟨bs, cs, g', e, e2, r⟩
      · exact Or.inl ⟨g', by rw [run, h1]; exact e, r⟩
      · exact Or.inr ⟨a :: bs, cs, g', by rw [e]; rfl, by rw [run, h1]; exact e2, r⟩
    · exact Or.inr ⟨[a], as, g, rfl, by rw [run, h1]; rfl, hi, h2⟩

end Silkworm.Workers
