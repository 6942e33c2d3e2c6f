import Verif.Stages.Workers
import Mathlib.Tactic.Common

/-!
# Invariants of the threads that recover senders
-/

namespace Silkworm.Workers

variable {B R : Type} {recover : B → Option (List R)} {items : List (Option B)}

theorem run_append (as bs : List Actor) (f : Farm B R) :
    run recover (as ++ bs) f =
      match run recover as f with
      | .ok f => run recover bs f
      | .err e => .err e
      | .ub => .ub := by
  induction as generalizing f with
  | nil => rfl
  | cons a as ih =>
    rw [List.cons_append, run, run]
    cases step recover f a with
    | ok g => exact ih g
    | err e => rfl
    | ub => rfl

/-- What holds initially and is kept by every step holds after every schedule. -/
theorem run_invariant {P : Farm B R → Prop} {Q : Actor → Prop}
    (keep : ∀ f g a, P f → Q a → step recover f a = .ok g → P g) {as : List Actor} (hq : ∀ a ∈ as, Q a) {f g : Farm B R} (hf : P f)
    (h : run recover as f = .ok g) : P g := by
  induction as generalizing f with
  | nil => cases h; exact hf
  | cons a as ih =>
    rw [run] at h
    cases hs : step recover f a with
    | err e => rw [hs] at h; cases h
    | ub => rw [hs] at h; cases h
    | ok f' =>
      rw [hs] at h
      exact ih (fun a ha => hq a (List.mem_cons_of_mem _ ha)) (keep f f' a hf (hq a List.mem_cons_self) hs) h

/-! ## The order of the results -/

/-- What a batch gives. -/
def resultOf (recover : B → Option (List R)) (items : List (Option B)) (j : Nat) : Option (List R) :=
  (items[j]?.bind id).bind recover

/-- The results of the first batches. -/
def firstResults (recover : B → Option (List R)) (items : List (Option B)) (k : Nat) : List R :=
  (items.take k).flatMap fun o => (o.bind recover).getD []

/-- The work is over, with whatever result. -/
def Status.Over (s : Status) : Prop := s ≠ .idle ∧ s ≠ .working

/-- The thread does not begin to work unless somebody gives it work. -/
structure Rests (w : Worker B R) : Prop where
  kick : w.kicked = true → w.stopping = true
  woken : w.place = .woken → w.stopping = true
  running : w.place ≠ .running
  clearing : w.place ≠ .clearing

/-- What is true of a worker at any time. `next` is the number of the next batch. -/
structure WorkerOk (recover : B → Option (List R)) (items : List (Option B)) (next : Nat) (w : Worker B R) : Prop where
  batch : ∀ b, w.batch = some b → items[w.batchId]? = some (some b)
  ready : w.status = .ready → resultOf recover items w.batchId = some w.results
  id : w.status ≠ .idle → w.batchId < next
  signalling : w.place = .signalling → w.status.Over
  running : w.place = .running → w.status = .working
  over : w.status.Over → Rests w
  busy : w.place = .running ∨ w.place = .woken → w.kicked = true → w.stopping = true
  idle : w.status = .idle → (w.kicked = true → w.stopping = true) ∧ (w.place = .woken → w.stopping = true)

theorem WorkerOk.mono {next next' : Nat} {w : Worker B R} (h : WorkerOk recover items next w) (hn : next ≤ next') :
    WorkerOk recover items next' w :=
  ⟨h.batch, h.ready, fun hs => Nat.lt_of_lt_of_le (h.id hs) hn, h.signalling, h.running, h.over, h.busy, h.idle⟩

theorem workerOk_fresh (next : Nat) : WorkerOk recover items next ({} : Worker B R) where
  batch b h := by cases h
  ready h := by cases h
  id h := absurd rfl h
  signalling h := by cases h
  running h := by cases h
  over h := absurd rfl h.1
  busy h := by rcases h with h | h <;> cases h
  idle _ := ⟨(fun h => by cases h), (fun h => by cases h)⟩

/-- The entry that was taken from the queue and is looked at. -/
def Farm.pulled (f : Farm B R) : List (Nat × Nat) :=
  match f.point with
  | .pull _ i id => [(i, id)]
  | _ => []

/-- An entry of the queue. -/
def EntryOk (workers : List (Worker B R)) (x : Nat × Nat) : Prop :=
  ∃ w, workers[x.1]? = some w ∧ w.batchId = x.2 ∧ w.status.Over ∧ w.place ≠ .signalling

/-- What is true at any time. -/
structure Inv (recover : B → Option (List R)) (items : List (Option B)) (f : Farm B R) : Prop where
  todo : f.todo = items.drop f.batchId
  bound : f.batchId ≤ items.length
  completed : f.completed ≤ f.batchId
  worker : ∀ (i : Nat) (w : Worker B R), f.workers[i]? = some w → WorkerOk recover items f.batchId w
  entry : ∀ x ∈ f.pulled ++ f.queue, EntryOk f.workers x
  distinct : ((f.pulled ++ f.queue).map Prod.fst).Nodup
  order : ∃ c, (f.pulled ++ f.queue).map Prod.snd = List.range' c ((f.pulled ++ f.queue).length) ∧
    c + (f.pulled ++ f.queue).length = f.completed ∧
    (f.shouldStop = false → f.collected = firstResults recover items c ∧ ∀ j < c, (resultOf recover items j).isSome = true)
  after : f.loaded = true → (∃ i, f.point = .stop i ∨ f.point = .join i) ∨ f.point = .done
  loaded : f.loaded = true → ∃ c, c ≤ items.length ∧ f.collected = firstResults recover items c ∧
    ∀ j < c, (resultOf recover items j).isSome = true

theorem inv_start (n : Nat) : Inv recover items (start n items) where
  todo := rfl
  bound := Nat.zero_le _
  completed := Nat.le_refl _
  worker i w h := by simp [start] at h
  entry x h := by simp [start, Farm.pulled] at h
  distinct := List.nodup_nil
  order := ⟨0, rfl, rfl, fun _ => ⟨rfl, fun j h => absurd h (Nat.not_lt_zero j)⟩⟩
  after h := by cases h
  loaded h := by cases h

/-- Another point, after which nothing is pulled. -/
theorem Inv.point' {f : Farm B R} (h : Inv recover items f) (p : Point) (hp : f.pulled = [])
    (hl : f.loaded = true → (∃ i, p = .stop i ∨ p = .join i) ∨ p = .done) (hq : ∀ c i id, p ≠ .pull c i id) :
    Inv recover items { f with point := p } := by
  have e : ({ f with point := p } : Farm B R).pulled = [] := by
    unfold Farm.pulled
    split
    · next hh => exact absurd hh (hq _ _ _)
    · rfl
  refine ⟨h.todo, h.bound, h.completed, h.worker, ?_, ?_, ?_, hl, h.loaded⟩
  · have := h.entry; rw [hp] at this; rw [e]; exact this
  · have := h.distinct; rw [hp] at this; rw [e]; exact this
  · have := h.order; rw [hp] at this; rw [e]; exact this

theorem Inv.point {f : Farm B R} (h : Inv recover items f) (p : Point) (hp : f.pulled = []) (hl : f.loaded = false)
    (hq : ∀ c i id, p ≠ .pull c i id) : Inv recover items { f with point := p } :=
  h.point' p hp (fun hh => by rw [hl] at hh; cases hh) hq

theorem get_set {ws : List (Worker B R)} {i j : Nat} {w v x : Worker B R} (hi : ws[i]? = some w) (h : (ws.set i v)[j]? = some x) :
    (j = i ∧ x = v) ∨ (j ≠ i ∧ ws[j]? = some x) := by
  rw [List.getElem?_set] at h
  split at h
  · next e =>
    subst e
    left
    rw [if_pos (List.getElem?_eq_some_iff.mp hi).1] at h
    exact ⟨rfl, (Option.some.inj h).symm⟩
  · next e => exact Or.inr ⟨Ne.symm e, h⟩

theorem set_self {ws : List (Worker B R)} {i : Nat} {w : Worker B R} (v : Worker B R) (hi : ws[i]? = some w) :
    (ws.set i v)[i]? = some v := by
  rw [List.getElem?_set, if_pos rfl, if_pos (List.getElem?_eq_some_iff.mp hi).1]

theorem set_other {ws : List (Worker B R)} {i j : Nat} (v : Worker B R) (h : j ≠ i) : (ws.set i v)[j]? = ws[j]? := by
  rw [List.getElem?_set, if_neg (Ne.symm h)]

/-- A worker changes in a way that keeps its place in the queue. -/
theorem entry_set {ws : List (Worker B R)} {i : Nat} {w v : Worker B R} (hi : ws[i]? = some w) (hid : v.batchId = w.batchId)
    (hs : w.status.Over → w.place ≠ .signalling → v.status.Over ∧ v.place ≠ .signalling) {x : Nat × Nat} (h : EntryOk ws x) :
    EntryOk (ws.set i v) x := by
  obtain ⟨u, h1, h2, h3, h4⟩ := h
  by_cases e : x.1 = i
  · rw [e, hi] at h1
    cases h1
    exact ⟨v, by rw [e]; exact set_self v hi, hid.trans h2, hs h3 h4⟩
  · exact ⟨u, by rw [set_other v e]; exact h1, h2, h3, h4⟩

/-- A worker changes; the queue does not. -/
theorem Inv.setWorker {f : Farm B R} (h : Inv recover items f) {i : Nat} {w v : Worker B R} (hi : f.workers[i]? = some w)
    (hv : WorkerOk recover items f.batchId v) (hid : v.batchId = w.batchId)
    (hs : w.status.Over → w.place ≠ .signalling → v.status.Over ∧ v.place ≠ .signalling) : Inv recover items (f.setWorker i v) where
  todo := h.todo
  bound := h.bound
  completed := h.completed
  worker j x hx := by
    rcases get_set hi hx with ⟨-, rfl⟩ | ⟨-, hx⟩
    · exact hv
    · exact h.worker j x hx
  entry x hx := entry_set hi hid hs (h.entry x hx)
  distinct := h.distinct
  order := h.order
  after := h.after
  loaded := h.loaded

theorem inv_workerStep {f g : Farm B R} (h : Inv recover items f) {i : Nat} {w : Worker B R} (hi : f.workers[i]? = some w)
    (hs : workerStep recover f i w = .ok g) : Inv recover items g := by
  have hw := h.worker i w hi
  unfold workerStep at hs
  cases hp : w.place with
  | clearing =>
    rw [hp] at hs
    cases hs
    refine h.setWorker hi ⟨hw.batch, hw.ready, hw.id, (fun hh => by cases hh), (fun hh => by cases hh), ?_, (fun hh => by rcases hh with hh | hh <;> cases hh), ?_⟩ rfl ?_
    · exact fun ho => absurd hp (hw.over ho).clearing
    · exact fun _ => ⟨fun hh => (by cases hh), fun hh => (by cases hh)⟩
    · exact fun ho _ => ⟨ho, fun hh => by cases hh⟩
  | waiting =>
    rw [hp] at hs
    simp only at hs
    split at hs
    · next hk =>
      cases hs
      refine h.setWorker hi ⟨hw.batch, hw.ready, hw.id, (fun hh => by cases hh), (fun hh => by cases hh), ?_,
        (fun _ hh => by cases hh), ?_⟩ rfl ?_
      · exact fun ho => ⟨fun hh => (by cases hh), fun _ => (hw.over ho).kick hk, (fun hh => by cases hh), (fun hh => by cases hh)⟩
      · exact fun hd => ⟨fun hh => (by cases hh), fun _ => (hw.idle hd).1 hk⟩
      · exact fun ho _ => ⟨ho, fun hh => by cases hh⟩
    · cases hs; exact h
  | woken =>
    rw [hp] at hs
    cases hs
    have hk : ∀ {p : Place}, (if w.stopping = true then Place.exited else .running) = p → p = .exited ∨ (p = .running ∧ w.stopping = false) := by
      intro p hh
      split at hh
      · exact Or.inl hh.symm
      · next hn => exact Or.inr ⟨hh.symm, by simpa using hn⟩
    refine h.setWorker hi ⟨hw.batch, hw.ready, hw.id, ?_, ?_, ?_, fun _ => hw.busy (Or.inr hp), ?_⟩ rfl ?_
    · exact fun hh => by rcases hk hh with hh | ⟨hh, -⟩ <;> cases hh
    · intro hh
      rcases hk hh with hh | ⟨-, hn⟩
      · cases hh
      · cases hst : w.status with
        | working => rfl
        | idle => exact absurd ((hw.idle hst).2 hp) (by rw [hn]; decide)
        | _ => exact absurd ((hw.over ⟨by rw [hst]; decide, by rw [hst]; decide⟩).woken hp) (by rw [hn]; decide)
    · intro ho
      have hst := (hw.over ho).woken hp
      refine ⟨(hw.over ho).kick, fun _ => hst, ?_, ?_⟩
      · show (if w.stopping = true then Place.exited else .running) ≠ _
        rw [if_pos hst]; decide
      · show (if w.stopping = true then Place.exited else .running) ≠ _
        rw [if_pos hst]; decide
    · exact fun hd => ⟨(hw.idle hd).1, fun hh => by rcases hk hh with hh | ⟨hh, -⟩ <;> cases hh⟩
    · exact fun ho _ => ⟨ho, fun hh => by rcases hk hh with hh | ⟨hh, -⟩ <;> cases hh⟩
  | running =>
    rw [hp] at hs
    have hst := hw.running hp
    simp only at hs
    split at hs
    · cases hs
    · cases hb : w.batch with
      | none => rw [hb] at hs; cases hs
      | some b =>
        rw [hb] at hs
        simp only at hs
        have hnot : w.status.Over → False := fun ho => ho.2 hst
        have hid := hw.id (by rw [hst]; decide)
        have hres : resultOf recover items w.batchId = recover b := by
          unfold resultOf; rw [hw.batch b hb]; rfl
        have key : ∀ (s : Status) (rs : List R), s.Over → (s = .ready → recover b = some rs) →
            Inv recover items (f.setWorker i { w with results := rs, status := s, place := .signalling }) := by
          intro s rs hs1 hs2
          refine h.setWorker hi ⟨hw.batch, fun hh => hres.trans (hs2 hh), fun _ => hid, fun _ => hs1, (fun hh => by cases hh),
            fun _ => ⟨hw.busy (Or.inl hp), (fun hh => by cases hh), (fun hh => by cases hh), (fun hh => by cases hh)⟩,
            (fun hh => by rcases hh with hh | hh <;> cases hh), fun hh => absurd hh hs1.1⟩ rfl (fun ho => (hnot ho).elim)
        rw [hb] at key
        cases hr : recover b with
        | none =>
          rw [hr] at hs
          rw [← Outcome.ok.inj hs]
          exact key .error [] ⟨by decide, by decide⟩ (fun hh => by cases hh)
        | some rs =>
          rw [hr] at hs
          simp only at hs
          split at hs
          · rw [← Outcome.ok.inj hs]
            exact key .aborted [] ⟨by decide, by decide⟩ (fun hh => by cases hh)
          · rw [← Outcome.ok.inj hs]
            exact key .ready rs ⟨by decide, by decide⟩ (fun _ => hr)
  | signalling =>
    rw [hp] at hs
    simp only at hs
    split at hs
    · cases hs
    · split at hs
      · next hc =>
        cases hs
        have ho := hw.signalling hp
        have hset := h.setWorker (v := { w with place := .resetting }) hi
          ⟨hw.batch, hw.ready, hw.id, (fun hh => by cases hh), (fun hh => by cases hh),
            fun ho => ⟨(hw.over ho).kick, (fun hh => by cases hh), (fun hh => by cases hh), (fun hh => by cases hh)⟩,
            (fun hh => by rcases hh with hh | hh <;> cases hh), fun hd => ⟨(hw.idle hd).1, (fun hh => by cases hh)⟩⟩ rfl (fun ho _ => ⟨ho, (fun hh => by cases hh)⟩)
        have hid := hw.id ho.1
        refine ⟨h.todo, h.bound, ?_, hset.worker, ?_, ?_, ?_, h.after, h.loaded⟩
        · show f.completed + 1 ≤ f.batchId
          rw [hc]; exact hid
        · intro x hx
          change x ∈ f.pulled ++ (f.queue ++ [(i, w.batchId)]) at hx
          rw [← List.append_assoc, List.mem_append] at hx
          rcases hx with hx | hx
          · exact hset.entry x hx
          · rw [List.mem_singleton] at hx
            subst hx
            exact ⟨_, set_self _ hi, rfl, ho, (fun hh => by cases hh)⟩
        · show ((f.pulled ++ (f.queue ++ [(i, w.batchId)])).map Prod.fst).Nodup
          rw [← List.append_assoc, List.map_append, List.nodup_append]
          refine ⟨h.distinct, List.nodup_cons.mpr ⟨List.not_mem_nil, List.nodup_nil⟩, ?_⟩
          intro a ha b hb e
          simp only [List.map_cons, List.map_nil, List.mem_singleton] at hb
          subst hb
          subst e
          obtain ⟨x, hx, rfl⟩ := List.mem_map.mp ha
          obtain ⟨u, h1, -, -, h4⟩ := h.entry x hx
          rw [hi] at h1
          cases h1
          exact h4 hp
        · obtain ⟨c, h1, h2, h3⟩ := h.order
          refine ⟨c, ?_, ?_, h3⟩
          · show (f.pulled ++ (f.queue ++ [(i, w.batchId)])).map Prod.snd =
              List.range' c (f.pulled ++ (f.queue ++ [(i, w.batchId)])).length
            rw [← List.append_assoc, List.map_append, h1, List.length_append (bs := [(i, w.batchId)]), List.length_singleton,
              List.range'_1_concat, h2, hc]
            rfl
          · show c + (f.pulled ++ (f.queue ++ [(i, w.batchId)])).length = f.completed + 1
            rw [← List.append_assoc, List.length_append (bs := [(i, w.batchId)]), List.length_singleton, ← Nat.add_assoc, h2]
      · cases hs; exact h
  | resetting =>
    rw [hp] at hs
    simp only at hs
    split at hs
    · cases hs
    · cases hs
      exact h.setWorker hi
        ⟨(fun b hb => by cases hb), hw.ready, hw.id, (fun hh => by cases hh), (fun hh => by cases hh),
          fun ho => ⟨(hw.over ho).kick, (fun hh => by cases hh), (fun hh => by cases hh), (fun hh => by cases hh)⟩,
          (fun hh => by rcases hh with hh | hh <;> cases hh), fun hd => ⟨(hw.idle hd).1, (fun hh => by cases hh)⟩⟩ rfl (fun ho _ => ⟨ho, (fun hh => by cases hh)⟩)
  | exited => rw [hp] at hs; cases hs; exact h

theorem assign_some {b : B} {id : Nat} {ws ws' : List (Worker B R)} (h : assign b id ws = some ws') :
    ∃ i w, ws[i]? = some w ∧ w.status = .idle ∧ (∀ j < i, ∀ v, ws[j]? = some v → v.status ≠ .idle) ∧
      ws' = ws.set i { w with batch := some b, batchId := id, status := .working, kicked := true } := by
  induction ws generalizing ws' with
  | nil => cases h
  | cons w ws ih =>
    rw [assign] at h
    split at h
    · next hw =>
      refine ⟨0, w, rfl, hw, fun j hj => absurd hj (Nat.not_lt_zero j), (Option.some.inj h).symm⟩
    · next hw =>
      cases ha : assign b id ws with
      | none => rw [ha] at h; cases h
      | some l =>
        rw [ha] at h
        obtain ⟨i, v, h1, h2, h3, h4⟩ := ih ha
        refine ⟨i + 1, v, h1, h2, ?_, ?_⟩
        · intro j hj u hu
          cases j with
          | zero => cases hu; exact hw
          | succ j => exact h3 j (Nat.lt_of_succ_lt_succ hj) u hu
        · rw [← Option.some.inj h, h4]; rfl

theorem assign_none {b : B} {id : Nat} {ws : List (Worker B R)} (h : assign b id ws = none) : ∀ w ∈ ws, w.status ≠ .idle := by
  induction ws with
  | nil => intro w hw; cases hw
  | cons w ws ih =>
    rw [assign] at h
    split at h
    · cases h
    · next hw =>
      intro v hv
      rcases List.mem_cons.mp hv with rfl | hv
      · exact hw
      · exact ih (Option.map_eq_none_iff.mp h) v hv

theorem firstResults_succ {j : Nat} {rs : List R} (h : resultOf recover items j = some rs) :
    firstResults recover items (j + 1) = firstResults recover items j ++ rs := by
  unfold resultOf at h
  cases hj : items[j]? with
  | none => rw [hj] at h; cases h
  | some o =>
    rw [hj] at h
    unfold firstResults
    rw [List.take_add_one, hj, List.flatMap_append]
    congr 1
    cases o with
    | none => cases h
    | some b =>
      change recover b = some rs at h
      simp [h]

theorem Inv.notLoaded {f : Farm B R} (h : Inv recover items f) (hs : ∀ i, f.point ≠ .stop i) (hj : ∀ i, f.point ≠ .join i)
    (hd : f.point ≠ .done) : f.loaded = false := by
  cases hl : f.loaded with
  | false => rfl
  | true =>
    rcases h.after hl with ⟨i, hh | hh⟩ | hh
    · exact absurd hh (hs i)
    · exact absurd hh (hj i)
    · exact absurd hh hd

/-- `bufferize_workers_results` returns after an entry was dropped or used. -/
theorem Inv.collectedAll {f : Farm B R} (c : Caller) (b : Bool)
    (h : Inv recover items { (if b = true then f else { f with shouldStop := true }) with point := .next }) :
    Inv recover items (collectedAll f c b) := by
  have hl : ({ (if b = true then f else { f with shouldStop := true }) with point := .next } : Farm B R).loaded = false :=
    h.notLoaded (fun i hh => by cases hh) (fun i hh => by cases hh) (fun hh => by cases hh)
  have := fun p hq => h.point p rfl hl hq
  cases c with
  | finish => exact this .load (fun _ _ _ hh => by cases hh)
  | dispatch =>
    cases b with
    | true => exact this (.destroy 0) (fun _ _ _ hh => by cases hh)
    | false => exact this .findIdle (fun _ _ _ hh => by cases hh)

/-- A worker is asked to stop, or destroyed. -/
theorem Inv.halt {f : Farm B R} (h : Inv recover items f) {i : Nat} {w : Worker B R} (hi : f.workers[i]? = some w) (k s d : Bool)
    (hk : k = true → s = true ∨ w.kicked = true) (hs : w.stopping = true → s = true) :
    Inv recover items (f.setWorker i { w with kicked := k, stopping := s, dead := d }) := by
  have hw := h.worker i w hi
  have key : (w.kicked = true → w.stopping = true) → k = true → s = true := fun g e => (hk e).elim id fun e => hs (g e)
  exact h.setWorker hi ⟨hw.batch, hw.ready, hw.id, hw.signalling, hw.running,
    fun ho => ⟨key (hw.over ho).kick, fun e => hs ((hw.over ho).woken e), (hw.over ho).running, (hw.over ho).clearing⟩,
    fun e => key (hw.busy e), fun e => ⟨key (hw.idle e).1, fun g => hs ((hw.idle e).2 g)⟩⟩ rfl (fun ho hn => ⟨ho, hn⟩)

theorem inv_mainStep {memory : Bool} {f g : Farm B R} (h : Inv recover items f) (hs : mainStep memory f = .ok g) :
    Inv recover items g := by
  unfold mainStep at hs
  cases hp : f.point with
  | next =>
    have hl := h.notLoaded (fun i hh => by rw [hp] at hh; cases hh) (fun i hh => by rw [hp] at hh; cases hh)
      (fun hh => by rw [hp] at hh; cases hh)
    have hpu : f.pulled = [] := by unfold Farm.pulled; rw [hp]
    rw [hp] at hs
    simp only at hs
    split at hs
    · cases hs; exact h.point _ hpu hl (fun _ _ _ hh => by cases hh)
    · split at hs
      · cases hs; exact h.point _ hpu hl (fun _ _ _ hh => by cases hh)
      · cases hs; exact h.point _ hpu hl (fun _ _ _ hh => by cases hh)
      · split at hs
        · next hw =>
          split at hs
          · cases hs
            have h' := h.point .findIdle hpu hl (fun _ _ _ hh => by cases hh)
            refine ⟨h'.todo, h'.bound, h'.completed, ?_, ?_, h'.distinct, h'.order, h'.after, h'.loaded⟩
            · intro i w hi
              have : w = {} := by
                have := List.mem_of_getElem? hi
                simpa using this
              rw [this]
              exact workerOk_fresh _
            · intro x hx
              obtain ⟨u, h1, -⟩ := h'.entry x hx
              change f.workers[x.1]? = some u at h1
              rw [hw] at h1
              cases h1
          · cases hs; exact h.point _ hpu hl (fun _ _ _ hh => by cases hh)
        · cases hs; exact h.point _ hpu hl (fun _ _ _ hh => by cases hh)
  | findIdle =>
    have hl := h.notLoaded (fun i hh => by rw [hp] at hh; cases hh) (fun i hh => by rw [hp] at hh; cases hh)
      (fun hh => by rw [hp] at hh; cases hh)
    have hpu : f.pulled = [] := by unfold Farm.pulled; rw [hp]
    rw [hp] at hs
    simp only at hs
    split at hs
    · next b rest htodo =>
      split at hs
      · next ws ha =>
        cases hs
        obtain ⟨i, w, hi, hidle, -, rfl⟩ := assign_some ha
        have hw := h.worker i w hi
        have hitem : items[f.batchId]? = some (some b) := by
          have := h.todo
          rw [htodo] at this
          have h0 : (items.drop f.batchId)[0]? = some (some b) := by rw [← this]; rfl
          rw [List.getElem?_drop] at h0
          exact h0
        have hrest : rest = items.drop (f.batchId + 1) := by
          have := h.todo
          rw [htodo] at this
          rw [← List.drop_drop, ← this]; rfl
        have hlt : f.batchId < items.length := (List.getElem?_eq_some_iff.mp hitem).1
        have hpoint : ∀ p : Point, (p = .wait 0 ∨ p = .next) → Inv recover items
            { f with workers := f.workers.set i { w with batch := some b, batchId := f.batchId, status := .working, kicked := true },
                     batchId := f.batchId + 1, todo := rest, point := p } := by
          intro p hpp
          have h' := h.point p hpu hl (fun _ _ _ hh => by rcases hpp with rfl | rfl <;> cases hh)
          refine ⟨hrest, hlt, Nat.le_succ_of_le h'.completed, ?_, ?_, h'.distinct, h'.order, h'.after, h'.loaded⟩
          · intro j x hx
            rcases get_set hi hx with ⟨-, rfl⟩ | ⟨-, hx⟩
            · refine ⟨?_, (fun hh => by cases hh), fun _ => Nat.lt_succ_self _, ?_, fun _ => rfl, fun ho => absurd rfl ho.2, ?_,
                (fun hh => by cases hh)⟩
              · intro b' hb'
                rw [← Option.some.inj hb']
                exact hitem
              · exact fun hh => absurd hidle (hw.signalling hh).1
              · intro hh _
                rcases hh with hh | hh
                · exact absurd (hw.running hh) (by rw [hidle]; decide)
                · exact (hw.idle hidle).2 hh
            · exact (h.worker j x hx).mono (Nat.le_succ _)
          · intro x hx
            obtain ⟨u, h1, h2, h3, h4⟩ := h'.entry x hx
            have hne : x.1 ≠ i := by
              intro e
              change f.workers[x.1]? = some u at h1
              rw [e, hi] at h1
              cases h1
              exact h3.1 hidle
            exact ⟨u, by show (f.workers.set i _)[x.1]? = _; rw [set_other _ hne]; exact h1, h2, h3, h4⟩
        refine hpoint _ ?_
        split
        · exact Or.inl rfl
        · exact Or.inr rfl
      · cases hs; exact h.point _ hpu hl (fun _ _ _ hh => by cases hh)
    · cases hs
  | findReady i =>
    have hl := h.notLoaded (fun i hh => by rw [hp] at hh; cases hh) (fun i hh => by rw [hp] at hh; cases hh)
      (fun hh => by rw [hp] at hh; cases hh)
    have hpu : f.pulled = [] := by unfold Farm.pulled; rw [hp]
    rw [hp] at hs
    simp only at hs
    split at hs
    · cases hs; exact h.point _ hpu hl (fun _ _ _ hh => by cases hh)
    · split at hs <;> (cases hs; exact h.point _ hpu hl (fun _ _ _ hh => by cases hh))
  | grow =>
    have hl := h.notLoaded (fun i hh => by rw [hp] at hh; cases hh) (fun i hh => by rw [hp] at hh; cases hh)
      (fun hh => by rw [hp] at hh; cases hh)
    have hpu : f.pulled = [] := by unfold Farm.pulled; rw [hp]
    have h' := h.point .findIdle hpu hl (fun _ _ _ hh => by cases hh)
    rw [hp] at hs
    simp only at hs
    split at hs
    · split at hs
      · cases hs
        refine ⟨h'.todo, h'.bound, h'.completed, ?_, ?_, h'.distinct, h'.order, h'.after, h'.loaded⟩
        · intro i w hi
          rcases List.mem_append.mp (List.mem_of_getElem? hi) with hm | hm
          · obtain ⟨j, hj⟩ := List.getElem?_of_mem hm
            exact h.worker j w hj
          · rw [List.mem_singleton.mp hm]
            exact workerOk_fresh _
        · intro x hx
          obtain ⟨u, h1, h2⟩ := h'.entry x hx
          exact ⟨u, by rw [List.getElem?_append_left (List.getElem?_eq_some_iff.mp h1).1]; exact h1, h2⟩
      · cases hs
        exact ⟨h'.todo, h'.bound, h'.completed, h'.worker, h'.entry, h'.distinct, h'.order, h'.after, h'.loaded⟩
    · cases hs; exact h'
  | collect c =>
    have hl := h.notLoaded (fun i hh => by rw [hp] at hh; cases hh) (fun i hh => by rw [hp] at hh; cases hh)
      (fun hh => by rw [hp] at hh; cases hh)
    have hpu : f.pulled = [] := by unfold Farm.pulled; rw [hp]
    rw [hp] at hs
    simp only at hs
    split at hs
    · rw [← Outcome.ok.inj hs]
      exact Inv.collectedAll c true (h.point .next hpu hl (fun _ _ _ hh => by cases hh))
    · next x rest hq =>
      cases hs
      have e : f.pulled ++ f.queue = x :: rest := by rw [hpu, hq]; rfl
      have h1 := h.entry; have h2 := h.distinct; have h3 := h.order
      rw [e] at h1 h2 h3
      exact ⟨h.todo, h.bound, h.completed, h.worker, h1, h2, h3, (fun hh => by change f.loaded = true at hh; rw [hl] at hh; cases hh),
        h.loaded⟩
  | pull c i id =>
    have hl := h.notLoaded (fun i hh => by rw [hp] at hh; cases hh) (fun i hh => by rw [hp] at hh; cases hh)
      (fun hh => by rw [hp] at hh; cases hh)
    have e : f.pulled ++ f.queue = (i, id) :: f.queue := by unfold Farm.pulled; rw [hp]; rfl
    have h1 := h.entry; have h2 := h.distinct; have h3 := h.order
    rw [e] at h1 h2 h3
    obtain ⟨w, hi, hid, hov, hns⟩ := h1 _ List.mem_cons_self
    change f.workers[i]? = some w at hi
    change w.batchId = id at hid
    have hw := h.worker i w hi
    obtain ⟨k, k1, k2, k3⟩ := h3
    rw [List.map_cons, List.length_cons, List.range'_succ] at k1
    rw [List.length_cons] at k2
    have hk : id = k := (List.cons.inj k1).1
    have k1' := (List.cons.inj k1).2
    have h1' : ∀ x ∈ f.queue, EntryOk f.workers x := fun x hx => h1 x (List.mem_cons_of_mem _ hx)
    have h2' : (f.queue.map Prod.fst).Nodup := (List.nodup_cons.mp h2).2
    rw [hp] at hs
    simp only [hi] at hs
    have failed : Inv recover items { ({ f with shouldStop := true } : Farm B R) with point := .next } :=
      ⟨h.todo, h.bound, h.completed, h.worker, h1', h2', ⟨k + 1, k1', by show k + 1 + f.queue.length = f.completed; omega,
        (fun hh => by cases hh)⟩, (fun hh => by change f.loaded = true at hh; rw [hl] at hh; cases hh),
        (fun hh => by change f.loaded = true at hh; rw [hl] at hh; cases hh)⟩
    cases hst : w.status with
    | idle => exact absurd hst hov.1
    | working => exact absurd hst hov.2
    | error =>
      rw [hst] at hs
      rw [← Outcome.ok.inj hs]
      exact Inv.collectedAll c false failed
    | aborted =>
      rw [hst] at hs
      rw [← Outcome.ok.inj hs]
      exact Inv.collectedAll c false failed
    | ready =>
      rw [hst] at hs
      simp only at hs
      have hov' := hw.over hov
      have ok : Inv recover items
          { ({ f.setWorker i { w with status := .idle, results := [] } with collected := f.collected ++ w.results } : Farm B R)
            with point := .next } := by
        refine ⟨h.todo, h.bound, h.completed, ?_, ?_, h2', ⟨k + 1, k1', by show k + 1 + f.queue.length = f.completed; omega, ?_⟩,
          (fun hh => by change f.loaded = true at hh; rw [hl] at hh; cases hh),
          (fun hh => by change f.loaded = true at hh; rw [hl] at hh; cases hh)⟩
        · intro j x hx
          rcases get_set hi hx with ⟨-, rfl⟩ | ⟨-, hx⟩
          · exact ⟨hw.batch, (fun hh => by cases hh), fun hh => absurd rfl hh, fun hh => absurd hh hns,
              fun hh => absurd hh hov'.running, fun hh => absurd rfl hh.1, hw.busy, fun _ => ⟨hov'.kick, hov'.woken⟩⟩
          · exact h.worker j x hx
        · intro x hx
          obtain ⟨u, g1, g2⟩ := h1' x hx
          have hne : x.1 ≠ i := by
            intro e
            refine (List.nodup_cons.mp h2).1 ?_
            show i ∈ f.queue.map Prod.fst
            rw [← e]
            exact List.mem_map_of_mem hx
          exact ⟨u, by show (f.workers.set i _)[x.1]? = _; rw [set_other _ hne]; exact g1, g2⟩
        · intro hh
          obtain ⟨m1, m2⟩ := k3 hh
          have hr := hw.ready hst
          rw [hid, hk] at hr
          refine ⟨?_, ?_⟩
          · show f.collected ++ w.results = _
            rw [firstResults_succ hr, m1]
          · intro j hj
            rcases Nat.lt_succ_iff_lt_or_eq.mp hj with hj | rfl
            · exact m2 j hj
            · rw [hr]; rfl
      split at hs
      · rw [← Outcome.ok.inj hs]
        exact Inv.collectedAll c true ok
      · rw [← Outcome.ok.inj hs]
        exact ok.point (.collect c) rfl hl (fun _ _ _ hh => by cases hh)
  | wait i =>
    have hl := h.notLoaded (fun i hh => by rw [hp] at hh; cases hh) (fun i hh => by rw [hp] at hh; cases hh)
      (fun hh => by rw [hp] at hh; cases hh)
    have hpu : f.pulled = [] := by unfold Farm.pulled; rw [hp]
    rw [hp] at hs
    simp only at hs
    split at hs
    · cases hs; exact h.point _ hpu hl (fun _ _ _ hh => by cases hh)
    · split at hs <;> (cases hs; exact h.point _ hpu hl (fun _ _ _ hh => by cases hh))
  | load =>
    have hl := h.notLoaded (fun i hh => by rw [hp] at hh; cases hh) (fun i hh => by rw [hp] at hh; cases hh)
      (fun hh => by rw [hp] at hh; cases hh)
    have hpu : f.pulled = [] := by unfold Farm.pulled; rw [hp]
    have h' := h.point (.stop 0) hpu hl (fun _ _ _ hh => by cases hh)
    rw [hp] at hs
    cases hs
    refine ⟨h'.todo, h'.bound, h'.completed, h'.worker, h'.entry, h'.distinct, h'.order, fun _ => Or.inl ⟨0, Or.inl rfl⟩, ?_⟩
    intro hh
    change (!f.collected.isEmpty && !f.stopped) = true at hh
    have hst : f.shouldStop = false := by
      unfold Farm.stopped at hh
      cases hx : f.shouldStop with
      | false => rfl
      | true => rw [hx] at hh; simp at hh
    obtain ⟨k, -, k2, k3⟩ := h.order
    have := h.completed
    have := h.bound
    exact ⟨k, by omega, k3 hst⟩
  | stop i =>
    have hpu : f.pulled = [] := by unfold Farm.pulled; rw [hp]
    rw [hp] at hs
    simp only at hs
    split at hs
    · cases hs; exact h.point' .done hpu (fun _ => Or.inr rfl) (fun _ _ _ hh => by cases hh)
    · next w hi =>
      rw [← Outcome.ok.inj hs]
      split
      · exact h.point' (.join i) hpu (fun _ => Or.inl ⟨i, Or.inr rfl⟩) (fun _ _ _ hh => by cases hh)
      · exact (h.halt hi true true w.dead (fun _ => Or.inl rfl) (fun _ => rfl)).point' (.join i)
          (by unfold Farm.pulled Farm.setWorker; simp only; rw [hp]) (fun _ => Or.inl ⟨i, Or.inr rfl⟩) (fun _ _ _ hh => by cases hh)
  | join i =>
    have hpu : f.pulled = [] := by unfold Farm.pulled; rw [hp]
    rw [hp] at hs
    simp only at hs
    split at hs
    · cases hs
    · split at hs
      · cases hs; exact h.point' (.stop (i + 1)) hpu (fun _ => Or.inl ⟨i + 1, Or.inl rfl⟩) (fun _ _ _ hh => by cases hh)
      · cases hs; exact h
  | done => rw [hp] at hs; cases hs; exact h
  | destroy i =>
    have hl := h.notLoaded (fun i hh => by rw [hp] at hh; cases hh) (fun i hh => by rw [hp] at hh; cases hh)
      (fun hh => by rw [hp] at hh; cases hh)
    have hpu : f.pulled = [] := by unfold Farm.pulled; rw [hp]
    rw [hp] at hs
    simp only at hs
    split at hs
    · cases hs; exact h.point _ hpu hl (fun _ _ _ hh => by cases hh)
    · next w hi =>
      rw [← Outcome.ok.inj hs]
      exact (h.halt hi w.kicked w.stopping true (fun e => Or.inr e) id).point (.destroyStop i)
        (by unfold Farm.pulled Farm.setWorker; simp only; rw [hp]) hl (fun _ _ _ hh => by cases hh)
  | destroyStop i =>
    have hl := h.notLoaded (fun i hh => by rw [hp] at hh; cases hh) (fun i hh => by rw [hp] at hh; cases hh)
      (fun hh => by rw [hp] at hh; cases hh)
    have hpu : f.pulled = [] := by unfold Farm.pulled; rw [hp]
    rw [hp] at hs
    simp only at hs
    split at hs
    · cases hs
    · next w hi =>
      split at hs
      · cases hs
      · rw [← Outcome.ok.inj hs]
        exact (h.halt hi w.kicked true w.dead (fun e => Or.inr e) (fun _ => rfl)).point (.destroyJoin i)
          (by unfold Farm.pulled Farm.setWorker; simp only; rw [hp]) hl (fun _ _ _ hh => by cases hh)
  | destroyJoin i =>
    have hl := h.notLoaded (fun i hh => by rw [hp] at hh; cases hh) (fun i hh => by rw [hp] at hh; cases hh)
      (fun hh => by rw [hp] at hh; cases hh)
    have hpu : f.pulled = [] := by unfold Farm.pulled; rw [hp]
    rw [hp] at hs
    simp only at hs
    split at hs
    · cases hs
    · split at hs
      · cases hs; exact h.point _ hpu hl (fun _ _ _ hh => by cases hh)
      · cases hs; exact h
  | thrown => rw [hp] at hs; cases hs; exact h

theorem inv_step {f g : Farm B R} (a : Actor) (h : Inv recover items f) (hs : step recover f a = .ok g) : Inv recover items g := by
  cases a with
  | main => exact inv_mainStep h hs
  | mainNoMemory => exact inv_mainStep h hs
  | worker i =>
    simp only [step] at hs
    split at hs
    · cases hs; exact h
    · next w hi => exact inv_workerStep h hi hs
  | user =>
    cases hs
    exact ⟨h.todo, h.bound, h.completed, h.worker, h.entry, h.distinct, h.order, h.after, h.loaded⟩

theorem inv_run {as : List Actor} {n : Nat} {g : Farm B R} (hr : run recover as (start n items) = .ok g) : Inv recover items g :=
  run_invariant (Q := fun _ => True) (fun _ _ a h _ hs => inv_step a h hs) (fun _ _ => trivial) (inv_start n) hr

end Silkworm.Workers
