import Verif.Stages.WorkersSpec

/-!
# Properties C112 to C114: the threads that recover senders
-/

namespace Silkworm.Properties

open Silkworm.Workers
open Silkworm.Spec

variable {B R : Type}

/-- A recovery for examples: every number but zero. -/
def exampleRecover (b : Nat) : Option (List Nat) := if b = 0 then none else some [b, 10 * b]

/-- One step of the main thread after another. -/
def mains (k : Nat) : List Actor := List.replicate k .main

/-- One step of a worker after another. -/
def works (i k : Nat) : List Actor := List.replicate k (.worker i)

/-- The first batch is given to a new worker that is ready for it; then the second is looked at. -/
def oneDispatched : List Actor := mains 1 ++ works 0 1 ++ mains 1

/-- Two batches are given to two workers that are ready for them. -/
def twoDispatched : List Actor := oneDispatched ++ mains 5 ++ works 1 1 ++ mains 1

/-! ## C112 -/

/-- C112: whatever the threads do in whatever order, with interrupts, failures and too little memory: if results are loaded into the
table, they are the results of the first batches, in the order of the batches, and each of these batches was recovered. -/
theorem c112_order (recover : B → Option (List R)) (n : Nat) (batches : List (Option B)) (schedule : List Actor) (f : Farm B R)
    (hr : run recover schedule (start n batches) = .ok f) (hl : f.loaded = true) :
    ∃ k rs, k ≤ batches.length ∧ RecoveredAs recover (batches.take k) rs ∧ f.collected = rs.flatten := by
  obtain ⟨c, h1, h2, h3⟩ := (inv_run hr).loaded hl
  obtain ⟨r1, r2⟩ := recoveredAs_of (recover := recover) (items := batches) (k := c) fun j hj _ => h3 j hj
  exact ⟨c, _, h1, r1, by rw [r2]; exact h2⟩

example : ∃ f, run exampleRecover (twoDispatched ++ works 1 3 ++ works 0 5 ++ works 1 2 ++ mains 3 ++ mains 6 ++ mains 1 ++ works 0 2 ++
    mains 2 ++ works 1 2 ++ mains 2) (start 2 [some 7, some 8]) = .ok f ∧ f.point = .done ∧ f.loaded = true ∧
    f.collected = [7, 70, 8, 80] := ⟨_, rfl, rfl, rfl, rfl⟩

/-- C112 is violated where it says that all results are loaded: a worker stores that its results are ready before it enters its batch into
the queue, and `wait_workers_completion` looks only at the former. Nothing fails and nobody interrupts, `recover` returns, and the
second batch is missing. -/
theorem c112_all_violated : ∃ (schedule : List Actor) (f : Farm Nat Nat), Undisturbed schedule ∧
    AllRecover exampleRecover [some 7, some 8] ∧ run exampleRecover schedule (start 2 [some 7, some 8]) = .ok f ∧
    f.point = .done ∧ f.loaded = true ∧ f.collected = [7, 70] := by
  refine ⟨twoDispatched ++ works 0 5 ++ works 1 3 ++ mains 3 ++ mains 4 ++ mains 1 ++ works 0 2 ++ mains 2 ++ works 1 4 ++ mains 2, _,
    ?_, ?_, rfl, rfl, rfl, rfl⟩
  · intro a ha
    have : a ∈ [Actor.main, .worker 0, .worker 1] := by
      revert a
      decide +kernel
    rcases List.mem_cons.mp this with rfl | this
    · exact Or.inl rfl
    · rcases List.mem_cons.mp this with rfl | this
      · exact Or.inr ⟨0, rfl⟩
      · rcases List.mem_cons.mp this with rfl | this
        · exact Or.inr ⟨1, rfl⟩
        · cases this
  · intro o ho
    rcases List.mem_cons.mp ho with rfl | ho
    · exact ⟨7, _, rfl, rfl⟩
    · rcases List.mem_cons.mp ho with rfl | ho
      · exact ⟨8, _, rfl, rfl⟩
      · cases ho

/-- C112, the part that holds (all results): if every batch was entered into the queue before the main thread stops waiting, all
results are collected, whatever the threads do from there on, as long as each of them gets its turn, and they are loaded unless there are
none. What is missing: that the main thread waits for that. -/
theorem c112_all_partial (recover : B → Option (List R)) (n : Nat) (batches : List (Option B)) (rs : List (List R)) (schedule : List Actor)
    (f : Farm B R) (i : Nat) (hn : 1 ≤ n) (hall : RecoveredAs recover batches rs) (hs : Undisturbed schedule)
    (hr : run recover schedule (start n batches) = .ok f) (hw : f.point = .wait i) (hq : f.completed = batches.length)
    (rounds : List (List Actor)) (hround : ∀ as ∈ rounds, Undisturbed as ∧ EveryThread n as) (hlong : 20 * n + 5 ≤ rounds.length) :
    ∃ g, run recover rounds.flatten f = .ok g ∧ g.point = .done ∧ g.collected = rs.flatten ∧ g.loaded = !g.collected.isEmpty := by
  have hc := calm_of (recoveredAs_all hall)
  have hd : AllDispatched f := by unfold AllDispatched; rw [hw]; trivial
  have hk : NoKickLost f := by
    intro w hmem hst
    exfalso
    obtain ⟨k, hk, rfl⟩ := List.getElem_of_mem hmem
    have hg := List.getElem?_eq_getElem hk
    rcases calm_run hn hc (actors_calm hs) with ⟨f', h1, h2, h3, -⟩ | ⟨bs, cs, g, rfl, h1, h2, ⟨j, h3, -⟩⟩
    · rw [hr] at h1
      cases h1
      have hlen := h3.dispatched_length (dispatched_iff.mp hd)
      have := ((h3.worker k _ hg).before (by omega)).mpr (Or.inl hst)
      have := h2.bound
      omega
    · rw [run_append, h1] at hr
      have := (doomed_run hc h2 h3 hr).point
      rw [hw] at this
      rcases this with ⟨hp | ⟨i, id, hp⟩, -⟩ | ⟨i, -, hp | hp | hp⟩ <;> cases hp
  have good := good_of hn hc hs hr hd hk
  have hle := good.rank_le
  obtain ⟨g, g1, g2, g3⟩ := good_rounds hn hc good (rounds_of hround) (by omega)
  have hfull : Full recover batches f :=
    ⟨hq, (fun hh => by rw [hw] at hh; rcases hh with hh | hh; cases hh; exact hh.elim), fun hh => by rw [hw] at hh; exact hh.elim⟩
  have hg := full_run hn hc good hfull (round_calm (rounds_of hround)) g1
  have he : g.point.Ending := by rw [g3]; trivial
  exact ⟨g, g1, g3, (hg.collected (Or.inr he)).trans (firstResults_all hall), hg.loaded he⟩

example : ∃ f, run exampleRecover (twoDispatched ++ works 0 5 ++ works 1 4) (start 2 [some 7, some 8]) = .ok f ∧ f.point = .wait 0 ∧
    f.completed = 2 := ⟨_, rfl, rfl, rfl⟩

/-- C112: if there are no more batches than workers, there is an order of steps with which all results are loaded. -/
theorem c112_possible (recover : B → Option (List R)) (n : Nat) (batches : List (Option B)) (rs : List (List R)) (hn : 1 ≤ n)
    (hall : RecoveredAs recover batches rs) (hle : batches.length ≤ n) :
    ∃ schedule f, Undisturbed schedule ∧ run recover schedule (start n batches) = .ok f ∧ f.point = .done ∧ f.collected = rs.flatten ∧
      f.loaded = !f.collected.isEmpty := by
  obtain ⟨as, g, h1, h2, h3, h4, h5⟩ := can_finish_start hn (calm_of (recoveredAs_all hall)) hle
  exact ⟨as, g, actors_undisturbed h1, h2, h3, h4.trans (firstResults_all hall), h5⟩

example : RecoveredAs exampleRecover [some 7, some 8] [[7, 70], [8, 80]] := rfl

/-! ## C113 -/

/-- C113, the part that holds: if every batch is recovered and nobody interrupts, nothing undefined is done before the main thread pulls
results while it dispatches a batch. What is missing: that nothing undefined is done after that, or after a failure or an interrupt. -/
theorem c113_defined_partial (recover : B → Option (List R)) (n : Nat) (batches : List (Option B)) (schedule : List Actor) (hn : 1 ≤ n)
    (hall : AllRecover recover batches) (hs : Undisturbed schedule) (hub : run recover schedule (start n batches) = .ub) :
    ∃ before after f, schedule = before ++ after ∧ run recover before (start n batches) = .ok f ∧ f.point = .collect .dispatch := by
  rcases calm_run hn (calm_of hall) (actors_calm hs) with ⟨g, h1, -⟩ | ⟨bs, cs, g, e, h1, -, ⟨j, -, h3, -⟩⟩
  · rw [hub] at h1
    cases h1
  · exact ⟨bs, cs, g, e, h1, h3⟩

/-- C113: with a single batch nothing undefined is done. -/
theorem c113_single (recover : B → Option (List R)) (n : Nat) (batches : List (Option B)) (schedule : List Actor) (hn : 1 ≤ n)
    (hall : AllRecover recover batches) (hone : batches.length ≤ 1) (hs : Undisturbed schedule) :
    run recover schedule (start n batches) ≠ .ub := by
  intro hub
  rcases calm_run hn (calm_of hall) (actors_calm hs) with ⟨g, h1, -⟩ | ⟨bs, cs, g, e, h1, h2, h3⟩
  · rw [hub] at h1
    cases h1
  · have := early_two h2 h3
    omega

example : ∃ f, run exampleRecover (oneDispatched ++ works 0 5 ++ mains 7 ++ works 0 2 ++ mains 2) (start 1 [some 7]) = .ok f ∧
    f.point = .done ∧ f.collected = [7, 70] := ⟨_, rfl, rfl, rfl⟩

/-- C113 is violated: the first worker is ready before the second batch is dispatched. The main thread pulls results, takes success for a
failure, throws, and destroys the queue; the worker enters its batch into the destroyed queue. -/
theorem c113_queue_violated : run exampleRecover (oneDispatched ++ works 0 3 ++ mains 5 ++ works 0 1) (start 2 [some 7, some 8]) = .ub ∧
    AllRecover exampleRecover [some 7, some 8] := by
  refine ⟨rfl, ?_⟩
  intro o ho
  rcases List.mem_cons.mp ho with rfl | ho
  · exact ⟨7, _, rfl, rfl⟩
  · rcases List.mem_cons.mp ho with rfl | ho
    · exact ⟨8, _, rfl, rfl⟩
    · cases ho

/-- C113 is violated: one worker has results and another has failed, so that the failure is not thrown; the first worker gets the third
batch between its signal and `batch_.reset()`, loses it, and dereferences a null pointer. -/
theorem c113_failure_violated :
    run exampleRecover (twoDispatched ++ works 0 4 ++ works 1 4 ++ mains 8 ++ works 0 4) (start 2 [some 7, some 0, some 9]) = .ub := by
  rfl

/-! ## C114 -/

/-- C114 is violated: with more batches than workers the call never ends, neither with success nor with an exception, whatever the threads
do, although every batch is recovered and nobody interrupts. -/
theorem c114_more_violated (recover : B → Option (List R)) (n : Nat) (batches : List (Option B)) (schedule : List Actor) (hn : 1 ≤ n)
    (hall : AllRecover recover batches) (hmore : n < batches.length) (hs : Undisturbed schedule) (f : Farm B R)
    (hr : run recover schedule (start n batches) = .ok f) : ¬ HasEnded f := by
  have hc := calm_of hall
  rcases calm_run hn hc (actors_calm hs) with ⟨g, h1, h2, h3, -⟩ | ⟨bs, cs, g, rfl, h1, h2, h3⟩
  · rw [hr] at h1
    cases h1
    rintro (e | e)
    · have hd : f.point.Dispatched := by rw [e]; trivial
      have hlen := h3.dispatched_length hd
      have htodo := h3.over hd
      rw [h2.todo, List.drop_eq_nil_iff] at htodo
      have := h3.upper
      omega
    · exact orderly_not_thrown h3 e
  · rw [run_append, h1] at hr
    exact not_ended_of_early hc h2 h3 hr

example : AllRecover exampleRecover [some 7, some 8] ∧ 1 < [some 7, some 8].length := by
  refine ⟨?_, by decide⟩
  intro o ho
  rcases List.mem_cons.mp ho with rfl | ho
  · exact ⟨7, _, rfl, rfl⟩
  · rcases List.mem_cons.mp ho with rfl | ho
    · exact ⟨8, _, rfl, rfl⟩
    · cases ho

/-- C114 is violated: once the main thread pulls results while it dispatches a batch, the call never ends, whatever happens then,
although every batch is recovered. (The exception destroys workers that nobody has kicked.) -/
theorem c114_early_violated (recover : B → Option (List R)) (n : Nat) (batches : List (Option B)) (schedule : List Actor) (hn : 1 ≤ n)
    (hall : AllRecover recover batches) (hs : Undisturbed schedule) (f : Farm B R)
    (hr : run recover schedule (start n batches) = .ok f) (hp : f.point = .collect .dispatch) (more : List Actor) (g : Farm B R)
    (hm : run recover more f = .ok g) : ¬ HasEnded g := by
  have hc := calm_of hall
  rcases calm_run hn hc (actors_calm hs) with ⟨f', h1, h2, h3, -⟩ | ⟨bs, cs, f', rfl, h1, h2, h3⟩
  · rw [hr] at h1
    cases h1
    exfalso
    have e := h3.point
    rw [hp] at e
    rcases e with e | e | e <;> first | exact e.elim | cases e
  · rw [run_append, h1] at hr
    change run recover cs f' = .ok f at hr
    have : run recover (cs ++ more) f' = .ok g := by rw [run_append, hr]; exact hm
    exact not_ended_of_early hc h2 h3 this

example : ∃ f, run exampleRecover (oneDispatched ++ works 0 5 ++ mains 3) (start 2 [some 7, some 8]) = .ok f ∧
    f.point = .collect .dispatch := ⟨_, rfl, rfl⟩

/-- C114 is violated with a single batch, too: the worker clears a kick that came early, and the main thread waits for it forever. -/
theorem c114_lost_kick_violated : ∃ f, run exampleRecover (mains 2 ++ works 0 1) (start 1 [some 7]) = .ok f ∧
    ∀ more g, run exampleRecover more f = .ok g → ¬ HasEnded g := by
  refine ⟨_, rfl, ?_⟩
  intro more g hr
  have h := lost_run (j := 0) (by exact ⟨⟨0, Nat.le_refl _, rfl⟩, _, rfl, rfl, rfl, rfl⟩) hr
  obtain ⟨⟨i, -, hp⟩, -⟩ := h
  rintro (e | e) <;> (rw [hp] at e; cases e)

/-- C114 is violated after an interrupt: the exception destroys workers that have nothing to do, and waits for them forever. -/
theorem c114_interrupt_violated :
    ∃ f, run exampleRecover (oneDispatched ++ works 0 5 ++ [.user] ++ mains 1) (start 2 [some 7, some 8]) = .ok f ∧
      ∀ more g, run exampleRecover more f = .ok g → ¬ HasEnded g := by
  refine ⟨_, rfl, ?_⟩
  intro more g hr
  have hall : AllRecover exampleRecover [some 7, some 8] := by
    intro o ho
    rcases List.mem_cons.mp ho with rfl | ho
    · exact ⟨7, _, rfl, rfl⟩
    · rcases List.mem_cons.mp ho with rfl | ho
      · exact ⟨8, _, rfl, rfl⟩
      · cases ho
  have hinv := inv_run (recover := exampleRecover) (items := [some 7, some 8]) (n := 2)
    (as := oneDispatched ++ works 0 5 ++ [.user] ++ mains 1) rfl
  have h := (doomed_run (calm_of hall) hinv (j := 0) ⟨⟨_, rfl, rfl, Or.inr (Or.inr rfl)⟩, Or.inr ⟨0, Nat.le_refl _, Or.inl rfl⟩⟩ hr).point_ne
  rintro (e | e)
  · exact h.1 e
  · exact h.2 e

/-- C114, the part that holds: once all batches are dispatched and no kick was lost, the call ends, whatever the threads do, as long as
every thread gets its turn often enough. What is missing: that this is reached. -/
theorem c114_ends_partial (recover : B → Option (List R)) (n : Nat) (batches : List (Option B)) (schedule : List Actor) (hn : 1 ≤ n)
    (hall : AllRecover recover batches) (hs : Undisturbed schedule) (f : Farm B R)
    (hr : run recover schedule (start n batches) = .ok f) (hd : AllDispatched f) (hk : NoKickLost f)
    (rounds : List (List Actor)) (hround : ∀ as ∈ rounds, Undisturbed as ∧ EveryThread n as) (hlong : 20 * n + 5 ≤ rounds.length) :
    ∃ g, run recover rounds.flatten f = .ok g ∧ g.point = .done := by
  have hc := calm_of hall
  have good := good_of hn hc hs hr hd hk
  have hle := good.rank_le
  obtain ⟨g, g1, -, g3⟩ := good_rounds hn hc good (rounds_of hround) (by omega)
  exact ⟨g, g1, g3⟩

example : ∃ f, run exampleRecover (twoDispatched ++ works 1 3) (start 2 [some 7, some 8]) = .ok f ∧ AllDispatched f ∧ NoKickLost f ∧
    ∃ g, run exampleRecover (List.replicate 20 [Actor.main, .worker 0, .worker 1]).flatten f = .ok g ∧ g.point = .done := by
  refine ⟨_, rfl, trivial, ?_, _, rfl, rfl⟩
  unfold NoKickLost
  decide +kernel

end Silkworm.Properties
