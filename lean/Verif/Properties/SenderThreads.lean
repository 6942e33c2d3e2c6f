import Verif.Tools.SenderThreadsLemmas
import Verif.Stages.WorkersSpec

/-!
# Property C153: the threads of check_senders
-/

namespace Silkworm.Properties

open Silkworm.Workers
open Silkworm.Spec

variable {B R : Type}

/-- A recovery for examples: every number but zero. -/
def toolRecover (b : Nat) : Option (List Nat) := if b = 0 then none else some [b, 10 * b]

/-- Steps of the main thread. -/
def toolMains (k : Nat) : List Actor := List.replicate k .main

/-- Steps of a worker. -/
def toolWorks (i k : Nat) : List Actor := List.replicate k (.worker i)

/-- The first batch is given to a new worker that is ready for it. -/
def toolOne : List Actor := toolMains 1 ++ toolWorks 0 1 ++ toolMains 1

/-- C153: whatever the threads do in whatever order, with interrupts, failures and too little memory: if results are loaded into the
table, they are the results of the first batches, in the order of the batches, and each of these batches was recovered. -/
theorem c153_order (recover : B → Option (List R)) (early : Bool) (n : Nat) (batches : List (Option B)) (schedule : List Actor)
    (t : ToolFarm B R) (hr : toolRun recover early schedule (toolStart n batches) = .ok t) (hl : t.farm.loaded = true) :
    ∃ k rs, k ≤ batches.length ∧ RecoveredAs recover (batches.take k) rs ∧ t.farm.collected = rs.flatten := by
  obtain ⟨c, h1, h2, h3⟩ := (inv_toolRun hr).loaded hl
  obtain ⟨r1, r2⟩ := recoveredAs_of (recover := recover) (items := batches) (k := c) fun j hj _ => h3 j hj
  exact ⟨c, _, h1, r1, by rw [r2]; exact h2⟩

example : ∃ t, toolRun toolRecover false (toolOne ++ toolWorks 0 5 ++ toolMains 7 ++ toolWorks 0 5 ++ toolMains 8 ++ toolWorks 0 2 ++ toolMains 2)
    (toolStart 1 [some 7, some 8]) = .ok t ∧ t.farm.point = .done ∧ t.farm.loaded = true ∧ t.farm.collected = [7, 70, 8, 80] :=
  ⟨_, rfl, rfl, rfl, rfl⟩

/-- C153: workers are used again: with any number of workers and any number of batches that can be recovered there is an order of steps
with which all results are loaded. (In the stage there is none with more batches than workers.) -/
theorem c153_possible (recover : B → Option (List R)) (early : Bool) (n : Nat) (batches : List (Option B)) (rs : List (List R))
    (hall : RecoveredAs recover batches rs) :
    ∃ schedule t, Undisturbed schedule ∧ toolRun recover early schedule (toolStart n batches) = .ok t ∧ t.farm.point = .done ∧
      t.farm.collected = rs.flatten ∧ t.farm.loaded = !rs.flatten.isEmpty ∧ t.failed = false := by
  have hb : ∃ bs : List B, batches = bs.map some ∧ bs.map recover = rs.map some := by
    unfold RecoveredAs at hall
    clear n early
    induction batches generalizing rs with
    | nil => exact ⟨[], rfl, hall⟩
    | cons o os ih =>
      cases rs with
      | nil => cases hall
      | cons x xs =>
        rw [List.map_cons, List.map_cons] at hall
        obtain ⟨h1, h2⟩ := List.cons.inj hall
        obtain ⟨bs, rfl, h3⟩ := ih xs h2
        cases o with
        | none => cases h1
        | some b => exact ⟨b :: bs, rfl, by rw [List.map_cons, List.map_cons, h3]; congr 1⟩
  obtain ⟨bs, rfl, h⟩ := hb
  obtain ⟨as, g, h1, h2, h3, h4, h5, h6⟩ := can_finish_tool (n := n) (early := early) bs rs h
  refine ⟨as, g, ?_, h2, h3, h4, h5, h6⟩
  intro a ha
  rcases h1 a ha with rfl | rfl
  · exact .inl rfl
  · exact .inr ⟨0, rfl⟩

example : RecoveredAs toolRecover [some 7, some 8, some 9] [[7, 70], [8, 80], [9, 90]] := rfl

/-- C153 is violated where it says that nothing undefined is done: every batch is recovered, nobody interrupts, and there is one worker.
It has entered its batch into the queue; the main thread takes the results and gives it the next batch; then the worker resets its batch,
which is the new one, and dereferences a null pointer. -/
theorem c153_reset_violated : ∃ schedule, Undisturbed schedule ∧ AllRecover toolRecover [some 7, some 8] ∧
    toolRun toolRecover false schedule (toolStart 1 [some 7, some 8]) = .ub := by
  refine ⟨toolOne ++ toolWorks 0 4 ++ toolMains 7 ++ toolWorks 0 4, ?_, ?_, rfl⟩
  · intro a ha
    have : a ∈ [Actor.main, .worker 0] := by
      revert a
      decide +kernel
    rcases List.mem_cons.mp this with rfl | this
    · exact Or.inl rfl
    · rcases List.mem_cons.mp this with rfl | this
      · exact Or.inr ⟨0, rfl⟩
      · cases this
  · intro o ho
    rcases List.mem_cons.mp ho with rfl | ho
    · exact ⟨7, _, rfl, rfl⟩
    · rcases List.mem_cons.mp ho with rfl | ho
      · exact ⟨8, _, rfl, rfl⟩
      · cases ho

/-- C153, the part that holds (nothing undefined): this is the only thing that is undefined, whatever the threads do in whatever order, with
interrupts, failures and too little memory, as long as `recover` does not return within its loop: before anything undefined is done, a
worker is given a batch between its signal and `batch_.reset()`. What is missing: that no worker is given a batch there. -/
theorem c153_defined_partial (recover : B → Option (List R)) (n : Nat) (batches : List (Option B)) (schedule : List Actor)
    (hub : ∀ t, toolRun recover false schedule (toolStart n batches) ≠ .ok t) :
    ∃ before after t, schedule = before ++ after ∧ toolRun recover false before (toolStart n batches) = .ok t ∧
      ∃ w ∈ t.farm.workers, w.place = .resetting ∧ w.status = .working := by
  rcases sound_toolRun (recover := recover) (items := batches) schedule (t := toolStart n batches) (inv_start n) (sound_start n) with
    ⟨g, h, -⟩ | h
  · exact absurd h (hub g)
  · exact h

example : ∃ t, toolRun toolRecover false (toolOne ++ toolWorks 0 4 ++ toolMains 7) (toolStart 1 [some 7, some 8]) = .ok t ∧
    ∃ w ∈ t.farm.workers, w.place = .resetting ∧ w.status = .working := ⟨_, rfl, _, List.mem_cons_self, rfl, rfl⟩

/-- C153: with a failure or an interrupt, too, the command ends as it should here: it waits for the workers, stops them, and returns. -/
example : ∃ t, toolRun toolRecover false (toolOne ++ toolWorks 0 5 ++ [.user] ++ toolMains 5 ++ toolWorks 0 2 ++ toolMains 2)
    (toolStart 1 [some 7, some 8]) = .ok t ∧ t.farm.point = .done ∧ t.farm.loaded = false ∧ t.failed = true := ⟨_, rfl, rfl, rfl, rfl⟩

/-- C153 is violated if `recover` returns within its loop (a body is missing): the farm is destroyed while a worker runs, and the worker
enters its batch into a queue that no longer exists. -/
theorem c153_return_violated :
    toolRun toolRecover true (toolOne ++ toolWorks 0 3 ++ toolMains 1 ++ toolWorks 0 1) (toolStart 1 [some 7, none]) = .ub := rfl

/-- C153 is violated where it says that all results are loaded: a worker stores that its results are ready before it enters its batch into
the queue, and the main thread looks only at the former. Nothing fails and nobody interrupts, `recover` returns success, and the second
batch is missing. -/
theorem c153_all_violated : ∃ t : ToolFarm Nat Nat, AllRecover toolRecover [some 7, some 8] ∧
    toolRun toolRecover false (toolOne ++ toolMains 5 ++ toolWorks 1 1 ++ toolMains 1 ++ toolWorks 0 5 ++ toolWorks 1 3 ++ toolMains 8 ++
      toolWorks 0 2 ++ toolMains 2 ++ toolWorks 1 4 ++ toolMains 2) (toolStart 2 [some 7, some 8]) = .ok t ∧
    t.farm.point = .done ∧ t.failed = false ∧ t.farm.loaded = true ∧ t.farm.collected = [7, 70] := by
  refine ⟨_, ?_, rfl, rfl, rfl, rfl, rfl⟩
  intro o ho
  rcases List.mem_cons.mp ho with rfl | ho
  · exact ⟨7, _, rfl, rfl⟩
  · rcases List.mem_cons.mp ho with rfl | ho
    · exact ⟨8, _, rfl, rfl⟩
    · cases ho

/-- C153 is violated where it says that failures are reported: what the last `bufferize_workers_results` returns is dropped. A key that
cannot be recovered gives success, and nothing is loaded, not even the batch that was recovered. -/
theorem c153_failure_violated : ∃ t : ToolFarm Nat Nat,
    toolRun toolRecover false (toolOne ++ toolMains 5 ++ toolWorks 1 1 ++ toolMains 1 ++ toolWorks 0 5 ++ toolWorks 1 5 ++ toolMains 10 ++
      toolWorks 0 2 ++ toolMains 2 ++ toolWorks 1 2 ++ toolMains 2) (toolStart 2 [some 7, some 0]) = .ok t ∧
    t.farm.point = .done ∧ t.failed = false ∧ t.farm.loaded = false := ⟨_, rfl, rfl, rfl, rfl⟩

/-- C153 is violated where it says that the command ends: the worker clears a kick that came early, and the main thread waits for it
forever, whatever the threads do. -/
theorem c153_lost_kick_violated : ∃ t, toolRun toolRecover false (toolMains 2 ++ toolWorks 0 1) (toolStart 1 [some 7]) = .ok t ∧
    ∀ more g, toolRun toolRecover false more t = .ok g → ¬ HasEnded g.farm := by
  refine ⟨_, rfl, ?_⟩
  intro more g hr
  have h := lost_toolRun (j := 0) (by exact ⟨⟨0, Nat.le_refl _, rfl⟩, _, rfl, rfl, rfl, rfl⟩) hr
  obtain ⟨⟨i, -, hp⟩, -⟩ := h
  rintro (e | e) <;> (rw [hp] at e; cases e)

end Silkworm.Properties
