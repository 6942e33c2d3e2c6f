import Verif.Stages.Workers

/-!
# Words for the threads that recover senders
-/

namespace Silkworm.Spec

open Silkworm.Workers

variable {B R : Type}

/-- Each of these batches was filled and recovered, with these results. -/
def RecoveredAs (recover : B → Option (List R)) (batches : List (Option B)) (rs : List (List R)) : Prop :=
  batches.map (fun o => o.bind recover) = rs.map some

/-- Every batch can be filled and recovered. -/
def AllRecover (recover : B → Option (List R)) (batches : List (Option B)) : Prop :=
  ∀ o ∈ batches, ∃ b rs, o = some b ∧ recover b = some rs

/-- Nobody interrupts the program, and there is memory for the workers. -/
def Undisturbed (schedule : List Actor) : Prop := ∀ a ∈ schedule, a = .main ∨ ∃ i, a = .worker i

/-- The call has ended, with or without an exception. -/
def HasEnded (f : Farm B R) : Prop := f.point = .done ∨ f.point = .thrown

/-- Every thread takes at least one step, in any order. -/
def EveryThread (n : Nat) (schedule : List Actor) : Prop := Actor.main ∈ schedule ∧ ∀ i < n, Actor.worker i ∈ schedule

/-- No worker that was given a batch has missed it. -/
def NoKickLost (f : Farm B R) : Prop :=
  ∀ w ∈ f.workers, w.status = .working → (w.place = .waiting ∧ w.kicked = true) ∨ w.place = .woken ∨ w.place = .running

/-- All batches are dispatched, and the program waits for the workers or is past that. -/
def AllDispatched (f : Farm B R) : Prop :=
  match f.point with
  | .wait _ | .collect .finish | .pull .finish _ _ | .load | .stop _ | .join _ | .done => True
  | _ => False

end Silkworm.Spec
