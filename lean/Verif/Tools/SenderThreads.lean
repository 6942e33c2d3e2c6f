import Verif.Stages.Workers

/-!
# Model of the threads of cmd/check_senders.cpp

The classes `RecoveryWorker` and `RecoveryFarm` of this command are older copies of those of the stage; the threads of the workers are
the same (cmd/check_senders.cpp:70-187 and db/silkworm/common/worker.cpp), and so are most steps of the main thread. What differs:
`bufferize_workers_results` tells success from failure, so that workers are used again; exceptions are caught in `recover`, which then
waits for the workers and stops them; and what the last call of `bufferize_workers_results` returns is dropped.

Simplifications as in `Stages/Workers.lean`.
-/

namespace Silkworm.Workers

variable {B R : Type}

/-- The farm, and `ret` of `recover` as far as it matters: whether it is a failure. -/
structure ToolFarm (B R : Type) where
  farm : Farm B R
  failed : Bool := false
  deriving DecidableEq

/-- cmd/check_senders.cpp:375-387: an exception is caught; then `wait_workers_completion`. -/
def ToolFarm.fail (t : ToolFarm B R) : ToolFarm B R := { farm := { t.farm with point := .wait 0 }, failed := true }

/-- The same function of the main thread as in the stage. -/
def ToolFarm.as (t : ToolFarm B R) : Outcome Empty (Farm B R) → Outcome Empty (ToolFarm B R)
  | .ok f => .ok { t with farm := f }
  | .err e => .err e
  | .ub => .ub

/-- cmd/check_senders.cpp:242-419: a step of the main thread. `early`: what comes in place of a batch that cannot be filled is a `return`
within the loop (line 330), which destroys the farm, rather than an exception. -/
def toolMainStep (early memory : Bool) (t : ToolFarm B R) : Outcome Empty (ToolFarm B R) :=
  match t.farm.point with
  | .next =>
    -- cmd/check_senders.cpp:317, 370, 624-628
    if t.farm.stopped then .ok t.fail
    else
      match t.farm.todo with
      | [] => .ok { t with farm := { t.farm with point := .wait 0 } }
      | none :: _ => if early then .ok { t with farm := t.farm.throw } else .ok t.fail
      | some _ :: _ =>
        -- cmd/check_senders.cpp:630-635
        if t.farm.workers = [] then
          if memory then .ok { t with farm := { t.farm with workers := [{}], point := .findIdle } } else .ok t.fail
        else .ok { t with farm := { t.farm with point := .findIdle } }
  | .collect .dispatch =>
    -- cmd/check_senders.cpp:511-516, 561-567, 658-661
    match t.farm.queue with
    | [] => .ok { t with farm := { t.farm with point := .findIdle } }
    | x :: rest => .ok { t with farm := { t.farm with queue := rest, point := .pull .dispatch x.1 x.2 } }
  | .pull .dispatch i _ =>
    -- cmd/check_senders.cpp:518-567, 658-661
    match t.farm.workers[i]? with
    | none => .ub
    | some w =>
      match w.status with
      | .error | .aborted => .ok (ToolFarm.fail { t with farm := { t.farm with shouldStop := true } })
      | .ready =>
        let f := { t.farm.setWorker i { w with status := .idle, results := [] } with collected := t.farm.collected ++ w.results }
        .ok { t with farm := { f with point := if f.stopped then .findIdle else .collect .dispatch } }
      | .idle | .working => .ok { t with farm := { t.farm with point := if t.farm.stopped then .findIdle else .collect .dispatch } }
  | .wait i =>
    -- cmd/check_senders.cpp:387-389, 485-501
    match t.farm.workers[i]? with
    | none => .ok { t with farm := { t.farm with point := if t.failed then .stop 0 else .collect .finish } }
    | some w => .ok { t with farm := { t.farm with point := if w.status = .working then .wait 0 else .wait (i + 1) } }
  | _ => t.as (mainStep memory t.farm)

/-- A step. -/
def toolStep (recover : B → Option (List R)) (early : Bool) (t : ToolFarm B R) : Actor → Outcome Empty (ToolFarm B R)
  | .main => toolMainStep early true t
  | .mainNoMemory => toolMainStep early false t
  | .worker i => t.as (step recover t.farm (.worker i))
  | .user => t.as (step recover t.farm .user)

/-- The state after a schedule. -/
def toolRun (recover : B → Option (List R)) (early : Bool) : List Actor → ToolFarm B R → Outcome Empty (ToolFarm B R)
  | [], t => .ok t
  | a :: as, t =>
    match toolStep recover early t a with
    | .ok t => toolRun recover early as t
    | .err e => .err e
    | .ub => .ub

/-- cmd/check_senders.cpp:207-216: a farm with these batches to come. -/
def toolStart (maxWorkers : Nat) (batches : List (Option B)) : ToolFarm B R := { farm := start maxWorkers batches }

end Silkworm.Workers
