import Verif.Base.Outcome

/-!
# Model of the threads of db/silkworm/stagedsync/recovery and db/silkworm/common/worker.cpp

`Stages/Senders.lean` computes what is recovered and leaves open what the threads do in which order. Here the threads are steps of a
transition system: the thread that runs `RecoveryFarm::recover`, and one thread for each worker. A step is one access to what is
shared: `status_`, `kicked_`, `state_`, `batch_`, the queue with its mutex, and the number of completed batches. A schedule is any
list of actors. A step of an actor that has to wait changes nothing.

Batches are of any type; `recover` gives their results, one for each block, or `none` if a key cannot be recovered.

Simplifications. A step of an actor is sequentially consistent (all atomics are). `set_work` is one step, because only the worker reads
what it writes and only after the kick. Work on a batch is one step, because nothing it reads or writes is used by another thread
meanwhile; that this is so is part of what is proved. Numbers of batches (`uint32_t`) do not wrap. Sleeping is not modelled. That a
thread cannot be started (`std::system_error`) is not modelled; that there is no memory for a worker is.
-/

namespace Silkworm.Workers

/-- db/silkworm/stagedsync/recovery/recovery_worker.hpp:62-68 (`RecoveryWorker::Status`). -/
inductive Status where
  | idle
  | working
  | ready
  | error
  | aborted
  deriving DecidableEq

/-- Where the thread of a worker is. -/
inductive Place where
  /-- db/silkworm/common/worker.cpp:37, `state_` is `kStarted` already. -/
  | clearing
  /-- db/silkworm/common/worker.cpp:70-78. -/
  | waiting
  /-- db/silkworm/common/worker.cpp:79. -/
  | woken
  /-- db/silkworm/stagedsync/recovery/recovery_worker.cpp:53-96. -/
  | running
  /-- db/silkworm/stagedsync/recovery/recovery_worker.cpp:99. -/
  | signalling
  /-- db/silkworm/stagedsync/recovery/recovery_worker.cpp:100. -/
  | resetting
  /-- db/silkworm/common/worker.cpp:43, `state_` is `kStopped`. -/
  | exited
  deriving DecidableEq

/-- db/silkworm/stagedsync/recovery/recovery_worker.hpp:85-92, db/silkworm/common/worker.hpp:59-66. -/
structure Worker (B R : Type) where
  status : Status := .idle
  batch : Option B := none
  batchId : Nat := 0
  results : List R := []
  kicked : Bool := false
  /-- `state_` is `kStopping`. -/
  stopping : Bool := false
  /-- The members of `RecoveryWorker` have been destroyed. -/
  dead : Bool := false
  place : Place := .clearing
  deriving DecidableEq

/-- Who called `bufferize_workers_results`. -/
inductive Caller where
  | dispatch
  | finish
  deriving DecidableEq

/-- Where the thread of `RecoveryFarm::recover` is. -/
inductive Point where
  /-- db/silkworm/stagedsync/recovery/recovery_farm.cpp:95-143, 318-332: the next batch is filled and dispatched. -/
  | next
  /-- recovery_farm.cpp:335-347: looking for an idle worker. -/
  | findIdle
  /-- recovery_farm.cpp:350-353: looking for results, at this worker. -/
  | findReady (i : Nat)
  /-- recovery_farm.cpp:359-370: a new worker, or none. -/
  | grow
  /-- recovery_farm.cpp:232-244: the head of the loop. -/
  | collect (c : Caller)
  /-- recovery_farm.cpp:246-278: this worker and this batch were taken from the queue. -/
  | pull (c : Caller) (worker batchId : Nat)
  /-- recovery_farm.cpp:207-223 (`wait_workers_completion`), at this worker. -/
  | wait (i : Nat)
  /-- recovery_farm.cpp:151-162: after the last results. -/
  | load
  /-- recovery_farm.cpp:200-205 (`stop_all_workers`), db/silkworm/common/worker.cpp:55-58. -/
  | stop (i : Nat)
  /-- db/silkworm/common/worker.cpp:59-61. -/
  | join (i : Nat)
  /-- recovery_farm.cpp:166: `recover` has returned. -/
  | done
  /-- An exception: the destructor of the farm is at this worker. The queue and its mutex are gone
  (db/silkworm/stagedsync/recovery/recovery_farm.hpp:107-132, in reverse order). Its members are destroyed. -/
  | destroy (i : Nat)
  /-- db/silkworm/common/worker.cpp:21-22. -/
  | destroyStop (i : Nat)
  /-- db/silkworm/common/worker.cpp:23. -/
  | destroyJoin (i : Nat)
  /-- The exception has left `stage_senders`. -/
  | thrown
  deriving DecidableEq

/-- db/silkworm/stagedsync/recovery/recovery_farm.hpp:101-132. `todo` are the batches that are not dispatched yet; `none` is an
exception while the batch is filled, or an early return of `recover` (recovery_farm.cpp:109), which destroys the farm likewise. -/
structure Farm (B R : Type) where
  maxWorkers : Nat
  todo : List (Option B)
  workers : List (Worker B R) := []
  batchId : Nat := 0
  completed : Nat := 0
  queue : List (Nat × Nat) := []
  /-- `should_stop_` -/
  shouldStop : Bool := false
  /-- `g_should_stop` -/
  interrupted : Bool := false
  /-- What the collector was given. -/
  collected : List R := []
  /-- Whether it was loaded into the table. -/
  loaded : Bool := false
  point : Point := .next
  deriving DecidableEq

/-- Who takes a step. -/
inductive Actor where
  /-- The thread of `recover`. -/
  | main
  /-- The same, but there is no memory for a new worker. -/
  | mainNoMemory
  /-- The thread of this worker. -/
  | worker (i : Nat)
  /-- The user (`g_should_stop`). -/
  | user
  deriving DecidableEq

variable {B R : Type}

namespace Farm

/-- recovery_farm.hpp:59 (`should_stop`). -/
def stopped (f : Farm B R) : Bool := f.shouldStop || f.interrupted

/-- An exception leaves `recover`, and the farm is destroyed. -/
def throw (f : Farm B R) : Farm B R := { f with point := .destroy 0 }

/-- The queue and the mutex were destroyed. -/
def gone (f : Farm B R) : Bool :=
  match f.point with
  | .destroy _ | .destroyStop _ | .destroyJoin _ | .thrown => true
  | _ => false

/-- Change a worker. -/
def setWorker (f : Farm B R) (i : Nat) (w : Worker B R) : Farm B R := { f with workers := f.workers.set i w }

end Farm

/-- db/silkworm/common/worker.cpp:37-38, 68-80 and db/silkworm/stagedsync/recovery/recovery_worker.cpp:51-104: a step of the thread
of a worker. -/
def workerStep (recover : B → Option (List R)) (f : Farm B R) (i : Nat) (w : Worker B R) : Outcome Empty (Farm B R) :=
  match w.place with
  | .clearing => .ok (f.setWorker i { w with kicked := false, place := .waiting })
  | .waiting => if w.kicked then .ok (f.setWorker i { w with kicked := false, place := .woken }) else .ok f
  | .woken => .ok (f.setWorker i { w with place := if w.stopping then .exited else .running })
  | .running =>
    if w.dead then .ub
    else
      match w.batch with
      | none => .ub
      | some b =>
        match recover b with
        | none => .ok (f.setWorker i { w with results := [], status := .error, place := .signalling })
        | some rs =>
          if w.stopping then .ok (f.setWorker i { w with results := [], status := .aborted, place := .signalling })
          else .ok (f.setWorker i { w with results := rs, status := .ready, place := .signalling })
  | .signalling =>
    if w.dead || f.gone then .ub
    else if f.completed = w.batchId then
      .ok { f.setWorker i { w with place := .resetting } with
        queue := f.queue ++ [(i, w.batchId)], completed := f.completed + 1 }
    else .ok f
  | .resetting => if w.dead then .ub else .ok (f.setWorker i { w with batch := none, place := .waiting })
  | .exited => .ok f

/-- db/silkworm/stagedsync/recovery/recovery_worker.cpp:31-36 (`set_work`), for the first idle worker
(recovery_farm.cpp:336-347). -/
def assign (b : B) (id : Nat) : List (Worker B R) → Option (List (Worker B R))
  | [] => none
  | w :: ws =>
    if w.status = .idle then some ({ w with batch := some b, batchId := id, status := .working, kicked := true } :: ws)
    else (assign b id ws).map (w :: ·)

/-- recovery_farm.cpp:280-284, 355-375, 150-151: `bufferize_workers_results` returns. In `dispatch_batch` success is taken for a
failure. -/
def collectedAll (f : Farm B R) (c : Caller) (success : Bool) : Farm B R :=
  let f := if success then f else { f with shouldStop := true }
  match c with
  | .dispatch => if success then f.throw else { f with point := .findIdle }
  | .finish => { f with point := .load }

/-- recovery_farm.cpp:30-167: a step of the thread of `recover`. -/
def mainStep (memory : Bool) (f : Farm B R) : Outcome Empty (Farm B R) :=
  match f.point with
  | .next =>
    if f.stopped then .ok f.throw
    else
      match f.todo with
      | [] => .ok { f with point := .wait 0 }
      | none :: _ => .ok f.throw
      | some _ :: _ =>
        if f.workers = [] then
          if memory then .ok { f with workers := [{}], point := .findIdle } else .ok f.throw
        else .ok { f with point := .findIdle }
  | .findIdle =>
    match f.todo with
    | some b :: rest =>
      match assign b f.batchId f.workers with
      | some ws =>
        .ok { f with workers := ws, batchId := f.batchId + 1, todo := rest, point := if rest = [] then .wait 0 else .next }
      | none => .ok { f with point := .findReady 0 }
    | _ => .ub
  | .findReady i =>
    match f.workers[i]? with
    | none => .ok { f with point := .grow }
    | some w =>
      if w.status = .idle ∨ w.status = .working then .ok { f with point := .findReady (i + 1) }
      else .ok { f with point := .collect .dispatch }
  | .grow =>
    if f.workers.length ≠ f.maxWorkers then
      if memory then .ok { f with workers := f.workers ++ [{}], point := .findIdle }
      else .ok { f with maxWorkers := f.workers.length, point := .findIdle }
    else .ok { f with point := .findIdle }
  | .collect c =>
    match f.queue with
    | [] => .ok (collectedAll f c true)
    | x :: rest => .ok { f with queue := rest, point := .pull c x.1 x.2 }
  | .pull c i _ =>
    match f.workers[i]? with
    | none => .ub
    | some w =>
      match w.status with
      | .error | .aborted => .ok (collectedAll f c false)
      | .ready =>
        let f := { f.setWorker i { w with status := .idle, results := [] } with collected := f.collected ++ w.results }
        if f.stopped then .ok (collectedAll f c true) else .ok { f with point := .collect c }
      | .idle | .working => if f.stopped then .ok (collectedAll f c true) else .ok { f with point := .collect c }
  | .wait i =>
    match f.workers[i]? with
    | none => .ok { f with point := .collect .finish }
    | some w => if w.status = .working then .ok { f with point := .wait 0 } else .ok { f with point := .wait (i + 1) }
  | .load => .ok { f with loaded := !f.collected.isEmpty && !f.stopped, point := .stop 0 }
  | .stop i =>
    match f.workers[i]? with
    | none => .ok { f with point := .done }
    | some w =>
      .ok { (if w.place = .exited then f else f.setWorker i { w with stopping := true, kicked := true }) with point := .join i }
  | .join i =>
    match f.workers[i]? with
    | none => .ub
    | some w => if w.place = .exited then .ok { f with point := .stop (i + 1) } else .ok f
  | .done => .ok f
  | .destroy i =>
    match f.workers[i]? with
    | none => .ok { f with point := .thrown }
    | some w => .ok { f.setWorker i { w with dead := true } with point := .destroyStop i }
  | .destroyStop i =>
    match f.workers[i]? with
    | none => .ub
    | some w =>
      -- a thread that has ended but was not joined: `std::terminate`
      if w.place = .exited then .ub
      else .ok { f.setWorker i { w with stopping := true } with point := .destroyJoin i }
  | .destroyJoin i =>
    match f.workers[i]? with
    | none => .ub
    | some w => if w.place = .exited then .ok { f with point := .destroy (i + 1) } else .ok f
  | .thrown => .ok f

/-- A step. -/
def step (recover : B → Option (List R)) (f : Farm B R) : Actor → Outcome Empty (Farm B R)
  | .main => mainStep true f
  | .mainNoMemory => mainStep false f
  | .worker i =>
    match f.workers[i]? with
    | none => .ok f
    | some w => workerStep recover f i w
  | .user => .ok { f with interrupted := true }

/-- The state after a schedule. -/
def run (recover : B → Option (List R)) : List Actor → Farm B R → Outcome Empty (Farm B R)
  | [], f => .ok f
  | a :: as, f =>
    match step recover f a with
    | .ok f => run recover as f
    | .err e => .err e
    | .ub => .ub

/-- recovery_farm.cpp:21-28: a farm with these batches to come. -/
def start (maxWorkers : Nat) (batches : List (Option B)) : Farm B R := { maxWorkers := maxWorkers, todo := batches }

end Silkworm.Workers
