import Verif.Stages.Common
import Verif.Chain.Config
import Verif.Crypto.Ecdsa

/-!
# Model of db/silkworm/stagedsync/recovery and stage_senders.cpp

What the threads do in which order is a parameter. An exception, or an early return, while there are workers never ends:
`~RecoveryWorker` frees the batch of a thread that may still read it, and `~Worker` (db/silkworm/common/worker.cpp:20-26) joins a
thread that waits for a kick which nobody gives. It is undefined behaviour here.

Simplifications: memory is never exhausted, and nobody asks the program to stop.
-/

namespace Silkworm.Stages

open Silkworm.Db Silkworm.Etl

/-- recovery_worker.hpp:55-60 (`RecoveryWorker::package`). -/
structure Package where
  number : Nat
  hash : Bytes
  odd : Bool
  signature : Bytes
  deriving DecidableEq

/-- What recovery depends on. -/
structure Farm where
  keccak : Bytes → Bytes
  /-- `ecdsa::recover` -/
  recover : Bytes → Bytes → Bool → Option Bytes
  maxWorkers : Nat
  maxBatch : Nat
  /-- Whether a worker can be started for this batch, and none has finished a batch before that. -/
  found : Nat → Bool
  /-- Whether the thread of this worker has cleared `kicked_` (db/silkworm/common/worker.cpp:37) before it is kicked. Otherwise
  it waits for ever. -/
  kicked : Nat → Bool
  /-- How many batches were in the queue when it was emptied for the last time. A worker is `ResultsReady` before it puts its batch
  there (recovery_worker.cpp:95-99). -/
  seen : Nat

/-- An exception or an early return with this number of workers. -/
def leave {α : Type} (workers : Nat) (r : Outcome StageError α) : Outcome StageError α := if workers = 0 then r else .ub

/-- An exception with this number of workers. -/
def hang {α : Type} (workers : Nat) : Outcome StageError α → Outcome StageError α
  | .ok a => .ok a
  | .err e => leave workers (.err e)
  | .ub => .ub

/-- recovery_farm.cpp:394-435 (`fill_canonical_headers`): the loop, to the end of the table. -/
def canonicalLoop : Table → Nat → Nat → Outcome StageError (Option (List Bytes × Nat))
  | [], _, reached => .ok (some ([], reached))
  | e :: t, expected, _ => do
    let reached ← loadBig64 e.1
    if reached ≠ expected then .ok none
    else if e.2.length ≠ 32 then .err .runtime
    else do
      let r ← canonicalLoop t (expected + 1) reached
      .ok (r.map fun r => (e.2 :: r.1, r.2))

/-- recovery_farm.cpp:394-435 (`fill_canonical_headers`). -/
def fillCanonicalHeaders (db : Database) (from_ to_ : Nat) : Outcome StageError (Option (List Bytes)) :=
  match fromKey db.canonicalHashes (blockKey from_) with
  | [] => .ok none
  | t => do
    let r ← canonicalLoop t from_ 0
    match r with
    | none => .ok none
    | some (hs, reached) => if reached ≠ to_ then .ok none else .ok (some hs)

/-- recovery_farm.cpp:287-316 (`fill_batch`). -/
def fillBatch (farm : Farm) (config : ChainConfig) (number : Nat) : List Transaction → Outcome StageError (List Package)
  | [] => .ok []
  | t :: ts =>
    let rev := config.revision number
    if Ecdsa.isValidSignature t.r t.s (decide (Revision.homestead ≤ rev)) = false then .err .runtime
    else if t.chainId.isSome ∧ ¬ Revision.spuriousDragon ≤ rev then .err .runtime
    else if t.chainId.isSome ∧ t.chainId ≠ some config.chainId then .err .runtime
    else do
      let rest ← fillBatch farm config number ts
      .ok (⟨number, farm.keccak (Rlp.encodeTransaction t true false), t.oddYParity, beFixed 32 t.r ++ beFixed 32 t.s⟩ :: rest)

/-- recovery_farm.cpp:318-376 (`dispatch_batch`): the batches given to workers and the batch that is filled next. Every batch needs
a new worker: a worker that has finished is only asked for its results when no other is idle, and then the batch fails, since
`bufferize_workers_results` returns true if all went well (line 355). -/
def dispatchBatch (farm : Farm) (sent : List (List Package)) (batch : List Package) :
    Outcome StageError (List (List Package) × List Package) :=
  if batch = [] then .ok (sent, batch)
  else if farm.found sent.length ∧ (sent = [] ∨ sent.length ≠ farm.maxWorkers) then .ok (sent ++ [batch], [])
  else leave sent.length (.err .runtime)

/-- recovery_farm.cpp:92-141: the loop over the bodies. `none`: a block is missing. -/
def bodiesLoop (farm : Farm) (config : ChainConfig) (ethTx : Table) :
    Table → List Bytes → Nat → List (List Package) → List Package → Outcome StageError (Option (List (List Package) × List Package))
  | [], _, _, sent, batch => .ok (some (sent, batch))
  | e :: t, hs, expected, sent, batch => do
    let number ← loadBig64 e.1
    if number < expected then bodiesLoop farm config ethTx t hs expected sent batch
    else if expected < number then leave sent.length (.ok none)
    else if e.1.length < 40 then .ub
    else
      match hs with
      | [] => .ub
      | h :: hs =>
        if (e.1.drop 8).take 32 ≠ h then bodiesLoop farm config ethTx t (h :: hs) expected sent batch
        else do
          let (body, _) ← hang sent.length (liftDb (liftDec (decodeStoredBlockBody e.2)))
          let txs ← hang sent.length (liftDb (readTransactions ethTx body.baseTxnId body.txnCount))
          let s ←
            if txs = [] then .ok (sent, batch)
            else do
              let s ← if farm.maxBatch < batch.length + txs.length then dispatchBatch farm sent batch else .ok (sent, batch)
              let ps ← hang s.1.length (fillBatch farm config number txs)
              .ok (s.1, s.2 ++ ps)
          match hs with
          | [] => .ok (some s)
          | h :: hs => bodiesLoop farm config ethTx t (h :: hs) (expected + 1) s.1 s.2

/-- recovery_worker.cpp:51-104 (`work`) for one batch: the senders of each block in the batch; `none` if a key cannot be recovered.
`room` is what is left of the buffer of `max_batch_size * 20` bytes, `acc` what was stored for the current block. -/
def workLoop (farm : Farm) : List Package → Nat → Bytes → Nat → Outcome StageError (Option (List (Nat × Bytes)))
  | [], number, acc, _ => .ok (some (if acc = [] then [] else [(number, acc)]))
  | p :: ps, number, acc, room =>
    match farm.recover p.hash p.signature p.odd with
    | none => .ok none
    | some [] => .ub
    | some (b :: key) =>
      if b ≠ 4 then .ok none
      else if room = 0 then .ub
      else
        let sender := (farm.keccak key).drop 12
        if number ≠ p.number then do
          let r ← workLoop farm ps p.number sender (room - 1)
          .ok (r.map ((number, acc) :: ·))
        else workLoop farm ps number (acc ++ sender) (room - 1)

/-- recovery_worker.cpp:51-104 (`work`) for one batch. -/
def workBatch (farm : Farm) : List Package → Outcome StageError (Option (List (Nat × Bytes)))
  | [] => .ub
  | p :: ps => workLoop farm (p :: ps) p.number [] farm.maxBatch

/-- All batches are worked on, whether or not their results are used. -/
def workAll (farm : Farm) : List (List Package) → Nat → Outcome StageError (List (Option (List (Nat × Bytes))))
  | [], _ => .ok []
  | b :: bs, i => do
    if farm.kicked i = false then .ub
    else do
      let r ← workBatch farm b
      let rs ← workAll farm bs (i + 1)
      .ok (r :: rs)

/-- recovery_farm.cpp:260-269: results are stored under the number of their block and the next hash. -/
def resultEntries : List (Nat × Bytes) → List Bytes → Outcome StageError (List Entry × List Bytes)
  | [], hs => .ok ([], hs)
  | _ :: _, [] => .ub
  | r :: rs, h :: hs => do
    let s ← resultEntries rs hs
    .ok (⟨blockHashKey r.1 h, r.2⟩ :: s.1, s.2)

/-- recovery_farm.cpp:225-285 (`bufferize_workers_results`): `none` if a worker failed. -/
def bufferizeResults : List (Option (List (Nat × Bytes))) → List Bytes → Outcome StageError (Option (List Entry))
  | [], _ => .ok (some [])
  | none :: _, _ => .ok none
  | some rs :: rest, hs => do
    let s ← resultEntries rs hs
    let r ← bufferizeResults rest s.2
    .ok (r.map (s.1 ++ ·))

/-- recovery_farm.cpp:146-166: the results are loaded. -/
def loadSenders (d : Disk) (db : Database) (workers : Nat) : Option (List Entry) → Outcome StageError (StageResult × Database)
  | none => .ok (.success, db)
  | some [] => .ok (.success, db)
  | some es => do
    let t ← hang workers (etlLoad d kFlushSize es (putEntry true) db.senders)
    match t.getLast? with
    | none => hang workers (.err (.db .notFound))
    | some e => do
      let last ← loadBig64 e.1
      let db ← hang workers (liftDb (setStageProgress { db with senders := t } (ascii "Senders") last))
      .ok (.success, db)

/-- recovery_farm.cpp:30-167 (`recover`). -/
def recoverAll (d : Disk) (farm : Farm) (readConfig : Database → Option ChainConfig) (db : Database) (from_ to_ : Nat) :
    Outcome StageError (StageResult × Database) :=
  match readConfig db with
  | none => .err .runtime
  | some config => do
    let done ← liftDb (getStageProgress db (ascii "Senders"))
    let from_ := if (done + 1) % 2 ^ 64 < from_ then (done + 1) % 2 ^ 64 else from_
    let from_ := if from_ ≤ done then (done + 1) % 2 ^ 64 else from_
    let bodies ← liftDb (getStageProgress db (ascii "Bodies"))
    if bodies < to_ ∧ bodies < from_ then .ok (.success, db)
    else
      let to_ := if bodies < to_ then bodies else to_
      if to_ < from_ then .ok (.invalidRange, db)
      else do
        let hs ← fillCanonicalHeaders db from_ to_
        match hs with
        | none => .ok (.badChainSequence, db)
        | some hs =>
          if hs.length ≠ to_ - from_ + 1 then .ok (.badChainSequence, db)
          else
            match fromKey db.blockBodies (blockHashKey from_ (hs.headD [])) with
            | [] => .ok (.badChainSequence, db)
            | t => do
              let s ← bodiesLoop farm config db.ethTx t hs from_ [] []
              match s with
              | none => .ok (.badChainSequence, db)
              | some s => do
                let s ← dispatchBatch farm s.1 s.2
                let rs ← workAll farm s.1 0
                let es ← bufferizeResults (rs.take farm.seen) hs
                loadSenders d db s.1.length es

/-- db/silkworm/stagedsync/stagedsync.hpp:27 (`kBatchSize`). -/
def kBatchSize : Nat := 512 * 2 ^ 20

/-- stage_senders.cpp:23-41 (`stage_senders`). The transaction is never committed. -/
def stageSenders (d : Disk) (farm : Farm) (readConfig : Database → Option ChainConfig) (db : Database) :
    Outcome StageError (StageResult × Database) := do
  let from_ ← liftDb (getStageProgress db (ascii "Senders"))
  let to_ ← liftDb (getStageProgress db (ascii "Headers"))
  let r ← recoverAll d { farm with maxBatch := kBatchSize } readConfig db from_ to_
  .ok (r.1, db)

/-- recovery_farm.cpp:169-198 (`unwind`): the cursor is set to exactly a key with the hash zero. -/
def unwindFarm (db : Database) (height : Nat) : Outcome StageError (StageResult × Database) := do
  let t :=
    if db.senders = [] then []
    else if height ≤ 1 then []
    else
      db.senders.takeWhile fun e => e.1 != blockHashKey ((height + 1) % 2 ^ 64) (List.replicate 32 0)
  let db ← liftDb (setStageProgress { db with senders := t } (ascii "Senders") height)
  .ok (.success, db)

/-- stage_senders.cpp:43-59 (`unwind_senders`). The transaction is never committed. -/
def unwindSenders (db : Database) (height : Nat) : Outcome StageError (StageResult × Database) := do
  let r ← unwindFarm db height
  .ok (r.1, db)

end Silkworm.Stages
