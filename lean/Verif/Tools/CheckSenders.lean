import Verif.Stages.Senders

/-!
# Model of cmd/check_senders.cpp without its threads

`RecoveryFarm` here is an older copy of that of the stage; functions that are the same are those of `Stages/Senders.lean`. What the
threads do is a parameter, of the same type as there: `found i`, that batch `i` is dispatched (otherwise `dispatch_batch` returns a
failure); `kicked i`, that its worker runs (otherwise the command does not end, which is undefined here); `seen`, how many batches were
in the queue when it was emptied for the last time. `maxWorkers` is not used. What the threads can do is in `Tools/SenderThreads.lean`.

Simplifications: nobody asks the program to stop, and the directories and the database can be opened.
-/

namespace Silkworm.Tools

open Silkworm.Db Silkworm.Etl Silkworm.Stages

/-- cmd/check_senders.cpp:216-234 (`RecoveryFarm::Status`), those that are returned. -/
inductive SenderStatus where
  | succeeded
  | databaseError
  | headerNotFound
  | badHeaderHash
  | badHeaderSequence
  | invalidRange
  | blockNotFound
  | badBlockSequence
  | recoveryError
  | invalidChainConfig
  | noDataToProcess
  deriving DecidableEq

/-- cmd/check_senders.cpp:216-234: the value of a status. -/
def SenderStatus.code : SenderStatus → Nat
  | .succeeded => 0
  | .databaseError => 1
  | .headerNotFound => 2
  | .badHeaderHash => 3
  | .badHeaderSequence => 4
  | .invalidRange => 5
  | .blockNotFound => 7
  | .badBlockSequence => 8
  | .recoveryError => 10
  | .invalidChainConfig => 15
  | .noDataToProcess => 16

/-- cmd/check_senders.cpp:377-383, 407-413: the status for an exception. -/
def caughtStatus : StageError → SenderStatus
  | .db .notFound => .databaseError
  | .readOnly => .databaseError
  | _ => .recoveryError

/-- cmd/check_senders.cpp:424-464 (`unwind`). -/
def toolUnwind (db : Database) (height : Nat) : Outcome Empty (SenderStatus × Database) :=
  let t :=
    if db.senders = [] then []
    else if height ≤ 1 then []
    else db.senders.takeWhile fun e => lexLt e.1 (blockHashKey ((height + 1) % 2 ^ 64) (List.replicate 32 0))
  match setStageProgress { db with senders := t } (ascii "Senders") height with
  | .ok db => .ok (.succeeded, db)
  | .err _ => .ok (.databaseError, db)
  | .ub => .ub

/-- cmd/check_senders.cpp:725-741: the loop over the canonical hashes, to the end of the table. -/
def toolCanonicalLoop : Table → Nat → Nat → Outcome Empty (SenderStatus ⊕ List Bytes × Nat)
  | [], _, reached => .ok (.inr ([], reached))
  | e :: t, expected, _ =>
    match loadBig64 e.1 with
    | .ub => .ub
    | .err _ => .ok (.inl .databaseError)
    | .ok reached =>
      if reached ≠ expected then .ok (.inl .badHeaderSequence)
      else if e.2.length ≠ 32 then .ok (.inl .badHeaderHash)
      else
        match toolCanonicalLoop t (expected + 1) reached with
        | .ok (.inr r) => .ok (.inr (e.2 :: r.1, r.2))
        | r => r

/-- cmd/check_senders.cpp:705-755 (`fill_canonical_headers`). -/
def toolCanonicalHeaders (db : Database) (from_ to_ : Nat) : Outcome Empty (SenderStatus ⊕ List Bytes) :=
  match fromKey db.canonicalHashes (blockKey from_) with
  | [] => .ok (.inl .headerNotFound)
  | t =>
    match toolCanonicalLoop t from_ 0 with
    | .ok (.inr r) => if r.2 ≠ to_ then .ok (.inl .headerNotFound) else .ok (.inr r.1)
    | .ok (.inl s) => .ok (.inl s)
    | .err e => nomatch e
    | .ub => .ub

/-- How the loop over the bodies ends, with the batches that were dispatched. -/
inductive BodiesEnd where
  /-- With a batch that is not dispatched yet. -/
  | filled (sent : List (List Package)) (batch : List Package)
  /-- With a `return`. -/
  | missing (sent : List (List Package))
  /-- With an exception. -/
  | failed (sent : List (List Package)) (e : StageError)
  deriving DecidableEq

/-- cmd/check_senders.cpp:621-679 (`dispatch_batch`). -/
def toolDispatch (farm : Farm) (sent : List (List Package)) (batch : List Package) : Option (List (List Package) × List Package) :=
  if batch = [] then some (sent, batch)
  else if farm.found sent.length then some (sent ++ [batch], [])
  else none

/-- cmd/check_senders.cpp:346-358: the transactions of a block are added to the batch. -/
def toolBlock (farm : Farm) (config : ChainConfig) (number : Nat) (txs : List Transaction) (sent : List (List Package))
    (batch : List Package) : Outcome Empty BodiesEnd :=
  if txs = [] then .ok (.filled sent batch)
  else
    match (if farm.maxBatch < batch.length + txs.length then toolDispatch farm sent batch else some (sent, batch)) with
    | none => .ok (.failed sent .runtime)
    | some (sent, batch) =>
      match fillBatch farm config number txs with
      | .ok ps => .ok (.filled sent (batch ++ ps))
      | .err e => .ok (.failed sent e)
      | .ub => .ub

/-- cmd/check_senders.cpp:317-368: the loop over the bodies. -/
def toolBodies (farm : Farm) (config : ChainConfig) (ethTx : Table) :
    Table → List Bytes → Nat → List (List Package) → List Package → Outcome Empty BodiesEnd
  | [], _, _, sent, batch => .ok (.filled sent batch)
  | e :: t, hs, expected, sent, batch =>
    match loadBig64 e.1 with
    | .ub => .ub
    | .err x => .ok (.failed sent x)
    | .ok number =>
      if number < expected then toolBodies farm config ethTx t hs expected sent batch
      else if expected < number then .ok (.missing sent)
      else if e.1.length < 40 then .ub
      else
        match hs with
        | [] => .ub
        | h :: hs =>
          if (e.1.drop 8).take 32 ≠ h then toolBodies farm config ethTx t (h :: hs) expected sent batch
          else
            match liftDb (liftDec (decodeStoredBlockBody e.2)) with
            | .ub => .ub
            | .err x => .ok (.failed sent x)
            | .ok (body, _) =>
              match liftDb (readTransactions ethTx body.baseTxnId body.txnCount) with
              | .ub => .ub
              | .err x => .ok (.failed sent x)
              | .ok txs =>
                match toolBlock farm config number txs sent batch with
                | .ok (.filled sent batch) =>
                  match hs with
                  | [] => .ok (.filled sent batch)
                  | h :: hs => toolBodies farm config ethTx t (h :: hs) (expected + 1) sent batch
                | r => r

/-- The workers work on all batches. -/
def toolWork (farm : Farm) (sent : List (List Package)) : Outcome Empty (List (Option (List (Nat × Bytes)))) :=
  match workAll farm sent 0 with
  | .ok rs => .ok rs
  | _ => .ub

/-- cmd/check_senders.cpp:389-414: the results are loaded. What `bufferize_workers_results` returns is dropped; `none` is a failure,
after which `should_stop` is true. -/
def toolLoad (d : Disk) (db : Database) : Option (List Entry) → Outcome Empty (SenderStatus × Database)
  | none => .ok (.succeeded, db)
  | some [] => .ok (.succeeded, db)
  | some es =>
    match etlLoad d kFlushSize es (putEntry true) db.senders with
    | .ub => .ub
    | .err e => .ok (caughtStatus e, db)
    | .ok t =>
      match t.getLast? with
      | none => .ok (.succeeded, { db with senders := t })
      | some e =>
        match loadBig64 e.1 with
        | .ok last =>
          match setStageProgress { db with senders := t } (ascii "Senders") last with
          | .ok db => .ok (.succeeded, db)
          | .err e => .ok (caughtStatus (.db e), db)
          | .ub => .ub
        | _ => .ub

/-- cmd/check_senders.cpp:268-419 (`recover`), once the first block is known. -/
def toolRecoverFrom (d : Disk) (farm : Farm) (config : ChainConfig) (db : Database) (from_ to_ : Nat) :
    Outcome Empty (SenderStatus × Database) :=
  match getStageProgress db (ascii "Bodies") with
  | .ub => .ub
  | .err e => .ok (caughtStatus (.db e), db)
  | .ok bodies =>
    if bodies < to_ ∧ bodies < from_ then .ok (.noDataToProcess, db)
    else
      let to_ := if bodies < to_ then bodies else to_
      if to_ < from_ then .ok (.invalidRange, db)
      else
        match toolCanonicalHeaders db from_ to_ with
        | .ub => .ub
        | .err e => nomatch e
        | .ok (.inl s) => .ok (s, db)
        | .ok (.inr hs) =>
          if hs.length ≠ to_ - from_ + 1 then .ok (.headerNotFound, db)
          else
            match fromKey db.blockBodies (blockHashKey from_ (hs.headD [])) with
            | [] => .ok (.blockNotFound, db)
            | t =>
              match toolBodies farm config db.ethTx t hs from_ [] [] with
              | .ub => .ub
              | .err e => nomatch e
              | .ok (.missing sent) => if sent = [] then .ok (.badBlockSequence, db) else .ub
              | .ok (.failed sent e) =>
                match toolWork farm sent with
                | .ok _ => .ok (caughtStatus e, db)
                | _ => .ub
              | .ok (.filled sent batch) =>
                match toolDispatch farm sent batch with
                | none =>
                  match toolWork farm sent with
                  | .ok _ => .ok (.recoveryError, db)
                  | _ => .ub
                | some s =>
                  match toolWork farm s.1 with
                  | .ok rs =>
                    match bufferizeResults (rs.take farm.seen) hs with
                    | .ok es => toolLoad d db es
                    | _ => .ub
                  | _ => .ub

/-- cmd/check_senders.cpp:242-266 (`recover`). -/
def toolRecover (d : Disk) (farm : Farm) (readConfig : Database → Option ChainConfig) (db : Database) (from_ to_ : Nat) (force : Bool) :
    Outcome Empty (SenderStatus × Database) :=
  match readConfig db with
  | none => .ok (.invalidChainConfig, db)
  | some config =>
    match getStageProgress db (ascii "Senders") with
    | .ub => .ub
    | .err e => .ok (caughtStatus (.db e), db)
    | .ok done =>
      let from_ := if (done + 1) % 2 ^ 64 < from_ then (done + 1) % 2 ^ 64 else from_
      if from_ ≤ done then
        if force then
          match toolUnwind db (if from_ = 0 then 0 else from_ - 1) with
          | .ok (.succeeded, db) => toolRecoverFrom d farm config db from_ to_
          | r => r
        else toolRecoverFrom d farm config db ((done + 1) % 2 ^ 64) to_
      else toolRecoverFrom d farm config db from_ to_

/-- cmd/check_senders.cpp:838-839, 874-878: the subcommands. -/
inductive SenderCommand where
  | recover (from_ to_ : Nat) (force : Bool)
  | unwind (height : Nat)

/-- cmd/check_senders.cpp:813-900 (`main`): the exit status and what is committed. -/
def checkSenders (d : Disk) (farm : Farm) (readConfig : Database → Option ChainConfig) (db : Database) (dry : Bool) (c : SenderCommand) :
    Outcome Empty (Nat × Database) := do
  let r ← match c with
    | .recover from_ to_ force => toolRecover d farm readConfig db (if from_ = 0 then 1 else from_) to_ force
    | .unwind height => toolUnwind db (if height = 0 then 1 else height)
  .ok (r.1.code, if r.1.code = 0 ∧ dry = false then r.2 else db)

end Silkworm.Tools
