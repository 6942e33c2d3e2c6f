import Verif.Stages.Common
import Verif.Db.StateBuffer
import Verif.Execution.Processor

/-!
# Model of the loops that execute blocks

db/silkworm/stagedsync/stage_execution.cpp:34-102, tg_api/silkworm_tg_api.cpp and cmd/execute.cpp.

Simplifications: log output is left out. Block numbers are not reduced modulo 2^64 inside the loops, which matters only if
the last block is number 2^64 - 1. `execute_block` is a parameter (`Evm.executeBlock` is its model); that messages are nested
deeper than the model of it looks counts as undefined. Errors of libmdbx while writing other than writing in a read-only
transaction are not modelled. Besides what the code returns, the numbers of the executed blocks are recorded.
-/

namespace Silkworm.Stages

open Silkworm.Db Silkworm.State

/-- core/silkworm/execution/execution.cpp:25-79 (`execute_block`) with chain configuration, cache and pool: what it does with
this database, this buffer in front of it and this block. -/
abbrev BlockExecutor :=
  Database → Db.Buffer → Block → Outcome Evm.Fault (List Receipt × Option ValidationError × List BufferCall)

/-- How the loop over the blocks ends. -/
inductive LoopEnd
  | finished
  | full
  | notFound
  | invalid (e : ValidationError)
  | thrown (e : DbError)

/-- The loop over `count` blocks from `n` on, which is the same at db/silkworm/stagedsync/stage_execution.cpp:39-63 and
tg_api/silkworm_tg_api.cpp:48-76: how it ends, the blocks executed, the buffer. -/
def executeLoop (exec : BlockExecutor) (limit : Nat) (writeReceipts : Bool) (db : Database) :
    Nat → Nat → Db.Buffer → Outcome Empty (LoopEnd × List Nat × Db.Buffer)
  | 0, _, b => .ok (.finished, [], b)
  | count + 1, n, b =>
    match readBlock db n true with
    | .ub => .ub
    | .err e => .ok (.thrown e, [], b)
    | .ok none => .ok (.notFound, [], b)
    | .ok (some bh) =>
      match exec db b bh.1 with
      | .ub => .ub
      | .err _ => .ub
      | .ok (_, some e, _) => .ok (.invalid e, [], b)
      | .ok (receipts, none, calls) =>
        match b.applyAll calls with
        | .ub => .ub
        | .err e => .ok (.thrown e, [], b)
        | .ok b =>
          let b := if writeReceipts then b.insertReceipts n receipts else b
          if limit ≤ b.batchSize then .ok (.full, [n], b)
          else
            match executeLoop exec limit writeReceipts db count (n + 1) b with
            | .ub => .ub
            | .err e => e.elim
            | .ok r => .ok (r.1, n :: r.2.1, r.2.2)

/-! ## The stage -/

/-- Whether db/silkworm/db/buffer.cpp:200-260 (`write_to_db`) writes nothing. -/
def nothingToWrite (b : Db.Buffer) : Bool :=
  b.accounts.isEmpty && b.storage.isEmpty && b.incarnations.isEmpty && b.hashToCode.isEmpty &&
    b.storagePrefixToCodeHash.isEmpty && b.accountChanges.isEmpty && b.storageChanges.isEmpty && b.receipts.isEmpty &&
    b.logs.isEmpty

/-- db/silkworm/db/buffer.cpp:200-260 (`write_to_db`): in a read-only transaction the first write throws. -/
def flush (readOnly : Bool) (b : Db.Buffer) (db : Database) : Outcome StageError Database :=
  if readOnly && !nothingToWrite b then .err .readOnly else .ok (b.writeToDb db)

/-- db/silkworm/stagedsync/stage_execution.cpp:34-67 (`execute`): the result, `*block_num` afterwards, the database and the
blocks executed. -/
def execute (exec : BlockExecutor) (limit : Nat) (readOnly writeReceipts : Bool) (db : Database) (maxBlock n : Nat) :
    Outcome StageError (StageResult × Nat × Database × List Nat) :=
  match executeLoop exec limit writeReceipts db (maxBlock + 1 - n) n {} with
  | .ub => .ub
  | .err e => e.elim
  | .ok (.thrown e, _, _) => .err (.db e)
  | .ok (.invalid _, _, _) => .err .runtime
  | .ok (.notFound, trace, _) => .ok (.badChainSequence, n + trace.length, db, trace)
  | .ok (.full, trace, b) => do
    let db ← flush readOnly b db
    .ok (.success, n + (trace.length - 1), db, trace)
  | .ok (.finished, trace, b) => do
    let db ← flush readOnly b db
    .ok (.success, n + trace.length, db, trace)

/-- db/silkworm/stagedsync/stage_execution.cpp:94-99: `while (block_num <= max_block)`, in at most `fuel` rounds; a loop that
needs more for every `fuel` does not end. -/
def executeAll (exec : BlockExecutor) (limit : Nat) (readOnly writeReceipts : Bool) (maxBlock : Nat) :
    Nat → Database → Nat → Outcome StageError (StageResult × Database × List Nat)
  | 0, _, _ => .ub
  | fuel + 1, db, n =>
    if n ≤ maxBlock then do
      let r ← execute exec limit readOnly writeReceipts db maxBlock n
      if r.1 ≠ .success then .ok (r.1, r.2.2.1, r.2.2.2)
      else do
        let q ← executeAll exec limit readOnly writeReceipts maxBlock fuel r.2.2.1 r.2.1
        .ok (q.1, q.2.1, r.2.2.2 ++ q.2.2)
    else .ok (.success, db, [])

/-- db/silkworm/db/access_layer.cpp:481-486 (`migration_happened`). -/
def migrationHappened (db : Database) (name : String) : Bool := (db.migrations.find (ascii name)).isSome

/-- db/silkworm/db/util.hpp (`kStorageModeReceiptsKey`), db/silkworm/db/access_layer.cpp:474-479
(`read_storage_mode_receipts`). -/
def readStorageModeReceipts (db : Database) : Bool :=
  match db.databaseInfo.find (ascii "smReceipts") with
  | some e => e.2 == [1]
  | none => false

/-- db/silkworm/stagedsync/stage_execution.cpp:69-102 (`stage_execution`). The transaction is read-only and nothing is
committed. `readConfig` is `read_chain_config`; an absent configuration is dereferenced. -/
def stageExecution (readConfig : Database → Option ChainConfig) (exec : ChainConfig → BlockExecutor) (limit fuel : Nat)
    (db : Database) : Outcome StageError (StageResult × Database × List Nat) := do
  let maxBlock ← liftDb (getStageProgress db (ascii "Bodies"))
  let n ← liftDb (getStageProgress db (ascii "Execution"))
  let writeReceipts := readStorageModeReceipts db
  if writeReceipts &&
      (!migrationHappened db "receipts_cbor_encode" || !migrationHappened db "receipts_store_logs_separately") then
    .err .runtime
  else if !migrationHappened db "acc_change_set_dup_sort_18" || !migrationHappened db "storage_change_set_dup_sort_22" then
    .err .runtime
  else if !migrationHappened db "tx_table_4" then .err .runtime
  else if n ≤ maxBlock then
    match readConfig db with
    | none => .ub
    | some config => do
      let r ← executeAll (exec config) limit true writeReceipts maxBlock fuel db n
      .ok (r.1, db, r.2.2)
  else .ok (.success, db, [])

/-! ## The interface for other programs -/

/-- tg_api/silkworm_tg_api.h:43-53. -/
inductive StatusCode
  | success
  | blockNotFound
  | unknownChainId
  | dbError
  | missingSenders
  | invalidBlock
  | decodingError
  | unknownError
  deriving DecidableEq, Repr

/-- tg_api/silkworm_tg_api.cpp:82-97: which handler catches the exception. -/
def statusOf : DbError → StatusCode
  | .rlp _ => .decodingError
  | .missingSenders => .missingSenders
  | .notFound => .dbError
  | _ => .unknownError

/-- The result of `silkworm_execute_blocks`: the status, `*last_executed_block`, the tables as the transaction sees them, the
blocks executed. -/
structure ExecuteResult where
  status : StatusCode
  last : Nat
  db : Database
  executed : List Nat

/-- tg_api/silkworm_tg_api.cpp:29-98 (`silkworm_execute_blocks`). `exec` is absent if `lookup_chain_config` knows no
configuration; `last` is the previous content of `*last_executed_block`. -/
def executeBlocks (exec : Option BlockExecutor) (db : Database) (start maxBlock batchSize : Nat) (writeReceipts : Bool)
    (last : Nat) : Outcome Empty ExecuteResult :=
  match exec with
  | none => .ok ⟨.unknownChainId, last, db, []⟩
  | some exec =>
    match executeLoop exec batchSize writeReceipts db (maxBlock + 1 - start) start {} with
    | .ub => .ub
    | .err e => e.elim
    | .ok (.finished, trace, b) => .ok ⟨.success, trace.getLast?.getD last, b.writeToDb db, trace⟩
    | .ok (.full, trace, b) => .ok ⟨.success, trace.getLast?.getD last, b.writeToDb db, trace⟩
    | .ok (.notFound, trace, _) => .ok ⟨.blockNotFound, trace.getLast?.getD last, db, trace⟩
    | .ok (.invalid _, trace, _) => .ok ⟨.invalidBlock, trace.getLast?.getD last, db, trace⟩
    | .ok (.thrown e, trace, _) => .ok ⟨statusOf e, trace.getLast?.getD last, db, trace⟩

/-! ## The command -/

/-- cmd/execute.cpp:72-98: the loop from block `n` on; the status reported, the database committed and the blocks executed.
Every round but the last executes a block, so that `toBlock + 2 - n` rounds are enough. -/
def commandLoop (exec : Option BlockExecutor) (batchSize : Nat) (writeReceipts : Bool) (toBlock : Nat) :
    Nat → Database → Nat → Nat → Outcome StageError (StatusCode × Database × List Nat)
  | 0, _, _, _ => .ub
  | rounds + 1, db, n, progress =>
    if n ≤ toBlock then
      match executeBlocks exec db n toBlock batchSize writeReceipts progress with
      | .ub => .ub
      | .err e => e.elim
      | .ok r =>
        if r.status ≠ .success ∧ r.status ≠ .blockNotFound then .ok (r.status, db, r.executed)
        else do
          let db ← liftDb (setStageProgress r.db (ascii "Execution") r.last)
          if r.status = .blockNotFound then .ok (.success, db, r.executed)
          else do
            let q ← commandLoop exec batchSize writeReceipts toBlock rounds db (r.last + 1) r.last
            .ok (q.1, q.2.1, r.executed ++ q.2.2)
    else .ok (.success, db, [])

/-- cmd/execute.cpp:57-115 (`main`, after the arguments have been read). -/
def executeCommand (readConfig : Database → Option ChainConfig) (exec : ChainConfig → Option BlockExecutor) (batchSize toBlock : Nat)
    (db : Database) : Outcome StageError (StatusCode × Database × List Nat) :=
  match readConfig db with
  | none => .err .runtime
  | some config => do
    let progress ← liftDb (getStageProgress db (ascii "Execution"))
    let first := (progress + 1) % 2 ^ 64
    commandLoop (exec config) batchSize (readStorageModeReceipts db) toBlock (toBlock + 2 - first) db first progress

end Silkworm.Stages
