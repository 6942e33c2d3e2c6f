import Verif.Stages.BlockHashes
import Verif.Stages.HashState
import Verif.Stages.HistoryIndex
import Verif.Stages.TxLookup
import Verif.Stages.Unwind
import Verif.Stages.DbTrie

/-!
# The commands that run one stage

cmd/blockhashes.cpp, hashstate.cpp, history_index.cpp, log_index.cpp, tx_lookup.cpp, trie.cpp, unwind_execution.cpp,
unwind_hashstate.cpp, db/silkworm/stagedsync/util.cpp and stages.cpp.

Left out: parsing the options, the environment (`open_env` succeeds), the logs and the directories for temporary files. A command
ends with a status and leaves a database; undefined behaviour in the stage is undefined behaviour of the command. The commands that
prepare the tables and then call a stage use two transactions: `runStage` is given the database as the first one left it.
-/

namespace Silkworm.Tools

open Silkworm.Db
open Silkworm.Stages

/-- stagedsync/util.cpp:23-38 (`check_stagedsync_error`): whether the result is thrown as an exception. A bad hash of a block is
not. -/
def throwsResult : StageResult → Bool
  | .badChainSequence => true
  | .invalidRange => true
  | .aborted => true
  | .success => false
  | .badBlockHash => false

/-- The `try` of the commands, e.g. blockhashes.cpp:43-51: the status, and the database that is left. An exception thrown by the
stage leaves what it was given, since the transaction is not committed. -/
def runStage (db : Database) : Outcome StageError (StageResult × Database) → Outcome Unit (Int × Database)
  | .ok (r, db') => .ok (if throwsResult r then -5 else 0, db')
  | .err _ => .ok (-5, db)
  | .ub => .ub

/-- A first transaction, then a stage. -/
def runAfter (db : Database) (first : Outcome DbError Database) (stage : Database → Outcome StageError (StageResult × Database)) :
    Outcome Unit (Int × Database) :=
  match first with
  | .ok db1 => runStage db1 (stage db1)
  | .err _ => .ok (-5, db)
  | .ub => .ub

/-- cmd/blockhashes.cpp:33-52. -/
def blockHashesCommand (d : Disk) (db : Database) : Outcome Unit (Int × Database) := runStage db (stageBlockHashes d db)

/-- cmd/history_index.cpp:33-72. -/
def historyIndexCommand (d : Disk) (R : Roaring) (order : MapOrder) (full storage : Bool) (db : Database) :
    Outcome Unit (Int × Database) :=
  if storage then
    runAfter db (if full then setStageProgress { db with storageHistory := [] } (ascii "StorageHistoryIndex") 0 else .ok db)
      (stageStorageHistory d R order)
  else
    runAfter db (if full then setStageProgress { db with accountHistory := [] } (ascii "AccountHistoryIndex") 0 else .ok db)
      (stageAccountHistory d R order)

/-- cmd/log_index.cpp:39-78. The two collectors of lines 56-57 are not used. -/
def logIndexCommand (d : Nat → Disk) (R : Roaring) (order : MapOrder) (strings : Bytes → List Bytes) (full : Bool) (db : Database) :
    Outcome Unit (Int × Database) :=
  runAfter db
    (if full then (setStageProgress db (ascii "LogIndex") 0).bind fun db => .ok { db with logTopicIndex := [], logAddressIndex := [] }
      else .ok db)
    (stageLogIndex d R order strings)

/-- cmd/tx_lookup.cpp:32-65. -/
def txLookupCommand (d : Disk) (keccak : Bytes → Bytes) (full : Bool) (db : Database) : Outcome Unit (Int × Database) :=
  runAfter db (if full then setStageProgress { db with txLookup := [] } (ascii "TxLookup") 0 else .ok db) (stageTxLookup d keccak)

/-- cmd/hashstate.cpp:53-57: what `--full` and `--reset` begin with. `kContractCode` is the table "HashedCodeHash"
(db/silkworm/db/tables.hpp:49). -/
def clearHashState (db : Database) : Outcome DbError Database :=
  setStageProgress { db with hashedAccounts := [], hashedStorage := [], hashedCodeHash := [] } (ascii "HashState") 0

/-- cmd/hashstate.cpp:66-80. -/
def hashStateBody (d : Nat → Disk) (keccak : Bytes → Bytes) (incrementally : Bool) (db : Database) : Outcome StageError Database := do
  let progress ← liftDb (getStageProgress db (ascii "HashState"))
  let db ← if progress ≠ 0 ∨ incrementally = true then hashStatePromote keccak progress db
    else do
      let db ← promoteCleanState d keccak db
      promoteCleanCode d keccak db
  let executed ← liftDb (getStageProgress db (ascii "Execution"))
  liftDb (setStageProgress db (ascii "HashState") executed)

/-- cmd/hashstate.cpp:53-57. -/
def prepareHashState (clear : Bool) (db : Database) : Outcome StageError Database :=
  if clear then liftDb (clearHashState db) else .ok db

/-- cmd/hashstate.cpp:31-87. All in one transaction. -/
def hashStateCommand (d : Nat → Disk) (keccak : Bytes → Bytes) (full incrementally reset : Bool) (db : Database) :
    Outcome Unit (Int × Database) :=
  runStage db do
    let db ← prepareHashState (full || reset) db
    if reset = true then .ok (.success, db)
    else do
      let db ← hashStateBody d keccak incrementally db
      .ok (.success, db)

/-- cmd/trie.cpp:37-71: the status, the root that is printed and the database. -/
def trieCommand (d : Nat → Disk) (keccak : Bytes → Bytes) (db : Database) : Outcome Unit (Int × Option Bytes × Database) :=
  match regenerateDbTries d keccak none db with
  | .ok (root, db') => .ok (0, some root, db')
  | .err _ => .ok (-5, none, db)
  | .ub => .ub

/-- cmd/unwind_execution.cpp:33-58. `unwindTo` is an `int64_t`, -1 without the option. -/
def unwindExecutionCommand (unwindTo : Int) (db : Database) : Outcome Unit (Int × Database) :=
  if unwindTo < 0 then .ok (-1, db) else runStage db (unwindExecution db unwindTo.toNat)

/-- cmd/unwind_hashstate.cpp:31-59. `unwindTo` is a `uint32_t` and has to be given. -/
def unwindHashStateCommand (keccak : Bytes → Bytes) (unwindTo : Nat) (db : Database) : Outcome Unit (Int × Database) :=
  runStage db (unwindHashState keccak unwindTo db)

/-! ## The list of stages -/

/-- The functions of stagedsync.hpp that run a stage. -/
inductive StageFunction
  | headers | blockhashes | bodies | senders | execution | hashstate | interhashes | accountHistory | storageHistory | logIndex
  | txLookup
  deriving DecidableEq, Repr

/-- The functions that undo one. -/
inductive UnwindFunction
  | noUnwind | senders | execution | hashstate | interhashes | accountHistory | storageHistory | logIndex | txLookup
  deriving DecidableEq, Repr

/-- stagedsync/stages.cpp:23-35 (`get_default_stages`). -/
def defaultStages : List (StageFunction × UnwindFunction × Nat) :=
  [(.headers, .noUnwind, 1), (.blockhashes, .noUnwind, 2), (.bodies, .noUnwind, 3), (.senders, .senders, 4),
    (.execution, .execution, 5), (.hashstate, .hashstate, 6), (.interhashes, .hashstate, 7), (.accountHistory, .accountHistory, 8),
    (.storageHistory, .storageHistory, 9), (.logIndex, .logIndex, 10), (.txLookup, .txLookup, 11)]

end Silkworm.Tools
