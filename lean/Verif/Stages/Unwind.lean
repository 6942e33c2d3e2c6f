import Verif.Stages.Common
import Verif.Db.StateBuffer

/-!
# Model of unwinding the execution stage

db/silkworm/stagedsync/stage_execution.cpp:104-230, db/silkworm/stagedsync/util.cpp:40-48.

Simplification: the table of call traces, which nothing in the repository fills, is left out.
-/

namespace Silkworm.Stages

open Silkworm.Db

/-- The two tables that are changed: the plain state and the code hashes of contracts. -/
structure Plain where
  state : Table
  code : Table
  deriving DecidableEq

/-- db/silkworm/stagedsync/util.cpp:40-48 (`convert_to_db_format`). `substr` throws if there is no address; `memcpy` reads
beyond a short key or value. -/
def convertToDbFormat (key value : Bytes) : Outcome StageError (Bytes × Bytes) :=
  if key.length = 8 then
    if value.length < 20 then .err .outOfRange else .ok (value.take 20, value.drop 20)
  else if key.length < 36 ∨ value.length < 32 then .ub
  else .ok ((key.drop 8).take 28 ++ value.take 32, value.drop 32)

/-- db/silkworm/stagedsync/stage_execution.cpp:109-115: the code hash of a contract; `find` throws. -/
def restoreForUnwind (code : Table) (address : Bytes) (a : Account) : Outcome StageError Account :=
  if a.incarnation > 0 ∧ a.codeHash = kEmptyHash then
    match code.find (address ++ beFixed 8 a.incarnation) with
    | none => .err (.db .notFound)
    | some e => if e.2.length < 32 then .ub else .ok { a with codeHash := e.2.take 32 }
  else .ok a

/-- The loop at db/silkworm/stagedsync/stage_execution.cpp:122-129, from incarnation `i` down. -/
def cleanupCodes (address : Bytes) (incarnation : Nat) : Nat → Table → Table
  | 0, t => t
  | i + 1, t =>
    if incarnation < i + 1 then
      cleanupCodes address incarnation i (Db.Buffer.eraseFound t (t.find (address ++ beFixed 8 (i + 1))))
    else t

/-- db/silkworm/stagedsync/stage_execution.cpp:117-130: cleaning up contract codes. -/
def cleanupContract (p : Plain) (address : Bytes) (a : Account) : Outcome StageError Table :=
  match p.state.find address with
  | none => .ok p.code
  | some e => do
    let incarnation ← liftDb (liftDec (extractIncarnation e.2))
    .ok (cleanupCodes address a.incarnation incarnation p.code)

/-- db/silkworm/stagedsync/stage_execution.cpp:105-142: an account. For an empty record it is the table of code hashes from
which the address is erased. -/
def unwindAccount (p : Plain) (address value : Bytes) : Outcome StageError Plain :=
  if value = [] then .ok { p with code := Db.Buffer.eraseFound p.code (p.code.find address) }
  else do
    let a ← liftDb (liftDec (decodeAccountFromStorage value))
    let a ← restoreForUnwind p.code address a
    let code ← cleanupContract p address a
    .ok { state := (p.state.eraseKey address).upsertMultivalue address (a.encodeForStorage false), code := code }

/-- db/silkworm/stagedsync/stage_execution.cpp:143-152: a slot. `find_multivalue` throws if the key is absent and takes no
account of the location. -/
def unwindSlot (p : Plain) (key location value : Bytes) : Outcome StageError Plain :=
  match p.state.findMultivalue key location with
  | none => .err (.db .notFound)
  | some e =>
    let t := p.state.erase e
    .ok { p with state := if value = [] then t else t.upsertMultivalue key (location ++ value) }

/-- db/silkworm/stagedsync/stage_execution.cpp:104-153 (`collect_for_unwind`). -/
def collectForUnwind (p : Plain) (key value : Bytes) : Outcome StageError Plain :=
  if key.length = 20 then unwindAccount p key value
  else if key.length < 28 then .err .outOfRange
  else unwindSlot p (key.take 28) (key.drop 28) value

/-- db/silkworm/stagedsync/stage_execution.cpp:155-170 (`walk_collect`) over the entries of the source from the last one on. -/
def walkCollect (unwindTo : Nat) : Table → Plain → Outcome StageError Plain
  | [], p => .ok p
  | e :: t, p => do
    let number ← loadBig64 e.1
    if number = unwindTo then .ok p
    else do
      let kv ← convertToDbFormat e.1 e.2
      let p ← collectForUnwind p kv.1 kv.2
      walkCollect unwindTo t p

/-- db/silkworm/stagedsync/stage_execution.cpp:172-179 (`unwind_table_from`): `seek` is exact; after `erase` the cursor is
at the next entry, which `to_next` does not skip. -/
def unwindTableFrom (t : Table) (key : Bytes) : Table :=
  if (t.find key).isSome then t.takeWhile fun e => e.1 != key else t

/-- db/silkworm/stagedsync/stage_execution.cpp:181-230 (`unwind_execution`). -/
def unwindExecution (db : Database) (unwindTo : Nat) : Outcome StageError (StageResult × Database) := do
  let number ← liftDb (getStageProgress db (ascii "Execution"))
  if unwindTo = 0 then do
    let db ← liftDb (setStageProgress
      { db with
        plainState := [], plainContractCode := [], accountChangeSet := [], storageChangeSet := [], blockReceipts := [], logs := [] }
      (ascii "Execution") 0)
    .ok (.success, db)
  else if number ≤ unwindTo then .ok (.success, db)
  else do
    let p ← walkCollect unwindTo db.accountChangeSet.reverse ⟨db.plainState, db.plainContractCode⟩
    let p ← walkCollect unwindTo db.storageChangeSet.reverse p
    let key := beFixed 8 ((unwindTo + 1) % 2 ^ 64)
    let db ← liftDb (setStageProgress
      { db with
        plainState := p.state
        plainContractCode := p.code
        accountChangeSet := unwindTableFrom db.accountChangeSet key
        storageChangeSet := unwindTableFrom db.storageChangeSet key
        blockReceipts := unwindTableFrom db.blockReceipts key
        logs := unwindTableFrom db.logs key }
      (ascii "Execution") unwindTo)
    .ok (.success, db)

end Silkworm.Stages
