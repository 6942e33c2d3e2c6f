import Verif.Stages.Unwind

/-!
# Model of db/silkworm/stagedsync/stage_hashstate.cpp

Keccak-256 is a parameter whose results have 32 bytes. Each of the three collectors has its own disk parameter.
-/

namespace Silkworm.Stages

open Silkworm.Db Silkworm.Etl

/-- stage_hashstate.cpp:77-90: the key of a slot. The position advances by 20 after the 32 bytes of the first hash, so that the
incarnation overwrites their end, and what is hashed next is what follows 28 bytes of the key; the location is in the value. -/
def cleanStorageKey (keccak : Bytes → Bytes) (key : Bytes) : Bytes :=
  (keccak (key.take 20)).take 20 ++ (key.drop 20).take 8 ++ keccak (key.drop 28) ++ List.replicate 12 0

/-- stage_hashstate.cpp:64-96: the loop over the plain state; the entries for accounts and for storage. `at(0)` throws for an
empty key; `remove_prefix` and `memcpy` leave a short one. -/
def cleanStateEntries (keccak : Bytes → Bytes) : Table → Outcome StageError (List Entry × List Entry)
  | [] => .ok ([], [])
  | e :: t =>
    if e.1.length = 0 then .err .outOfRange
    else if e.1.length = 20 then do
      let r ← cleanStateEntries keccak t
      .ok (⟨keccak e.1, e.2⟩ :: r.1, r.2)
    else if e.1.length < 28 then .ub
    else do
      let r ← cleanStateEntries keccak t
      .ok (r.1, ⟨cleanStorageKey keccak e.1, e.2⟩ :: r.2)

/-- stage_hashstate.cpp:52-105 (`hashstate_promote_clean_state`). -/
def promoteCleanState (d : Nat → Disk) (keccak : Bytes → Bytes) (db : Database) : Outcome StageError Database := do
  let r ← cleanStateEntries keccak db.plainState
  let accounts ← etlLoad (d 0) kFlushSize r.1 (putEntry true) db.hashedAccounts
  let storage ← etlLoad (d 1) kFlushSize r.2 (putEntry true) db.hashedStorage
  .ok { db with hashedAccounts := accounts, hashedStorage := storage }

/-- stage_hashstate.cpp:115-124: the loop over the code hashes; `safe_middle` throws for a short key. -/
def cleanCodeEntries (keccak : Bytes → Bytes) : Table → Outcome StageError (List Entry)
  | [] => .ok []
  | e :: t =>
    if e.1.length < 28 then .err .outOfRange
    else do
      let r ← cleanCodeEntries keccak t
      .ok (⟨keccak (e.1.take 20) ++ (e.1.drop 20).take 8, e.2⟩ :: r)

/-- stage_hashstate.cpp:107-130 (`hashstate_promote_clean_code`). -/
def promoteCleanCode (d : Nat → Disk) (keccak : Bytes → Bytes) (db : Database) : Outcome StageError Database := do
  let es ← cleanCodeEntries keccak db.plainContractCode
  let t ← etlLoad (d 2) kFlushSize es (putEntry true) db.hashedCodeHash
  .ok { db with hashedCodeHash := t }

/-- stage_hashstate.cpp:153-163: an account that was changed. `to_slice(hash.bytes)` (db/silkworm/db/util.hpp:170) takes a
`ByteView` (core/silkworm/common/base.hpp:39), which is made of the array as of a `const uint8_t*`: the key ends at the first
zero byte of the hash. -/
def promoteAccount (keccak : Bytes → Bytes) (plain target : Table) (key : Bytes) : Outcome StageError Table :=
  match plain.find key with
  | none => .ok target
  | some e => do
    let k ← cString (keccak key)
    .ok (target.upsert k e.2)

/-- stage_hashstate.cpp:175-178: the key of a slot. -/
def hashedSlotKey (keccak : Bytes → Bytes) (key : Bytes) : Bytes :=
  keccak (key.take 20) ++ (key.drop 20).take 8 ++ keccak (key.drop 28)

/-- stage_hashstate.cpp:165-181: a slot that was changed. The whole key, with the location, is looked for. -/
def promoteSlot (keccak : Bytes → Bytes) (plain target : Table) (key : Bytes) : Outcome StageError Table :=
  match plain.find key with
  | none => .ok target
  | some e => if key.length < 28 then .ub else .ok (target.upsertMultivalue (hashedSlotKey keccak key) e.2)

/-- stage_hashstate.cpp:183-213: the code of an account that was changed. -/
def promoteCode (keccak : Bytes → Bytes) (plain code target : Table) (key : Bytes) : Outcome StageError Table :=
  match plain.find key with
  | none => .ok target
  | some e => do
    let incarnation ← liftDb (liftDec (extractIncarnation e.2))
    if incarnation = 0 then .ok target
    else
      match code.find (key.take 20 ++ beFixed 8 incarnation) with
      | none => .ok target
      | some c => .ok (target.upsert (keccak (key.take 20) ++ beFixed 8 incarnation) c.2)

/-- The loop over change sets that promoting and unwinding share (stage_hashstate.cpp:148-151 and 263-266). -/
def walkChanges (f : Table → Bytes → Outcome StageError Table) : Table → Table → Outcome StageError Table
  | [], target => .ok target
  | e :: t, target => do
    let kv ← convertToDbFormat e.1 e.2
    let target ← f target kv.1
    walkChanges f t target

/-- stage_hashstate.cpp:135-215 (`hashstate_promote`) for the three operations one after another. -/
def hashStatePromote (keccak : Bytes → Bytes) (progress : Nat) (db : Database) : Outcome StageError Database := do
  let start := blockKey ((progress + 1) % 2 ^ 64)
  let accounts ← walkChanges (promoteAccount keccak db.plainState) (fromLowerBound db.accountChangeSet start) db.hashedAccounts
  let storage ← walkChanges (promoteSlot keccak db.plainState) (fromLowerBound db.storageChangeSet start) db.hashedStorage
  let code ← walkChanges (promoteCode keccak db.plainState db.plainContractCode) (fromLowerBound db.accountChangeSet start)
    db.hashedCodeHash
  .ok { db with hashedAccounts := accounts, hashedStorage := storage, hashedCodeHash := code }

/-- stage_hashstate.cpp:217-245 (`stage_hashstate`). -/
def stageHashState (d : Nat → Disk) (keccak : Bytes → Bytes) (db : Database) : Outcome StageError (StageResult × Database) := do
  let progress ← liftDb (getStageProgress db (ascii "HashState"))
  let db ← if progress ≠ 0 then hashStatePromote keccak progress db
    else do
      let db ← promoteCleanState d keccak db
      promoteCleanCode d keccak db
  let executed ← liftDb (getStageProgress db (ascii "Execution"))
  let db ← liftDb (setStageProgress db (ascii "HashState") executed)
  .ok (.success, db)

/-- stage_hashstate.cpp:267-276: unwinding an account. The key ends at the first zero byte of the hash, as in
`promoteAccount`. -/
def unwindHashedAccount (keccak : Bytes → Bytes) (target : Table) (key : Bytes) : Outcome StageError Table := do
  let k ← cString (keccak key)
  .ok (Db.Buffer.eraseFound target (target.find k))

/-- stage_hashstate.cpp:277-293: unwinding a slot. `memcpy` reads beyond a short key. -/
def unwindHashedSlot (keccak : Bytes → Bytes) (target : Table) (key : Bytes) : Outcome StageError Table :=
  if key.length < 28 then .ub else .ok (Db.Buffer.eraseFound target (target.find (hashedSlotKey keccak key)))

/-- stage_hashstate.cpp:295-320: unwinding a code hash. -/
def unwindHashedCode (keccak : Bytes → Bytes) (plain target : Table) (key : Bytes) : Outcome StageError Table :=
  match plain.find key with
  | none => .ok target
  | some e => do
    let incarnation ← liftDb (liftDec (extractIncarnation e.2))
    if incarnation = 0 then .ok target
    else .ok (Db.Buffer.eraseFound target (target.find (keccak (key.take 20) ++ beFixed 8 incarnation)))

/-- stage_hashstate.cpp:252-322 (`hashstate_unwind`) for the three operations one after another. -/
def hashStateUnwind (keccak : Bytes → Bytes) (unwindTo : Nat) (db : Database) : Outcome StageError Database := do
  let start := blockKey ((unwindTo + 1) % 2 ^ 64)
  let accounts ← walkChanges (unwindHashedAccount keccak) (fromLowerBound db.accountChangeSet start) db.hashedAccounts
  let storage ← walkChanges (unwindHashedSlot keccak) (fromLowerBound db.storageChangeSet start) db.hashedStorage
  let code ← walkChanges (unwindHashedCode keccak db.plainState) (fromLowerBound db.accountChangeSet start) db.hashedCodeHash
  .ok { db with hashedAccounts := accounts, hashedStorage := storage, hashedCodeHash := code }

/-- `catch (const std::exception&)`: what was done is dropped with the transaction. -/
def orAborted (db : Database) : Outcome StageError (StageResult × Database) → Outcome StageError (StageResult × Database)
  | .err _ => .ok (.aborted, db)
  | r => r

/-- stage_hashstate.cpp:324-361 (`unwind_hashstate`). -/
def unwindHashState (keccak : Bytes → Bytes) (unwindTo : Nat) (db : Database) : Outcome StageError (StageResult × Database) :=
  orAborted db do
    let progress ← liftDb (getStageProgress db (ascii "HashState"))
    if progress ≤ unwindTo then .ok (.aborted, db)
    else do
      let db' ← hashStateUnwind keccak unwindTo db
      let db' ← liftDb (setStageProgress db' (ascii "HashState") unwindTo)
      .ok (.success, db')

end Silkworm.Stages
