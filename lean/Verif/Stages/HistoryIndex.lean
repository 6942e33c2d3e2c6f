import Verif.Stages.Common
import Verif.Db.Bitmap

/-!
# Model of db/silkworm/stagedsync/stage_history_index.cpp and stage_log_index.cpp

CRoaring is not in the repository: how a bitmap is written and read are parameters, and so is the order in which an
`unordered_map` is passed through. A bitmap is the increasing list of its elements. Simplification: a bitmap is written in the
same way whether or not `runOptimize` was called.
-/

namespace Silkworm.Db.Bitmap

/-- `Roaring64Map::add`, `Roaring::add`. -/
def add (x : Nat) : List Nat → List Nat
  | [] => [x]
  | y :: l => if x < y then x :: y :: l else if x = y then y :: l else y :: add x l

/-- `operator|=`. -/
def union (a b : List Nat) : List Nat := a.foldr add b

end Silkworm.Db.Bitmap

namespace Silkworm.Stages

open Silkworm.Db Silkworm.Etl

/-- How bitmaps are written and read; `readSafe` throws `std::runtime_error` for bytes that are none. -/
structure Roaring where
  write : List Nat → Bytes
  read : Bytes → Option (List Nat)

/-- The order of an `unordered_map`. -/
abbrev MapOrder := List (Bytes × List Nat) → List (Bytes × List Nat)

/-- db/silkworm/db/bitmap.hpp:32. -/
def kBitmapChunkLimit : Nat := 1950

/-- stage_history_index.cpp:138-147 and stage_log_index.cpp:53-63: chunks are put under the key followed by their
largest element, the last one under the key followed by the largest number of `w` bytes. -/
def putChunks (w : Nat) (append : Bool) (R : Roaring) (key : Bytes) : List (List Nat) → Table → Table
  | [], t => t
  | [c], t => put append t (key ++ beFixed w (256 ^ w - 1)) (R.write c)
  | c :: cs, t => putChunks w append R key cs (put append t (key ++ beFixed w (Bitmap.maximum c)) (R.write c))

/-- The chunks of a bitmap; the size of what is written is compared with the limit. Each round removes an element. -/
def cutChunks (cut : (List Nat → Nat) → List Nat → Nat → Outcome Empty (List Nat × List Nat)) (R : Roaring) (bm : List Nat) :
    Outcome StageError (List (List Nat)) :=
  match Bitmap.chunks (fun bm => cut (fun c => (R.write c).length) bm kBitmapChunkLimit) bm.length bm with
  | .ok cs => .ok cs
  | .err e => nomatch e
  | .ub => .ub

/-- stage_history_index.cpp:124-149 and stage_log_index.cpp:41-65: an entry is merged with the last chunk of its key. -/
def loadChunks (w : Nat) (cut : (List Nat → Nat) → List Nat → Nat → Outcome Empty (List Nat × List Nat)) (R : Roaring)
    (append : Bool) (t : Table) (e : Entry) : Outcome StageError Table :=
  match R.read e.value with
  | none => .err .runtime
  | some bm =>
    match t.find (e.key ++ beFixed w (256 ^ w - 1)) with
    | none => do
      let cs ← cutChunks cut R bm
      .ok (putChunks w append R e.key cs t)
    | some p =>
      match R.read p.2 with
      | none => .err .runtime
      | some previous => do
        let cs ← cutChunks cut R (Bitmap.union previous bm)
        .ok (putChunks w false R e.key cs t)

/-- stage_history_index.cpp:88-93, 103-108 and stage_log_index.cpp:67-75: what is collected when a map is flushed. -/
def flushBitmaps (R : Roaring) (order : MapOrder) (m : AMap Bytes (List Nat)) : List Entry :=
  (order m).map fun x => ⟨x.1, R.write x.2⟩

/-! ## History of accounts and storage -/

/-- stage_history_index.cpp:36. -/
def kBitmapBufferSizeLimit : Nat := 256 * 2 ^ 20

/-- stage_history_index.cpp:71-76: the key of a slot. `substr` throws for a key of less than eight bytes, `memcpy` reads past
the end of one of less than 28 and of a value of less than 32. -/
def storageIndexKey (e : Bytes × Bytes) : Outcome StageError Bytes :=
  if e.1.length < 8 then .err .outOfRange
  else if e.1.length < 28 ∨ e.2.length < 32 then .ub
  else cString ((e.1.drop 8).take 20 ++ e.2.take 32)

/-- stage_history_index.cpp:77-79: the key of an account. -/
def accountIndexKey (e : Bytes × Bytes) : Outcome StageError Bytes :=
  if e.2.length < 20 then .ub else .ok (e.2.take 20)

/-- stage_history_index.cpp:67-109: the maps of bitmaps that are flushed, the last one included, and the number of
the last block. -/
def historyMaps (key : Bytes × Bytes → Outcome StageError Bytes) :
    Table → AMap Bytes (List Nat) → Nat → Nat → Outcome StageError (List (AMap Bytes (List Nat)) × Nat)
  | [], m, _, n => .ok ([m], n)
  | e :: t, m, allocated, _ => do
    let k ← key e
    let n ← loadBig64 e.1
    let m := m.set k (Bitmap.add n ((m.get? k).getD []))
    if kBitmapBufferSizeLimit < 64 * m.length + (allocated + 8) then do
      let r ← historyMaps key t [] 0 n
      .ok (m :: r.1, r.2)
    else historyMaps key t m (allocated + 8) n

/-- stage_history_index.cpp:40-163 (`history_index_stage`) for one of the two: the records, the index, and how the index is
replaced. The cursor is set to exactly the key of the last block processed. -/
def historyIndexStage (d : Disk) (R : Roaring) (order : MapOrder) (name : Bytes)
    (key : Bytes × Bytes → Outcome StageError Bytes) (records index : Table) (replace : Table → Database) (db : Database) :
    Outcome StageError (StageResult × Database) := do
  let progress ← liftDb (getStageProgress db name)
  let r ← historyMaps key (fromKey records (blockKey progress)) [] 0 0
  let es := r.1.flatMap (flushBitmaps R order)
  if es = [] then .ok (.success, db)
  else do
    let t ← etlLoad d kFlushSize es (loadChunks 8 Bitmap.cutLeft64 R (progress = 0)) index
    let db' ← liftDb (setStageProgress (replace t) name r.2)
    .ok (.success, db')

/-- stage_history_index.cpp:165 (`stage_account_history`). -/
def stageAccountHistory (d : Disk) (R : Roaring) (order : MapOrder) (db : Database) : Outcome StageError (StageResult × Database) :=
  historyIndexStage d R order (ascii "AccountHistoryIndex") accountIndexKey db.accountChangeSet db.accountHistory
    (fun t => { db with accountHistory := t }) db

/-- stage_history_index.cpp:166 (`stage_storage_history`). -/
def stageStorageHistory (d : Disk) (R : Roaring) (order : MapOrder) (db : Database) : Outcome StageError (StageResult × Database) :=
  historyIndexStage d R order (ascii "StorageHistoryIndex") storageIndexKey db.storageChangeSet db.storageHistory
    (fun t => { db with storageHistory := t }) db

/-- stage_history_index.cpp:168-170 and stage_log_index.cpp:159 (`unwind_account_history`, `unwind_storage_history`,
`unwind_log_index`): not implemented. -/
def unwindIndex : Outcome StageError (StageResult × Database) := .err .runtime

/-! ## Logs -/

/-- stage_log_index.cpp:39. -/
def kLogBufferSizeLimit : Nat := 512 * 2 ^ 20

/-- The maps of the listener and the space it counts, for topics and for addresses. -/
structure LogMaps where
  topics : AMap Bytes (List Nat) := []
  addresses : AMap Bytes (List Nat) := []
  topicSpace : Nat := 0
  addressSpace : Nat := 0

/-- listener_log_index.hpp:39-54 (`on_bytes`): any string of 32 bytes is a topic and any of 20 an address; a bitmap holds 32 bits
of the block number. -/
def LogMaps.onBytes (n : Nat) (m : LogMaps) (b : Bytes) : LogMaps :=
  if b.length = 32 then
    { m with topics := m.topics.set b (Bitmap.add (n % 2 ^ 32) ((m.topics.get? b).getD [])), topicSpace := m.topicSpace + 32 }
  else if b.length = 20 then
    { m with
      addresses := m.addresses.set b (Bitmap.add (n % 2 ^ 32) ((m.addresses.get? b).getD []))
      addressSpace := m.addressSpace + 20 }
  else m

/-- stage_log_index.cpp:104-126: the entries collected for topics and addresses, what is left in the maps, and the number of the
last block. `strings` are the byte strings that the CBOR decoder reports for a value, in their order. -/
def logEntries (R : Roaring) (order : MapOrder) (strings : Bytes → List Bytes) :
    Table → LogMaps → Nat → Outcome StageError (List Entry × List Entry × LogMaps × Nat)
  | [], m, n => .ok ([], [], m, n)
  | e :: t, m, _ => do
    let n ← loadBig64 e.1
    let m := (strings e.2).foldl (LogMaps.onBytes n) m
    let a := if kLogBufferSizeLimit < m.topicSpace then flushBitmaps R order m.topics else []
    let b := if kLogBufferSizeLimit < m.addressSpace then flushBitmaps R order m.addresses else []
    let m := if kLogBufferSizeLimit < m.topicSpace then { m with topics := [], topicSpace := 0 } else m
    let m := if kLogBufferSizeLimit < m.addressSpace then { m with addresses := [], addressSpace := 0 } else m
    let r ← logEntries R order strings t m n
    .ok (a ++ r.1, b ++ r.2.1, r.2.2)

/-- `256 * kMebi`, the flush size of the two collectors. -/
def kLogFlushSize : Nat := 256 * 2 ^ 20

/-- stage_log_index.cpp:77-157 (`stage_log_index`). -/
def stageLogIndex (d : Nat → Disk) (R : Roaring) (order : MapOrder) (strings : Bytes → List Bytes) (db : Database) :
    Outcome StageError (StageResult × Database) := do
  let progress ← liftDb (getStageProgress db (ascii "LogIndex"))
  let r ← logEntries R order strings (fromKey db.logs (blockKey progress)) {} 0
  let topics := r.1 ++ flushBitmaps R order r.2.2.1.topics
  let addresses := r.2.1 ++ flushBitmaps R order r.2.2.1.addresses
  let t ← etlLoad (d 0) kLogFlushSize topics (loadChunks 4 Bitmap.cutLeft32 R (progress = 0)) db.logTopicIndex
  let a ← etlLoad (d 1) kLogFlushSize addresses (loadChunks 4 Bitmap.cutLeft32 R (progress = 0)) db.logAddressIndex
  let db' ← liftDb (setStageProgress { db with logTopicIndex := t, logAddressIndex := a } (ascii "LogIndex") r.2.2.2)
  .ok (.success, db')

end Silkworm.Stages
