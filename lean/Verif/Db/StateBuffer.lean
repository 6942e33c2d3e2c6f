import Verif.Db.Access
import Verif.Types.Cbor

/-!
# Model of db/silkworm/db/buffer.{hpp,cpp}

Hash maps and B-tree maps are `AMap`s. Where the code sorts before writing so does the model; the order of writes under
different keys of a table does not matter. `batch_size_` is not reduced modulo 2^64.
-/

namespace Silkworm.Db

open State

/-- Insertion into an increasing list; the order of `std::map`, `absl::btree_set` and `std::sort` on byte arrays. -/
def insertKey (k : Bytes) : List Bytes → List Bytes
  | [] => [k]
  | j :: l => if lexLt k j then k :: j :: l else if k = j then j :: l else j :: insertKey k l

/-- The keys in increasing order, each once. -/
def sortKeys (l : List Bytes) : List Bytes := l.foldr insertKey []

/-- db/silkworm/db/buffer.hpp:119-149: the fields. `txn_` and `historical_block_` are arguments of the readers. -/
structure Buffer where
  headers : AMap Bytes BlockHeader := []
  bodies : AMap Bytes BlockBody := []
  difficulty : AMap Bytes Nat := []
  accounts : AMap Bytes (Option Account) := []
  storage : AMap Bytes (AMap Nat (AMap Bytes Bytes)) := []
  accountChanges : AMap Nat (AMap Bytes Bytes) := []
  storageChanges : AMap Nat (AMap Bytes (AMap Nat (AMap Bytes Bytes))) := []
  incarnations : AMap Bytes Nat := []
  hashToCode : AMap Bytes Bytes := []
  storagePrefixToCodeHash : AMap Bytes Bytes := []
  receipts : AMap Bytes Bytes := []
  logs : AMap Bytes Bytes := []
  batchSize : Nat := 0
  blockNumber : Nat := 0
  changedStorage : List Bytes := []

namespace Buffer

/-- db/silkworm/db/buffer.cpp:33-37 (`bump_batch_size`), called if `insert_or_assign` inserted. -/
def bump (size : Nat) (inserted : Bool) (keyLen valueLen : Nat) : Nat := if inserted then size + (8 + keyLen + valueLen) else size

/-- db/silkworm/db/buffer.cpp:39-42 (`begin_block`). -/
def beginBlock (b : Buffer) (blockNumber : Nat) : Buffer := { b with blockNumber := blockNumber, changedStorage := [] }

/-- db/silkworm/db/buffer.cpp:55-59: what is recorded of the account at the beginning of the block. -/
def encodedInitial (initial current : Option Account) : Bytes :=
  match initial with
  | none => []
  | some i => i.encodeForStorage current.isSome

/-- db/silkworm/db/buffer.cpp:60-62: the account change. -/
def noteAccountChange (b : Buffer) (address encoded : Bytes) : Buffer :=
  let changes := (b.accountChanges.get? b.blockNumber).getD []
  { b with
    accountChanges := b.accountChanges.set b.blockNumber (changes.set address encoded)
    batchSize := bump b.batchSize (changes.get? address).isNone 8 (20 + encoded.length) }

/-- db/silkworm/db/buffer.cpp:68-70: the account. -/
def setAccount (b : Buffer) (address : Bytes) (current : Option Account) : Buffer :=
  { b with
    accounts := b.accounts.set address current
    batchSize := bump b.batchSize (b.accounts.get? address).isNone 20
      (match current with | none => 0 | some c => c.encodingLengthForStorage) }

/-- db/silkworm/db/buffer.cpp:72-76: the incarnation of a deleted contract; `initial` has a value since it differs from
`current`. -/
def noteIncarnation (b : Buffer) (address : Bytes) (initial current : Option Account) : Outcome DbError Buffer :=
  match current with
  | some _ => .ok b
  | none =>
    match initial with
    | none => .ub
    | some i =>
      if i.incarnation ≠ 0 then
        .ok { b with
          incarnations := b.incarnations.set address i.incarnation
          batchSize := bump b.batchSize (b.incarnations.get? address).isNone 20 8 }
      else .ok b

/-- db/silkworm/db/buffer.cpp:44-77 (`update_account`). -/
def updateAccount (b : Buffer) (address : Bytes) (initial current : Option Account) : Outcome DbError Buffer :=
  if current = initial ∧ current.isSome ∧ !b.changedStorage.contains address then .ok b
  else
    let b := noteAccountChange b address (encodedInitial initial current)
    if current = initial then .ok b else noteIncarnation (setAccount b address current) address initial current

/-- db/silkworm/db/buffer.cpp:79-88 (`update_account_code`). -/
def updateAccountCode (b : Buffer) (address : Bytes) (incarnation : Nat) (codeHash code : Bytes) : Buffer :=
  let key := storagePrefix address incarnation
  { b with
    hashToCode := b.hashToCode.set codeHash code
    storagePrefixToCodeHash := b.storagePrefixToCodeHash.set key codeHash
    batchSize := bump (bump b.batchSize (b.hashToCode.get? codeHash).isNone 32 code.length)
      (b.storagePrefixToCodeHash.get? key).isNone 28 32 }

/-- db/silkworm/db/buffer.cpp:90-104 (`update_storage`). -/
def updateStorage (b : Buffer) (address : Bytes) (incarnation : Nat) (location initial current : Bytes) : Buffer :=
  if current = initial then b
  else
    let changes := (b.storageChanges.get? b.blockNumber).getD []
    let changeVal := zerolessView initial
    { b with
      changedStorage := setInsert b.changedStorage address
      storageChanges :=
        b.storageChanges.set b.blockNumber (MemoryBuffer.nestedSet changes address incarnation location changeVal)
      storage := MemoryBuffer.nestedSet b.storage address incarnation location current
      batchSize :=
        bump (bump b.batchSize (MemoryBuffer.nestedGet? changes address incarnation location).isNone (8 + 28) (32 + changeVal.length))
          (MemoryBuffer.nestedGet? b.storage address incarnation location).isNone 28 (32 + (zerolessView current).length) }

/-- One call of `IntraBlockState::write_to_db`. -/
def apply (b : Buffer) : BufferCall → Outcome DbError Buffer
  | .beginBlock n => .ok (b.beginBlock n)
  | .updateAccount a i c => b.updateAccount a i c
  | .updateAccountCode a n h code => .ok (b.updateAccountCode a n h code)
  | .updateStorage a n k i c => .ok (b.updateStorage a n k i c)

/-- Calls in order. -/
def applyAll (b : Buffer) (calls : List BufferCall) : Outcome DbError Buffer := calls.foldlM apply b

/-- db/silkworm/db/buffer.cpp:263-274: the logs of receipt `i` and the following ones. -/
def insertLogs (b : Buffer) (blockNumber : Nat) : Nat → List Receipt → Buffer
  | _, [] => b
  | i, r :: rs =>
    if r.logs.isEmpty then insertLogs b blockNumber (i + 1) rs
    else
      let key := logKey blockNumber i
      let value := Cbor.encodeLogs r.logs
      insertLogs { b with
        logs := b.logs.set key value
        batchSize := bump b.batchSize (b.logs.get? key).isNone key.length value.length } blockNumber (i + 1) rs

/-- db/silkworm/db/buffer.cpp:262-282 (`insert_receipts`). -/
def insertReceipts (b : Buffer) (blockNumber : Nat) (receipts : List Receipt) : Buffer :=
  let b := insertLogs b blockNumber 0 receipts
  let key := blockKey blockNumber
  let value := Cbor.encodeReceipts receipts
  { b with
    receipts := b.receipts.set key value
    batchSize := bump b.batchSize (b.receipts.get? key).isNone key.length value.length }

/-! ## Reading -/

/-- The readers are `noexcept`: an exception ends the program. -/
def noexcept {α : Type} : Outcome DbError α → Outcome Empty α
  | .ok a => .ok a
  | .err _ => .ub
  | .ub => .ub

/-- db/silkworm/db/buffer.cpp:326-336 (`total_difficulty`). -/
def totalDifficulty (db : Database) (b : Buffer) (number : Nat) (hash : Bytes) : Outcome Empty (Option Nat) :=
  match b.difficulty.get? (blockHashKey number hash) with
  | some d => .ok (some d)
  | none => noexcept (Db.readTotalDifficulty db number hash)

/-- db/silkworm/db/buffer.cpp:338-347 (`read_header`). -/
def readHeader (db : Database) (b : Buffer) (number : Nat) (hash : Bytes) : Outcome Empty (Option BlockHeader) :=
  match b.headers.get? (blockHashKey number hash) with
  | some h => .ok (some h)
  | none => noexcept (Db.readHeader db number hash)

/-- db/silkworm/db/buffer.cpp:349-358 (`read_body`). -/
def readBody (db : Database) (b : Buffer) (number : Nat) (hash : Bytes) : Outcome Empty (Option BlockBody) :=
  match b.bodies.get? (blockHashKey number hash) with
  | some h => .ok (some h)
  | none => noexcept (Db.readBody db number hash false)

/-- db/silkworm/db/buffer.cpp:360-368 (`read_account`). -/
def readAccount (bitmapRead : Bytes → Option (List Nat)) (db : Database) (historical : Option Nat) (b : Buffer)
    (address : Bytes) : Outcome Empty (Option Account) :=
  match b.accounts.get? address with
  | some a => .ok a
  | none => noexcept (Db.readAccount bitmapRead db address historical)

/-- db/silkworm/db/buffer.cpp:370-383 (`read_code`). -/
def readCode (db : Database) (b : Buffer) (codeHash : Bytes) : Bytes :=
  match b.hashToCode.get? codeHash with
  | some c => c
  | none => (Db.readCode db codeHash).getD []

/-- db/silkworm/db/buffer.cpp:385-399 (`read_storage`). -/
def readStorage (bitmapRead : Bytes → Option (List Nat)) (db : Database) (historical : Option Nat) (b : Buffer)
    (address : Bytes) (incarnation : Nat) (location : Bytes) : Outcome Empty Bytes :=
  match MemoryBuffer.nestedGet? b.storage address incarnation location with
  | some v => .ok v
  | none => noexcept (Db.readStorage bitmapRead db address incarnation location historical)

/-- db/silkworm/db/buffer.cpp:401-410 (`previous_incarnation`). -/
def previousIncarnation (db : Database) (historical : Option Nat) (b : Buffer) (address : Bytes) : Outcome Empty Nat :=
  match b.incarnations.get? address with
  | some n => .ok n
  | none => do
    let n ← noexcept (Db.readPreviousIncarnation db address historical)
    .ok (n.getD 0)

/-- db/silkworm/db/buffer.cpp:310-324 (`insert_block`). -/
def insertBlock (db : Database) (b : Buffer) (block : Block) (hash : Bytes) : Outcome Empty Buffer := do
  let key := blockHashKey block.header.number hash
  let b := { b with headers := b.headers.set key block.header, bodies := b.bodies.set key block.toBlockBody }
  let parent ←
    if block.header.number = 0 then .ok 0
    else do
      let d ← totalDifficulty db b (block.header.number - 1) block.header.parentHash
      .ok (d.getD 0)
  .ok { b with difficulty := b.difficulty.set key ((parent + block.header.difficulty) % 2 ^ 256) }

/-! ## Writing to the database -/

/-- `if (cursor.find(…)) cursor.erase();` -/
def eraseFound (t : Table) : Option (Bytes × Bytes) → Table
  | some e => t.erase e
  | none => t

/-- db/silkworm/db/buffer.cpp:139-150 (`upsert_storage_value`). -/
def upsertStorageValue (t : Table) (keyPrefix location value : Bytes) : Table :=
  let t := eraseFound t (t.findMultivalue keyPrefix location)
  if value = zero32 then t else t.upsertMultivalue keyPrefix (location ++ zerolessView value)

/-- db/silkworm/db/buffer.cpp:168-176: the account of an address. -/
def writeAccount (t : Table) (address : Bytes) : Option (Option Account) → Table
  | none => t
  | some account =>
    let t := eraseFound t (t.find address)
    match account with
    | none => t
    | some a => t.upsertMultivalue address a.encodeForStorage

/-- db/silkworm/db/buffer.cpp:180-195: the storage of one incarnation, in the order of the locations. -/
def writeContract (t : Table) (address : Bytes) (contract : Nat × AMap Bytes Bytes) : Table :=
  (sortKeys contract.2.keys).foldl
    (fun t k => upsertStorageValue t (storagePrefix address contract.1) k ((contract.2.get? k).getD zero32)) t

/-- db/silkworm/db/buffer.cpp:167-197: one address. -/
def writeAddress (b : Buffer) (t : Table) (address : Bytes) : Table :=
  ((b.storage.get? address).getD []).foldl (fun t c => writeContract t address c)
    (writeAccount t address (b.accounts.get? address))

/-- db/silkworm/db/buffer.cpp:152-198 (`write_to_state_table`). -/
def writeToStateTable (b : Buffer) (t : Table) : Table :=
  (sortKeys (b.accounts.keys ++ b.storage.keys)).foldl (writeAddress b) t

/-- `upsert` of the entries of a map. -/
def upsertAll (t : Table) (m : AMap Bytes Bytes) : Table := m.foldl (fun t e => t.upsert e.1 e.2) t

/-- db/silkworm/db/buffer.cpp:225-233: the account changes. -/
def writeAccountChanges (t : Table) (changes : AMap Nat (AMap Bytes Bytes)) : Table :=
  changes.foldl (fun t block => block.2.foldl (fun t e => t.upsertMultivalue (blockKey block.1) (e.1 ++ e.2)) t) t

/-- db/silkworm/db/buffer.cpp:235-249: the storage changes. -/
def writeStorageChanges (t : Table) (changes : AMap Nat (AMap Bytes (AMap Nat (AMap Bytes Bytes)))) : Table :=
  changes.foldl (fun t block => (MemoryBuffer.nestedEntries block.2).foldl
    (fun t e => t.upsertMultivalue (storageChangeKey block.1 e.1 e.2.1) (e.2.2.1 ++ e.2.2.2)) t) t

/-- db/silkworm/db/buffer.cpp:200-260 (`write_to_db`): headers, bodies and difficulties are not written. -/
def writeToDb (b : Buffer) (db : Database) : Database :=
  { db with
    plainState := writeToStateTable b db.plainState
    incarnationMap := upsertAll db.incarnationMap (b.incarnations.map fun e => (e.1, beFixed 8 e.2))
    code := upsertAll db.code b.hashToCode
    plainContractCode := upsertAll db.plainContractCode b.storagePrefixToCodeHash
    accountChangeSet := writeAccountChanges db.accountChangeSet b.accountChanges
    storageChangeSet := writeStorageChanges db.storageChangeSet b.storageChanges
    blockReceipts := upsertAll db.blockReceipts b.receipts
    logs := upsertAll db.logs b.logs }

end Buffer

end Silkworm.Db
