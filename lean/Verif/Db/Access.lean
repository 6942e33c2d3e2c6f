import Verif.Db.Util
import Verif.Types.Account
import Verif.State.MemoryBuffer
import Verif.Common.Util

/-!
# Model of db/silkworm/db/access_layer.cpp 149-505, bitmap.cpp 22-32 and stages.cpp

A database is the collection of its tables (db/silkworm/db/tables.hpp). Failures of libmdbx itself are not modelled.
`assert`s are enabled. CRoaring, which reads the serialised bitmaps, is a parameter: a bitmap is the increasing list of its
elements.
-/

namespace Silkworm.Db

open Silkworm.Rlp State

/-- The exceptions that the functions below throw. -/
inductive DbError where
  /-- db/silkworm/common/rlp_err.hpp:42-46 (`err_handler`). -/
  | rlp (e : DecodingResult)
  /-- `MissingSenders`. -/
  | missingSenders
  /-- `std::invalid_argument`: unknown stage. -/
  | unknownStage
  /-- `std::length_error`: unexpected length of a stored value. -/
  | badLength
  /-- `mdbx::not_found`. -/
  | notFound
  /-- CRoaring rejects a serialised bitmap. -/
  | badBitmap
  /-- `std::runtime_error("not yet implemented")`. -/
  | notImplemented
  deriving DecidableEq, Repr

/-- db/silkworm/db/tables.hpp:32-76: the tables that the modelled code uses. -/
structure Database where
  accountHistory : Table := []
  blockBodies : Table := []
  canonicalHashes : Table := []
  headers : Table := []
  difficulty : Table := []
  blockReceipts : Table := []
  code : Table := []
  config : Table := []
  hashedCodeHash : Table := []
  databaseInfo : Table := []
  ethTx : Table := []
  hashedAccounts : Table := []
  hashedStorage : Table := []
  headerNumbers : Table := []
  incarnationMap : Table := []
  logAddressIndex : Table := []
  logTopicIndex : Table := []
  logs : Table := []
  migrations : Table := []
  accountChangeSet : Table := []
  plainContractCode : Table := []
  plainState : Table := []
  storageChangeSet : Table := []
  senders : Table := []
  storageHistory : Table := []
  stageProgress : Table := []
  stageUnwind : Table := []
  txLookup : Table := []
  trieOfAccounts : Table := []
  trieOfStorage : Table := []
  deriving DecidableEq

/-- `rlp::err_handler`: a decoding error becomes an exception. -/
def liftDec {α : Type} : Dec α → Outcome DbError α
  | .ok a => .ok a
  | .err e => .err (.rlp e)
  | .ub => .ub

/-! ## Blocks -/

/-- db/silkworm/db/access_layer.cpp:149-161 (`read_header`). -/
def readHeader (db : Database) (number : Nat) (hash : Bytes) : Outcome DbError (Option BlockHeader) :=
  match db.headers.find (blockHashKey number hash) with
  | none => .ok none
  | some e => do
    let (h, _) ← liftDec (decodeBlockHeader e.2)
    .ok (some h)

/-- db/silkworm/db/access_layer.cpp:163-175 (`read_total_difficulty`). -/
def readTotalDifficulty (db : Database) (number : Nat) (hash : Bytes) : Outcome DbError (Option Nat) :=
  match db.difficulty.find (blockHashKey number hash) with
  | none => .ok none
  | some e => do
    let (td, _) ← liftDec (decodeUint 32 e.2)
    .ok (some td)

/-- db/silkworm/db/access_layer.cpp:197-203: the loop over the entries from the first one found. -/
def decodeTransactions : Nat → Table → Outcome DbError (List Transaction)
  | 0, _ => .ok []
  | _, [] => .ok []
  | n + 1, e :: t => do
    let (tx, _) ← liftDec (decodeTransaction e.2)
    let rest ← decodeTransactions n t
    .ok (tx :: rest)

/-- db/silkworm/db/access_layer.cpp:177-206 (`read_transactions`, both versions): the entries that follow the first one in
the order of the table, whatever their keys. -/
def readTransactions (ethTx : Table) (baseId count : Nat) : Outcome DbError (List Transaction) :=
  if count = 0 then .ok []
  else decodeTransactions count (ethTx.dropWhile fun e => e.1 != beFixed 8 baseId)

/-- `memcpy` of the value into a vector of addresses: consecutive pieces of 20 bytes. -/
def splitAddresses : Nat → Bytes → List Bytes
  | 0, _ => []
  | n + 1, b => b.take 20 :: splitAddresses n (b.drop 20)

/-- db/silkworm/db/access_layer.cpp:272-284 (`read_senders`). -/
def readSenders (db : Database) (number : Nat) (hash : Bytes) : Outcome DbError (List Bytes) :=
  match db.senders.find (blockHashKey number hash) with
  | none => .ok []
  | some e => if e.2.length % 20 = 0 then .ok (splitAddresses (e.2.length / 20) e.2) else .ub

/-- db/silkworm/db/access_layer.cpp:258-267: the senders are put into the transactions. -/
def fillSenders (txs : List Transaction) (senders : List Bytes) : Outcome DbError (List Transaction) :=
  if senders.length ≠ txs.length then .err .missingSenders
  else .ok (List.zipWith (fun t s => { t with sender := some s }) txs senders)

/-- db/silkworm/db/access_layer.cpp:244-270 (`read_body`). -/
def readBody (db : Database) (number : Nat) (hash : Bytes) (withSenders : Bool) : Outcome DbError (Option BlockBody) :=
  match db.blockBodies.find (blockHashKey number hash) with
  | none => .ok none
  | some e => do
    let (body, _) ← liftDec (decodeStoredBlockBody e.2)
    let txs ← readTransactions db.ethTx body.baseTxnId body.txnCount
    if withSenders then do
      let senders ← readSenders db number hash
      let txs ← fillSenders txs senders
      .ok (some { transactions := txs, ommers := body.ommers })
    else .ok (some { transactions := txs, ommers := body.ommers })

/-- db/silkworm/db/access_layer.cpp:208-242 (`read_block`): the block and its hash. -/
def readBlock (db : Database) (number : Nat) (withSenders : Bool) : Outcome DbError (Option (Block × Bytes)) :=
  match db.canonicalHashes.find (blockKey number) with
  | none => .ok none
  | some c =>
    if c.2.length ≠ 32 then .ub
    else
      match db.headers.find (blockHashKey number c.2) with
      | none => .ok none
      | some e => do
        let (header, _) ← liftDec (decodeBlockHeader e.2)
        let body ← readBody db number c.2 withSenders
        match body with
        | none => .ok none
        | some b => .ok (some ({ b with header := header }, c.2))

/-- db/silkworm/db/access_layer.cpp:286-294 (`read_code`). -/
def readCode (db : Database) (codeHash : Bytes) : Option Bytes := (db.code.find codeHash).map (·.2)

/-! ## Accounts and storage -/

/-- db/silkworm/db/bitmap.cpp:26-32 (`seek`): the first element that is not smaller. -/
def bitmapSeek (bitmap : List Nat) (n : Nat) : Option Nat := bitmap.find? fun x => n ≤ x

/-- db/silkworm/db/access_layer.cpp:297-321 (`historical_account`). The cursor is opened on the code table; `find` is exact;
`find_multivalue` ignores the address. -/
def historicalAccount (bitmapRead : Bytes → Option (List Nat)) (db : Database) (address : Bytes) (number : Nat) :
    Outcome DbError (Option Bytes) :=
  match db.code.find (accountHistoryKey address number) with
  | none => .ok none
  | some e =>
    if !address.isPrefixOf e.1 then .ok none
    else
      match bitmapRead e.2 with
      | none => .err .badBitmap
      | some bitmap =>
        match bitmapSeek bitmap number with
        | none => .ok none
        | some changeBlock => .ok ((db.accountChangeSet.findMultivalue (blockKey changeBlock) address).map (·.2))

/-- db/silkworm/db/access_layer.cpp:324-348 (`historical_storage`): `seek` is exact. -/
def historicalStorage (bitmapRead : Bytes → Option (List Nat)) (db : Database) (address : Bytes) (incarnation : Nat)
    (location : Bytes) (number : Nat) : Outcome DbError (Option Bytes) :=
  match db.storageHistory.find (storageHistoryKey address location number) with
  | none => .ok none
  | some e =>
    if e.1.take 20 ≠ address ∨ (e.1.drop 20).take 32 ≠ location then .ok none
    else
      match bitmapRead e.2 with
      | none => .err .badBitmap
      | some bitmap =>
        match bitmapSeek bitmap number with
        | none => .ok none
        | some changeBlock =>
          .ok (findValueSuffix db.storageChangeSet (storageChangeKey changeBlock address incarnation) location)

/-- db/silkworm/db/access_layer.cpp:365-375: the code hash of a contract is restored. -/
def restoreCodeHash (db : Database) (address : Bytes) (acc : Account) : Account :=
  if acc.incarnation > 0 ∧ acc.codeHash = kEmptyHash then
    match db.plainContractCode.find (storagePrefix address acc.incarnation) with
    | none => acc
    | some e => if e.2.length = 32 then { acc with codeHash := e.2 } else acc
  else acc

/-- db/silkworm/db/access_layer.cpp:350-378 (`read_account`). -/
def readAccount (bitmapRead : Bytes → Option (List Nat)) (db : Database) (address : Bytes) (number : Option Nat) :
    Outcome DbError (Option Account) := do
  let encoded ← match number with
    | none => .ok none
    | some n => historicalAccount bitmapRead db address n
  let encoded := match encoded with
    | some v => some v
    | none => (db.plainState.find address).map (·.2)
  match encoded with
  | none => .ok none
  | some [] => .ok none
  | some (b :: v) => do
    let acc ← liftDec (decodeAccountFromStorage (b :: v))
    .ok (some (restoreCodeHash db address acc))

/-- db/silkworm/db/access_layer.cpp:391-398: a value of at most 32 bytes is padded on the left. -/
def storageValue : Option Bytes → Outcome DbError Bytes
  | none => .ok zero32
  | some v => if v.length ≤ 32 then .ok (List.replicate (32 - v.length) 0 ++ v) else .ub

/-- db/silkworm/db/access_layer.cpp:380-399 (`read_storage`). -/
def readStorage (bitmapRead : Bytes → Option (List Nat)) (db : Database) (address : Bytes) (incarnation : Nat)
    (location : Bytes) (number : Option Nat) : Outcome DbError Bytes := do
  let val ← match number with
    | none => .ok none
    | some n => historicalStorage bitmapRead db address incarnation location n
  let val := match val with
    | some v => some v
    | none => findValueSuffix db.plainState (storagePrefix address incarnation) location
  storageValue val

/-- db/silkworm/db/access_layer.cpp:401-418 (`read_previous_incarnation`): never found at historical blocks. -/
def readPreviousIncarnation (db : Database) (address : Bytes) (number : Option Nat) : Outcome DbError (Option Nat) :=
  match number with
  | some _ => .ok none
  | none =>
    match db.incarnationMap.find address with
    | none => .ok none
    | some e => if e.2.length = 8 then .ok (some (beToNat e.2)) else .ub

/-! ## Change sets -/

/-- db/silkworm/db/access_layer.cpp:427-434: the loop over the values of one block. `AccountChanges` is a `btree_map`; a
later value for the same address replaces an earlier one. -/
def collectAccountChanges (changes : AMap Bytes Bytes) : Table → Outcome DbError (AMap Bytes Bytes)
  | [] => .ok changes
  | e :: t =>
    if e.2.length < 20 then .ub else collectAccountChanges (changes.set (e.2.take 20) (e.2.drop 20)) t

/-- db/silkworm/db/access_layer.cpp:420-437 (`read_account_changes`). -/
def readAccountChanges (db : Database) (number : Nat) : Outcome DbError (AMap Bytes Bytes) :=
  collectAccountChanges [] (db.accountChangeSet.filter fun e => e.1 == blockKey number)

/-- db/silkworm/db/access_layer.cpp:448-468: the loop, from the first key that is not smaller than the block number. -/
def collectStorageChanges (keyPrefix : Bytes) (changes : AMap Bytes (AMap Nat (AMap Bytes Bytes))) :
    Table → Outcome DbError (AMap Bytes (AMap Nat (AMap Bytes Bytes)))
  | [] => .ok changes
  | e :: t =>
    if !keyPrefix.isPrefixOf e.1 then .ok changes
    else
      let key := e.1.drop keyPrefix.length
      if key.length ≠ 28 then .ub
      else if e.2.length < 32 then .ub
      else
        collectStorageChanges keyPrefix
          (MemoryBuffer.nestedSet changes (key.take 20) (beToNat (key.drop 20)) (e.2.take 32) (e.2.drop 32)) t

/-- db/silkworm/db/access_layer.cpp:439-471 (`read_storage_changes`). -/
def readStorageChanges (db : Database) (number : Nat) : Outcome DbError (AMap Bytes (AMap Nat (AMap Bytes Bytes))) :=
  collectStorageChanges (blockKey number) [] (db.storageChangeSet.dropWhile fun e => lexLt e.1 (blockKey number))

/-! ## Stages -/

/-- db/silkworm/db/stages.hpp:29-56 (`kAllStages`). -/
def kAllStages : List Bytes :=
  ["Headers", "BlockHashes", "Bodies", "Senders", "Execution", "IntermediateHashes", "HashState", "AccountHistoryIndex",
    "StorageHistoryIndex", "LogIndex", "CallTraces", "TxLookup", "TxPool", "Finish"].map ascii

/-- db/silkworm/db/stages.cpp:75-84 (`is_known_stage`). -/
def isKnownStage (name : Bytes) : Bool := !name.isEmpty && kAllStages.contains name

/-- db/silkworm/db/stages.cpp:25-37 (`get_stage_data`). -/
def getStageData (t : Table) (name : Bytes) : Outcome DbError Nat :=
  if !isKnownStage name then .err .unknownStage
  else
    match t.find name with
    | none => .ok 0
    | some e => if e.2.length ≠ 8 then .err .badLength else .ok (beToNat e.2)

/-- db/silkworm/db/stages.cpp:39-51 (`set_stage_data`). -/
def setStageData (t : Table) (name : Bytes) (number : Nat) : Outcome DbError Table :=
  if !isKnownStage name then .err .unknownStage else .ok (t.upsert name (beFixed 8 number))

/-- db/silkworm/db/stages.cpp:55-57 (`get_stage_progress`). -/
def getStageProgress (db : Database) (name : Bytes) : Outcome DbError Nat := getStageData db.stageProgress name

/-- db/silkworm/db/stages.cpp:59-61 (`set_stage_progress`). -/
def setStageProgress (db : Database) (name : Bytes) (number : Nat) : Outcome DbError Database := do
  let t ← setStageData db.stageProgress name number
  .ok { db with stageProgress := t }

/-- db/silkworm/db/stages.cpp:63-65 (`get_stage_unwind`). -/
def getStageUnwind (db : Database) (name : Bytes) : Outcome DbError Nat := getStageData db.stageUnwind name

/-- db/silkworm/db/stages.cpp:67-69 (`set_stage_unwind`). -/
def setStageUnwind (db : Database) (name : Bytes) (number : Nat) : Outcome DbError Database := do
  let t ← setStageData db.stageUnwind name number
  .ok { db with stageUnwind := t }

/-- db/silkworm/db/stages.cpp:71-73 (`clear_stage_unwind`). -/
def clearStageUnwind (db : Database) (name : Bytes) : Outcome DbError Database := setStageUnwind db name 0

end Silkworm.Db
