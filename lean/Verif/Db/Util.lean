import Verif.Db.Table
import Verif.Types.Block

/-!
# Model of db/silkworm/db/util.cpp and util.hpp
-/

namespace Silkworm.Db

open Silkworm.Rlp

/-! ## Keys -/

/-- db/silkworm/db/util.cpp:32-37 (`storage_prefix`). -/
def storagePrefix (address : Bytes) (incarnation : Nat) : Bytes := address ++ beFixed 8 incarnation

/-- db/silkworm/db/util.cpp:39-43 (`block_key` of a number). -/
def blockKey (number : Nat) : Bytes := beFixed 8 number

/-- db/silkworm/db/util.cpp:45-50 (`block_key` of a number and a hash). -/
def blockHashKey (number : Nat) (hash : Bytes) : Bytes := beFixed 8 number ++ hash

/-- db/silkworm/db/util.cpp:52-58 (`storage_change_key`). -/
def storageChangeKey (number : Nat) (address : Bytes) (incarnation : Nat) : Bytes :=
  beFixed 8 number ++ address ++ beFixed 8 incarnation

/-- db/silkworm/db/util.cpp:60-65 (`account_history_key`). -/
def accountHistoryKey (address : Bytes) (number : Nat) : Bytes := address ++ beFixed 8 number

/-- db/silkworm/db/util.cpp:67-73 (`storage_history_key`). -/
def storageHistoryKey (address location : Bytes) (number : Nat) : Bytes := address ++ location ++ beFixed 8 number

/-- db/silkworm/db/util.cpp:75-80 (`log_key`). -/
def logKey (number transactionId : Nat) : Bytes := beFixed 8 number ++ beFixed 4 transactionId

/-- db/silkworm/db/util.cpp:82-92 (`find_value_suffix`). -/
def findValueSuffix (t : Table) (key valuePrefix : Bytes) : Option Bytes :=
  match t.lowerBoundMultivalue key valuePrefix with
  | none => none
  | some e => if valuePrefix.isPrefixOf e.2 then some (e.2.drop valuePrefix.length) else none

/-! ## Stored block bodies -/

/-- db/silkworm/db/util.hpp:192-198 (`BlockBodyForStorage`). -/
structure BlockBodyForStorage where
  baseTxnId : Nat := 0
  txnCount : Nat := 0
  ommers : List BlockHeader := []
  deriving DecidableEq, Repr

/-- db/silkworm/db/util.cpp:95-107 (`BlockBodyForStorage::encode`). -/
def BlockBodyForStorage.encode (b : BlockBodyForStorage) : Bytes :=
  encodeHeader ⟨true, 0 + lengthUint 8 b.baseTxnId + lengthUint 8 b.txnCount + lengthVector lengthBlockHeader b.ommers⟩ ++
  encodeUint 8 b.baseTxnId ++ encodeUint 8 b.txnCount ++ encodeVector lengthBlockHeader (encodeBlockHeader · false) b.ommers

/-- db/silkworm/db/util.cpp:109-127 (`decode_stored_block_body`): an exception is an error. -/
def decodeStoredBlockBody (from_ : Bytes) : Dec (BlockBodyForStorage × Bytes) := do
  let (h, from_) ← decodeHeader from_
  if !h.list then .err .unexpectedString
  else
    let leftover := from_.length - h.payloadLength
    let (baseTxnId, from_) ← decodeUint 8 from_
    let (txnCount, from_) ← decodeUint 8 from_
    let (ommers, from_) ← decodeVector decodeBlockHeader from_
    if from_.length ≠ leftover then .err .listLengthMismatch else .ok (⟨baseTxnId, txnCount, ommers⟩, from_)

/-! ## Versions and storage modes -/

/-- A C string of the source. -/
def ascii (s : String) : Bytes := s.toList.map fun c => UInt8.ofNat c.toNat

/-- db/silkworm/db/util.hpp:39-42 (`version_t`). -/
structure Version where
  major : Nat
  minor : Nat
  patch : Nat
  deriving DecidableEq, Repr

/-- db/silkworm/db/util.hpp:53-66 (`version_t::operator<`). -/
def Version.lt (a b : Version) : Bool :=
  if a.major < b.major then true
  else if a.major = b.major then
    if a.minor < b.minor then true
    else if a.minor = b.minor then
      if a.patch < b.patch then true else false
    else false
  else false

/-- db/silkworm/db/util.hpp:67-80 (`version_t::operator>`). -/
def Version.gt (a b : Version) : Bool :=
  if a.major > b.major then true
  else if a.major = b.major then
    if a.minor > b.minor then true
    else if a.minor = b.minor then
      if a.patch > b.patch then true else false
    else false
  else false

/-- db/silkworm/db/util.hpp:86-92 (`storage_mode_t`). -/
structure StorageMode where
  initialized : Bool := false
  history : Bool := false
  receipts : Bool := false
  txIndex : Bool := false
  callTraces : Bool := false
  tevm : Bool := false
  deriving DecidableEq, Repr

/-- db/silkworm/db/util.hpp:93-114 (`storage_mode_t::to_string`). -/
def StorageMode.toText (m : StorageMode) : Bytes :=
  if !m.initialized then ascii "default"
  else
    (if m.history then ascii "h" else []) ++ (if m.receipts then ascii "r" else []) ++
    (if m.txIndex then ascii "t" else []) ++ (if m.callTraces then ascii "c" else []) ++ (if m.tevm then ascii "e" else [])

/-- db/silkworm/db/util.hpp:122-124 (`kDefaultStorageMode`). -/
def kDefaultStorageMode : StorageMode := ⟨true, true, true, true, true, false⟩

/-- db/silkworm/db/access_layer.cpp:125-145: the loop over the letters. `none` is the exception. -/
def parseLetters (m : StorageMode) : Bytes → Option StorageMode
  | [] => some m
  | c :: rest =>
    if c = 0x68 then parseLetters { m with history := true } rest
    else if c = 0x72 then parseLetters { m with receipts := true } rest
    else if c = 0x74 then parseLetters { m with txIndex := true } rest
    else if c = 0x63 then parseLetters { m with callTraces := true } rest
    else if c = 0x65 then parseLetters { m with tevm := true } rest
    else none

/-- db/silkworm/db/access_layer.cpp:120-147 (`parse_storage_mode`): `none` is `std::invalid_argument`. -/
def parseStorageMode (mode : Bytes) : Option StorageMode :=
  if mode = ascii "default" then some kDefaultStorageMode else parseLetters { initialized := true } mode

/-! ## The information table -/

/-- db/silkworm/db/access_layer.cpp:29-44 (`get_schema_version`). -/
def getSchemaVersion (info : Table) : Outcome Unit (Option Version) :=
  match info.find (ascii "dbVersion") with
  | none => .ok none
  | some e =>
    if e.2.length = 12 then
      .ok (some ⟨beToNat (e.2.take 4), beToNat ((e.2.drop 4).take 4), beToNat ((e.2.drop 8).take 4)⟩)
    else .ub

/-- db/silkworm/db/access_layer.cpp:46-65 (`set_schema_version`): the table afterwards; `err` is the exception. -/
def setSchemaVersion (info : Table) (v : Version) : Outcome Unit Table := do
  let write : Outcome Unit Table :=
    .ok (info.upsert (ascii "dbVersion") (beFixed 4 v.major ++ beFixed 4 v.minor ++ beFixed 4 v.patch))
  match ← getSchemaVersion info with
  | none => write
  | some old => if v = old then .ok info else if v.lt old then .err () else write

/-- db/silkworm/db/access_layer.cpp:73-74: one flag. -/
def readFlag (info : Table) (key : String) : Bool :=
  match info.find (ascii key) with
  | none => false
  | some e => e.2 == [1]

/-- db/silkworm/db/access_layer.cpp:67-97 (`get_storage_mode`). -/
def getStorageMode (info : Table) : StorageMode :=
  { initialized := true
    history := readFlag info "smHistory"
    receipts := readFlag info "smReceipts"
    txIndex := readFlag info "smTxIndex"
    callTraces := readFlag info "smCallTraces"
    tevm := readFlag info "smTEVM" }

/-- db/silkworm/db/access_layer.cpp:101-105: one flag. -/
def writeFlag (info : Table) (key : String) (on : Bool) : Table := info.upsert (ascii key) (if on then [1] else [0, 0])

/-- db/silkworm/db/access_layer.cpp:99-118 (`set_storage_mode`). -/
def setStorageMode (info : Table) (m : StorageMode) : Table :=
  let info := writeFlag info "smHistory" m.history
  let info := writeFlag info "smReceipts" m.receipts
  let info := writeFlag info "smTxIndex" m.txIndex
  let info := writeFlag info "smCallTraces" m.callTraces
  writeFlag info "smTEVM" m.tevm

end Silkworm.Db
