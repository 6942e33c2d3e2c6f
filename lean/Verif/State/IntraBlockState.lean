import Verif.Base.AMap
import Verif.Types.Account
import Verif.Types.Log

/-!
# Model of core/silkworm/state/{intra_block_state,delta,object}.{hpp,cpp}

Addresses, storage keys, storage values and code hashes are byte strings. The database is seen through the four readers
used here; it does not change until `write_to_db`. Reads fill caches, so every reader also returns the state afterwards.
`keccak` is a parameter. The journal is kept newest first.
-/

namespace Silkworm

/-- `evmc::bytes32{}`. -/
def zero32 : Bytes := List.replicate 32 0

/-- core/silkworm/state/buffer.hpp:40-48: the readers of `StateBuffer` used by the state. -/
structure StateReader where
  readAccount : Bytes → Option Account
  readCode : Bytes → Bytes
  readStorage : Bytes → Nat → Bytes → Bytes
  previousIncarnation : Bytes → Nat

namespace State

/-- core/silkworm/state/object.hpp:28-31. -/
structure Object where
  initial : Option Account := none
  current : Option Account := none
  deriving DecidableEq

/-- core/silkworm/state/object.hpp:33-36. -/
structure CommittedValue where
  initial : Bytes := zero32
  original : Bytes := zero32
  deriving DecidableEq

/-- core/silkworm/state/object.hpp:38-41. -/
structure Storage where
  committed : AMap Bytes CommittedValue := []
  current : AMap Bytes Bytes := []

/-- core/silkworm/state/delta.hpp:36-132: the deltas. -/
inductive Delta where
  | create (address : Bytes)
  | update (address : Bytes) (previous : Object)
  | suicide (address : Bytes)
  | touch (address : Bytes)
  | storageChange (address key previous : Bytes)
  | storageWipe (address : Bytes) (storage : Storage)
  | storageCreate (address : Bytes)
  | storageAccess (address key : Bytes)
  | accountAccess (address : Bytes)

end State

open State

/-- core/silkworm/state/intra_block_state.hpp:34-151. -/
structure IntraBlockState where
  objects : AMap Bytes Object := []
  storage : AMap Bytes Storage := []
  code : AMap Bytes Bytes := []
  journal : List Delta := []
  selfDestructs : List Bytes := []
  logs : List Log := []
  touched : List Bytes := []
  refund : Nat := 0
  accessedAddresses : List Bytes := []
  accessedStorageKeys : AMap Bytes (List Bytes) := []

namespace State

/-- core/silkworm/state/delta.cpp:27, 32, 36, 40, 45, 50, 54, 59, 63 (`revert`). -/
def Delta.revert (d : Delta) (s : IntraBlockState) : IntraBlockState :=
  match d with
  | .create a => { s with objects := s.objects.erase a }
  | .update a o => { s with objects := s.objects.set a o }
  | .suicide a => { s with selfDestructs := setErase s.selfDestructs a }
  | .touch a => { s with touched := setErase s.touched a }
  | .storageChange a k v =>
    let st := (s.storage.get? a).getD {}
    { s with storage := s.storage.set a { st with current := st.current.set k v } }
  | .storageWipe a st => { s with storage := s.storage.set a st }
  | .storageCreate a => { s with storage := s.storage.erase a }
  | .storageAccess a k =>
    { s with accessedStorageKeys := s.accessedStorageKeys.set a (setErase ((s.accessedStorageKeys.get? a).getD []) k) }
  | .accountAccess a => { s with accessedAddresses := setErase s.accessedAddresses a }

end State

namespace IntraBlockState

/-- core/silkworm/state/intra_block_state.cpp:28-43 (`get_object`). -/
def getObject (db : StateReader) (s : IntraBlockState) (address : Bytes) : Option Object × IntraBlockState :=
  match s.objects.get? address with
  | some obj => (some obj, s)
  | none =>
    match db.readAccount address with
    | none => (none, s)
    | some account =>
      let obj : Object := { initial := some account, current := some account }
      (some obj, { s with objects := s.objects.set address obj })

/-- `journal_.emplace_back`. -/
def push (s : IntraBlockState) (d : Delta) : IntraBlockState := { s with journal := d :: s.journal }

/-- core/silkworm/state/intra_block_state.cpp:45-58 (`get_or_create_object`): the object, its `current` account, which
is always present, and the state. -/
def getOrCreateObject (db : StateReader) (s : IntraBlockState) (address : Bytes) : Object × Account × IntraBlockState :=
  match getObject db s address with
  | (none, s) =>
    let obj : Object := { current := some {} }
    (obj, {}, { s.push (.create address) with objects := s.objects.set address obj })
  | (some obj, s) =>
    match obj.current with
    | none =>
      let obj' : Object := { obj with current := some {} }
      (obj', {}, { s.push (.update address obj) with objects := s.objects.set address obj' })
    | some c => (obj, c, s)

/-- core/silkworm/state/intra_block_state.cpp:60-63. -/
def exists? (db : StateReader) (s : IntraBlockState) (address : Bytes) : Bool × IntraBlockState :=
  match getObject db s address with
  | (none, s) => (false, s)
  | (some obj, s) => (obj.current.isSome, s)

/-- core/silkworm/state/intra_block_state.cpp:65-71. -/
def isDead (db : StateReader) (s : IntraBlockState) (address : Bytes) : Bool × IntraBlockState :=
  match getObject db s address with
  | (none, s) => (true, s)
  | (some obj, s) =>
    match obj.current with
    | none => (true, s)
    | some c => (c.codeHash == kEmptyHash && c.nonce == 0 && c.balance == 0, s)

/-- core/silkworm/state/intra_block_state.cpp:92-94: an absent or zero incarnation is looked up in the database. -/
def fallbackIncarnation (db : StateReader) (address : Bytes) : Option Nat → Nat
  | none => db.previousIncarnation address
  | some n => if n = 0 then db.previousIncarnation address else n

/-- core/silkworm/state/intra_block_state.cpp:81-86: the incarnation found in the object. -/
def objectIncarnation (obj : Object) : Option Nat :=
  match obj.current with
  | some c => some c.incarnation
  | none => obj.initial.map (·.incarnation)

/-- core/silkworm/state/intra_block_state.cpp:81-82: the balance is kept. -/
def objectBalance (obj : Object) : Nat :=
  match obj.current with
  | some c => c.balance
  | none => 0

/-- core/silkworm/state/intra_block_state.cpp:100-106: forget the storage of the address. -/
def wipeStorage (s : IntraBlockState) (address : Bytes) : IntraBlockState :=
  match s.storage.get? address with
  | none => s.push (.storageCreate address)
  | some st => { s.push (.storageWipe address st) with storage := s.storage.erase address }

/-- core/silkworm/state/intra_block_state.cpp:73-107 (`create_contract`). -/
def createContract (db : StateReader) (s : IntraBlockState) (address : Bytes) : IntraBlockState :=
  match getObject db s address with
  | (some prev, s) =>
    let created : Object :=
      { initial := prev.initial,
        current := some { balance := objectBalance prev,
                          incarnation := (fallbackIncarnation db address (objectIncarnation prev) + 1) % 2 ^ 64 } }
    wipeStorage { s.push (.update address prev) with objects := s.objects.set address created } address
  | (none, s) =>
    let created : Object :=
      { current := some { incarnation := (fallbackIncarnation db address none + 1) % 2 ^ 64 } }
    wipeStorage { s.push (.create address) with objects := s.objects.set address created } address

/-- core/silkworm/state/intra_block_state.cpp:113 (`kRipemdAddress`). -/
def kRipemdAddress : Bytes := List.replicate 19 0 ++ [3]

/-- core/silkworm/state/intra_block_state.cpp:109-117 (`touch`). -/
def touch (s : IntraBlockState) (address : Bytes) : IntraBlockState :=
  if s.touched.contains address then s
  else
    let s := { s with touched := setInsert s.touched address }
    if address ≠ kRipemdAddress then s.push (.touch address) else s

/-- core/silkworm/state/intra_block_state.cpp:119-124. -/
def recordSuicide (s : IntraBlockState) (address : Bytes) : IntraBlockState :=
  if s.selfDestructs.contains address then s
  else { s.push (.suicide address) with selfDestructs := setInsert s.selfDestructs address }

/-- core/silkworm/state/intra_block_state.cpp:142-148 (`destruct`). -/
def destruct (db : StateReader) (s : IntraBlockState) (address : Bytes) : IntraBlockState :=
  match getObject db { s with storage := s.storage.erase address } address with
  | (none, s) => s
  | (some obj, s) => { s with objects := s.objects.set address { obj with current := none } }

/-- core/silkworm/state/intra_block_state.cpp:126-130. -/
def destructSuicides (db : StateReader) (s : IntraBlockState) : IntraBlockState :=
  s.selfDestructs.foldl (fun s a => destruct db s a) s

/-- core/silkworm/state/intra_block_state.cpp:132-138. -/
def destructTouchedDead (db : StateReader) (s : IntraBlockState) : IntraBlockState :=
  s.touched.foldl (fun s a =>
    match isDead db s a with
    | (true, s) => destruct db s a
    | (false, s) => s) s

/-- core/silkworm/state/intra_block_state.cpp:150-153. -/
def getBalance (db : StateReader) (s : IntraBlockState) (address : Bytes) : Nat × IntraBlockState :=
  match getObject db s address with
  | (none, s) => (0, s)
  | (some obj, s) =>
    match obj.current with
    | none => (0, s)
    | some c => (c.balance, s)

/-- Common part of the four setters (e.g. core/silkworm/state/intra_block_state.cpp:156-158): create the object if needed, journal it
and modify the current account. -/
def modifyCurrent (db : StateReader) (s : IntraBlockState) (address : Bytes) (f : Account → Account) : IntraBlockState :=
  let (obj, c, s) := getOrCreateObject db s address
  { s.push (.update address obj) with objects := s.objects.set address { obj with current := some (f c) } }

/-- core/silkworm/state/intra_block_state.cpp:155-160. -/
def setBalance (db : StateReader) (s : IntraBlockState) (address : Bytes) (value : Nat) : IntraBlockState :=
  (modifyCurrent db s address (fun c => { c with balance := value })).touch address

/-- core/silkworm/state/intra_block_state.cpp:162-167; arithmetic modulo 2^256. -/
def addToBalance (db : StateReader) (s : IntraBlockState) (address : Bytes) (addend : Nat) : IntraBlockState :=
  (modifyCurrent db s address (fun c => { c with balance := (c.balance + addend) % 2 ^ 256 })).touch address

/-- core/silkworm/state/intra_block_state.cpp:169-174; arithmetic modulo 2^256. -/
def subtractFromBalance (db : StateReader) (s : IntraBlockState) (address : Bytes) (subtrahend : Nat) : IntraBlockState :=
  (modifyCurrent db s address
    (fun c => { c with balance := (c.balance + (2 ^ 256 - subtrahend % 2 ^ 256)) % 2 ^ 256 })).touch address

/-- core/silkworm/state/intra_block_state.cpp:176-179. -/
def getNonce (db : StateReader) (s : IntraBlockState) (address : Bytes) : Nat × IntraBlockState :=
  match getObject db s address with
  | (none, s) => (0, s)
  | (some obj, s) =>
    match obj.current with
    | none => (0, s)
    | some c => (c.nonce, s)

/-- core/silkworm/state/intra_block_state.cpp:181-185. -/
def setNonce (db : StateReader) (s : IntraBlockState) (address : Bytes) (nonce : Nat) : IntraBlockState :=
  modifyCurrent db s address (fun c => { c with nonce := nonce })

/-- core/silkworm/state/intra_block_state.cpp:187-205 (`get_code`). -/
def getCode (db : StateReader) (s : IntraBlockState) (address : Bytes) : Bytes × IntraBlockState :=
  match getObject db s address with
  | (none, s) => ([], s)
  | (some obj, s) =>
    match obj.current with
    | none => ([], s)
    | some c =>
      if c.codeHash = kEmptyHash then ([], s)
      else
        match s.code.get? c.codeHash with
        | some code => (code, s)
        | none => (db.readCode c.codeHash, { s with code := s.code.set c.codeHash (db.readCode c.codeHash) })

/-- core/silkworm/state/intra_block_state.cpp:207-210. -/
def getCodeHash (db : StateReader) (s : IntraBlockState) (address : Bytes) : Bytes × IntraBlockState :=
  match getObject db s address with
  | (none, s) => (kEmptyHash, s)
  | (some obj, s) =>
    match obj.current with
    | none => (kEmptyHash, s)
    | some c => (c.codeHash, s)

/-- core/silkworm/state/intra_block_state.cpp:212-220 (`set_code`). -/
def setCode (keccak : Bytes → Bytes) (db : StateReader) (s : IntraBlockState) (address code : Bytes) : IntraBlockState :=
  let s := modifyCurrent db s address (fun c => { c with codeHash := keccak code })
  match s.code.get? (keccak code) with
  | some _ => s
  | none => { s with code := s.code.set (keccak code) code }

/-- core/silkworm/state/intra_block_state.cpp:222-228 (`access_account`); `true` is `EVMC_ACCESS_COLD`. -/
def accessAccount (s : IntraBlockState) (address : Bytes) : Bool × IntraBlockState :=
  if s.accessedAddresses.contains address then (false, s)
  else (true, { s.push (.accountAccess address) with accessedAddresses := setInsert s.accessedAddresses address })

/-- core/silkworm/state/intra_block_state.cpp:230-236 (`access_storage`); `true` is `EVMC_ACCESS_COLD`. -/
def accessStorage (s : IntraBlockState) (address key : Bytes) : Bool × IntraBlockState :=
  let keys := (s.accessedStorageKeys.get? address).getD []
  if keys.contains key then (false, { s with accessedStorageKeys := s.accessedStorageKeys.set address keys })
  else (true, { s.push (.storageAccess address key) with
                accessedStorageKeys := s.accessedStorageKeys.set address (setInsert keys key) })

/-- core/silkworm/state/intra_block_state.cpp:264-280: the second half of `get_storage`, from `storage.committed.find`. -/
def getCommitted (db : StateReader) (s : IntraBlockState) (address key : Bytes) (initial : Option Account)
    (incarnation : Nat) (storage : Storage) : Bytes × IntraBlockState :=
  match storage.committed.get? key with
  | some entry => (entry.original, s)
  | none =>
    match initial with
    | none => (zero32, s)
    | some i =>
      if i.incarnation ≠ incarnation then (zero32, s)
      else
        let val := db.readStorage address incarnation key
        let committed := storage.committed.set key { initial := val, original := val }
        (val, { s with storage := s.storage.set address { storage with committed := committed } })

/-- core/silkworm/state/intra_block_state.cpp:248-281 (`get_storage`). -/
def getStorage (db : StateReader) (s : IntraBlockState) (address key : Bytes) (original : Bool) :
    Bytes × IntraBlockState :=
  match getObject db s address with
  | (none, s) => (zero32, s)
  | (some obj, s) =>
    match obj.current with
    | none => (zero32, s)
    | some c =>
      let storage := (s.storage.get? address).getD {}
      let s := { s with storage := s.storage.set address storage }
      if original then getCommitted db s address key obj.initial c.incarnation storage
      else
        match storage.current.get? key with
        | some v => (v, s)
        | none => getCommitted db s address key obj.initial c.incarnation storage

/-- core/silkworm/state/intra_block_state.cpp:238-241. -/
def getCurrentStorage (db : StateReader) (s : IntraBlockState) (address key : Bytes) : Bytes × IntraBlockState :=
  getStorage db s address key false

/-- core/silkworm/state/intra_block_state.cpp:243-246. -/
def getOriginalStorage (db : StateReader) (s : IntraBlockState) (address key : Bytes) : Bytes × IntraBlockState :=
  getStorage db s address key true

/-- core/silkworm/state/intra_block_state.cpp:283-291 (`set_storage`). -/
def setStorage (db : StateReader) (s : IntraBlockState) (address key value : Bytes) : IntraBlockState :=
  let (prev, s) := getCurrentStorage db s address key
  if prev = value then s
  else
    let st := (s.storage.get? address).getD {}
    { s.push (.storageChange address key prev) with
      storage := s.storage.set address { st with current := st.current.set key value } }

/-- core/silkworm/state/intra_block_state.hpp:44-48 (`Snapshot`). -/
structure Snapshot where
  journalSize : Nat
  logSize : Nat
  refund : Nat

/-- core/silkworm/state/intra_block_state.cpp:322-328. -/
def takeSnapshot (s : IntraBlockState) : Snapshot :=
  { journalSize := s.journal.length, logSize := s.logs.length, refund := s.refund }

/-- core/silkworm/state/intra_block_state.cpp:331-333: revert a list of deltas, newest first. -/
def undo (ds : List Delta) (s : IntraBlockState) : IntraBlockState := ds.foldl (fun s d => d.revert s) s

/-- `std::vector<Log>::resize`. -/
def resizeLogs (logs : List Log) (n : Nat) : List Log :=
  logs.take n ++ List.replicate (n - logs.length) { address := List.replicate 20 0, topics := [], data := [] }

/-- core/silkworm/state/intra_block_state.cpp:330-337 (`revert_to_snapshot`). A snapshot larger than the journal would
make `journal_.resize` append null deltas; the model leaves the journal as it is (snapshots are only used on states
that have grown from the one they were taken of). -/
def revertToSnapshot (s : IntraBlockState) (snap : Snapshot) : IntraBlockState :=
  let s' := undo (s.journal.take (s.journal.length - snap.journalSize)) s
  { s' with
    journal := s.journal.drop (s.journal.length - snap.journalSize)
    logs := resizeLogs s.logs snap.logSize
    refund := snap.refund }

/-- core/silkworm/state/intra_block_state.cpp:343: `storage.committed[key].original = val`. -/
def commitValue (e : Bytes × Bytes) (m : AMap Bytes CommittedValue) : AMap Bytes CommittedValue :=
  let entry := (m.get? e.1).getD {}
  m.set e.1 { entry with original := e.2 }

/-- core/silkworm/state/intra_block_state.cpp:342-345: the storage of one address at the end of a transaction. The
entries are visited in some order (see Verif/Base/AMap.lean); here from the last to the first. -/
def finalizeStorage (st : Storage) : Storage :=
  { committed := st.current.foldr commitValue st.committed
    current := [] }

/-- core/silkworm/state/intra_block_state.cpp:339-347. -/
def finalizeTransaction (s : IntraBlockState) : IntraBlockState :=
  { s with storage := s.storage.map (fun e => (e.1, finalizeStorage e.2)) }

/-- core/silkworm/state/intra_block_state.cpp:349-360. -/
def clearJournalAndSubstate (s : IntraBlockState) : IntraBlockState :=
  { s with journal := [], selfDestructs := [], logs := [], touched := [], refund := 0, accessedAddresses := [],
           accessedStorageKeys := [] }

/-- core/silkworm/state/intra_block_state.cpp:362. -/
def addLog (s : IntraBlockState) (log : Log) : IntraBlockState := { s with logs := s.logs ++ [log] }

/-- core/silkworm/state/intra_block_state.cpp:364; arithmetic modulo 2^64. -/
def addRefund (s : IntraBlockState) (addend : Nat) : IntraBlockState := { s with refund := (s.refund + addend) % 2 ^ 64 }

/-- core/silkworm/state/intra_block_state.cpp:366; arithmetic modulo 2^64. -/
def subtractRefund (s : IntraBlockState) (subtrahend : Nat) : IntraBlockState :=
  { s with refund := (s.refund + (2 ^ 64 - subtrahend % 2 ^ 64)) % 2 ^ 64 }

/-- core/silkworm/state/intra_block_state.hpp:71. -/
def numberOfSelfDestructs (s : IntraBlockState) : Nat := s.selfDestructs.length

end IntraBlockState

/-- The calls `write_to_db` makes on the `StateBuffer` (core/silkworm/state/buffer.hpp:83-92). -/
inductive BufferCall where
  | beginBlock (blockNumber : Nat)
  | updateAccount (address : Bytes) (initial current : Option Account)
  | updateAccountCode (address : Bytes) (incarnation : Nat) (codeHash code : Bytes)
  | updateStorage (address : Bytes) (incarnation : Nat) (location initial current : Bytes)

namespace IntraBlockState

/-- core/silkworm/state/intra_block_state.cpp:296-310: the calls for the storage of one address. -/
def storageCalls (s : IntraBlockState) (e : Bytes × Storage) : List BufferCall :=
  match s.objects.get? e.1 with
  | none => []
  | some obj =>
    match obj.current with
    | none => []
    | some c => e.2.committed.map (fun kv => .updateStorage e.1 c.incarnation kv.1 kv.2.initial kv.2.original)

/-- core/silkworm/state/intra_block_state.cpp:314-315. -/
def codeChanged (obj : Object) (c : Account) : Bool :=
  c.codeHash != kEmptyHash &&
    match obj.initial with
    | none => true
    | some i => i.incarnation != c.incarnation

/-- core/silkworm/state/intra_block_state.cpp:312-319: the calls for one object. `code_[hash]` is the empty string if
there is no entry. -/
def objectCalls (s : IntraBlockState) (e : Bytes × Object) : List BufferCall :=
  .updateAccount e.1 e.2.initial e.2.current ::
    match e.2.current with
    | none => []
    | some c =>
      if codeChanged e.2 c then
        [.updateAccountCode e.1 c.incarnation c.codeHash ((s.code.get? c.codeHash).getD [])]
      else []

/-- core/silkworm/state/intra_block_state.cpp:293-320 (`write_to_db`): the calls in order. (Empty entries
that `code_[hash]` may add to `code_` are not modelled; the state is not used afterwards.) -/
def writeToDb (s : IntraBlockState) (blockNumber : Nat) : List BufferCall :=
  .beginBlock blockNumber :: (s.storage.flatMap (storageCalls s) ++ s.objects.flatMap (objectCalls s))

end IntraBlockState

end Silkworm
