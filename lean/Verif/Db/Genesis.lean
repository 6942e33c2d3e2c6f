import Verif.Db.BufferRoot
import Verif.Stages.Common
import Verif.Chain.Config

/-!
# Model of cmd/initialize_with_genesis.cpp and of `read_chain_config`

The JSON document is parsed already; of its members those are kept that the program looks at, and the other members of
allocations (which it does not look at). `intx::from_string<intx::uint256>` and `std::stoull` are parameters; where they throw they
answer `none`. Command line, files and the choice of a built-in document are not modelled. After an exception the data file is
deleted: no database is left.
-/

namespace Silkworm.Genesis

open Db Rlp

/-- A member of the document that should be a string. -/
inductive Member where
  | absent
  | notString
  | string (s : Bytes)
  deriving DecidableEq, Repr

/-- An allocation. `balance` is none if there is no string of that name. The program takes no account of the other members. -/
structure Allocation where
  balance : Option Bytes
  nonce : Nat := 0
  code : Bytes := []
  storage : List (Bytes × Bytes) := []

/-- A member that should be an object; the configuration with its text. -/
inductive ConfigMember where
  | absent
  | notObject
  | object (j : ChainConfig.JsonObject) (text : Bytes)

/-- The member `alloc`. The members of an object are in the order of their names, each once. -/
inductive AllocMember where
  | absent
  | notObject
  | object (items : List (Bytes × Allocation))

/-- The document. -/
structure Document where
  difficulty : Member
  nonce : Member
  gasLimit : Member
  timestamp : Member
  extraData : Member
  mixhash : Member
  config : ConfigMember
  alloc : AllocMember

/-- Why nothing is initialised. -/
inductive GenesisError where
  /-- Lines 117-143. -/
  | incomplete
  /-- Lines 145-152. -/
  | badConfig
  /-- Lines 171-174. -/
  | badAllocation
  /-- Lines 176-181. -/
  | badAddress
  /-- `from_string` or `stoull` throws. -/
  | badNumber
  /-- `at(0)` throws: nothing is allocated. -/
  | noAllocation
  /-- Lines 190-195. -/
  | mismatch
  /-- `get<std::string>` throws. -/
  | notString
  /-- Lines 210-212. -/
  | badMixHash
  deriving DecidableEq, Repr

/-- `contains(name)`. -/
def Member.present : Member → Bool
  | .absent => false
  | _ => true

/-- `get<std::string>()`. -/
def Member.get : Member → Outcome GenesisError Bytes
  | .string s => .ok s
  | _ => .err .notString

/-- `is_string()`. -/
def Member.isString : Member → Bool
  | .string _ => true
  | _ => false

/-- cmd/initialize_with_genesis.cpp:124-134: the configuration is an object, and with `ethash` there is a mix hash. -/
def ConfigMember.fits (mixhash : Member) : ConfigMember → Bool
  | .object j _ => !((j "ethash").isSome && !mixhash.isString)
  | _ => false

/-- cmd/initialize_with_genesis.cpp:135-137: the allocations are an object, if there are any. -/
def AllocMember.fits : AllocMember → Bool
  | .notObject => false
  | _ => true

/-- cmd/initialize_with_genesis.cpp:117-138: no message is added to `err`. -/
def complete (d : Document) : Bool :=
  d.difficulty.present && d.nonce.present && d.gasLimit.present && d.timestamp.present && d.extraData.present &&
  d.config.fits d.mixhash && d.alloc.fits

/-- An optional result of a parser that throws. -/
def orThrow {α : Type} (e : GenesisError) : Option α → Outcome GenesisError α
  | some a => .ok a
  | none => .err e

/-- Outcomes of functions that do not throw. -/
def noThrow {α : Type} : Outcome Empty α → Outcome GenesisError α
  | .ok a => .ok a
  | .err e => e.elim
  | .ub => .ub

/-- `update_account` does not throw in the model. -/
def fromDb {α : Type} : Outcome DbError α → Outcome GenesisError α
  | .ok a => .ok a
  | .err _ => .ub
  | .ub => .ub

/-- cmd/initialize_with_genesis.cpp:171-186: one allocation. -/
def allocate (parse256 : Bytes → Option Nat) (b : Db.Buffer) (item : Bytes × Allocation) : Outcome GenesisError Db.Buffer :=
  match item.2.balance with
  | none => .err .badAllocation
  | some balance =>
    match fromHex item.1 with
    | none => .err .badAddress
    | some address =>
      if address.length ≠ 20 then .err .badAddress
      else do
        let n ← orThrow .badNumber (parse256 balance)
        fromDb (b.updateAccount address none (some { balance := n }))

/-- cmd/initialize_with_genesis.cpp:170-187: the loop. -/
def allocateAll (parse256 : Bytes → Option Nat) (b : Db.Buffer) : List (Bytes × Allocation) → Outcome GenesisError Db.Buffer
  | [] => .ok b
  | item :: items => do
    let b ← allocate parse256 b item
    allocateAll parse256 b items

/-- cmd/initialize_with_genesis.cpp:164-198: the buffer and the database with the accounts. -/
def allocations (parse256 : Bytes → Option Nat) (db : Database) : AllocMember → Outcome GenesisError (Db.Buffer × Database)
  | .object items => do
    let b ← allocateAll parse256 {} items
    match b.accountChanges.get? 0 with
    | none => .err .noAllocation
    | some changes => if changes.length ≠ items.length then .err .mismatch else .ok (b, b.writeToDb db)
  | _ => .ok ({}, db)

/-- cmd/initialize_with_genesis.cpp:208-214: the mix hash. -/
def mixHash : Member → Outcome GenesisError Bytes
  | .absent => .ok (List.replicate 32 0)
  | m => do
    let s ← m.get
    match fromHex s with
    | none => .err .badMixHash
    | some h => if h.length ≠ 32 then .err .badMixHash else .ok h

/-- `memcpy` of a number on a little-endian machine. -/
def littleEndian (k n : Nat) : Bytes := (beFixed k n).reverse

/-- cmd/initialize_with_genesis.cpp:200-227: the header. -/
def header (parse256 parse64 : Bytes → Option Nat) (d : Document) (stateRoot : Outcome Empty Bytes) :
    Outcome GenesisError BlockHeader := do
  let extra ← d.extraData.get
  let mix ← mixHash d.mixhash
  let root ← noThrow stateRoot
  let s ← d.difficulty.get
  let difficulty ← orThrow .badNumber (parse256 s)
  let s ← d.gasLimit.get
  let gasLimit ← orThrow .badNumber (parse64 s)
  let s ← d.timestamp.get
  let timestamp ← orThrow .badNumber (parse64 s)
  let s ← d.nonce.get
  let nonce ← orThrow .badNumber (parse64 s)
  .ok { extraData := (fromHex extra).getD [], mixHash := mix, ommersHash := kEmptyListHash, stateRoot := root,
        transactionsRoot := kEmptyRoot, receiptsRoot := kEmptyRoot, difficulty := difficulty, gasLimit := gasLimit,
        timestamp := timestamp, nonce := littleEndian 8 nonce }

/-- What the program leaves behind: the tables, and the table `LastHeader`, which is not part of `Database`. -/
structure Initialised where
  db : Database
  headHeader : Table

/-- cmd/initialize_with_genesis.cpp:229-256: the header and what belongs to it. All of them are stored under the number and the
hash, but for the receipts. `to_slice(intx::as_bytes(header.difficulty))` takes a `ByteView` made of a `const uint8_t*`: the bytes
of the number in memory before the first zero. -/
def write (keccak : Bytes → Bytes) (header : BlockHeader) (config : Bytes) (db : Database) :
    Outcome GenesisError Initialised := do
  let rlp := encodeBlockHeader header false
  let hash := keccak rlp
  let key := List.replicate 8 0 ++ hash
  let difficulty ← Stages.cString (littleEndian 32 header.difficulty)
  .ok { db := { db with
          headers := db.headers.upsert key rlp
          canonicalHashes := db.canonicalHashes.upsert key hash
          blockBodies := db.blockBodies.upsert key [195, 128, 128, 192]
          difficulty := db.difficulty.upsert key difficulty
          blockReceipts := db.blockReceipts.upsert (key.take 8) [246]
          headerNumbers := db.headerNumbers.upsert hash (key.take 8)
          config := db.config.upsert hash config }
        headHeader := Table.upsert [] (ascii "LastHeader") hash }

/-- cmd/initialize_with_genesis.cpp:109-277: from the document to the committed database, with the header. -/
def initialise (keccak : Bytes → Bytes) (parse256 parse64 : Bytes → Option Nat) (d : Document) :
    Outcome GenesisError (BlockHeader × Initialised) :=
  if !complete d then .err .incomplete
  else
    match d.config with
    | .object j text => do
      let c ← noThrow (ChainConfig.fromJson j)
      if c.isNone then .err .badConfig
      else do
        let (b, db) ← allocations parse256 {} d.alloc
        let h ← header parse256 parse64 d (b.stateRootHash keccak)
        let i ← write keccak h text db
        .ok (h, i)
    | _ => .err .incomplete

/-- db/silkworm/db/access_layer.cpp:488-505 (`read_chain_config`). `parseJson` is `nlohmann::json::parse`; what it cannot parse is
no object and has no members. -/
def readChainConfig (parseJson : Bytes → ChainConfig.JsonObject) (db : Database) : Outcome Empty (Option ChainConfig) :=
  match db.canonicalHashes.find (blockKey 0) with
  | none => .ok none
  | some e =>
    match db.config.find e.2 with
    | none => .ok none
    | some c => ChainConfig.fromJson (parseJson c.2)

end Silkworm.Genesis
