import Verif.State.IntraBlockState
import Verif.Types.Block
import Verif.Base.Outcome

/-!
# Model of core/silkworm/state/memory_buffer.{hpp,cpp}

Vectors indexed by block number are lists; nested hash maps are nested `AMap`s. `state_root_hash` is modelled in
Verif/Trie.
-/

namespace Silkworm

open State

/-- core/silkworm/state/memory_buffer.hpp:83-118: the fields. -/
structure MemoryBuffer where
  accounts : AMap Bytes Account := []
  code : AMap Bytes Bytes := []
  prevIncarnations : AMap Bytes Nat := []
  storage : AMap Bytes (AMap Nat (AMap Bytes Bytes)) := []
  headers : List (AMap Bytes BlockHeader) := []
  bodies : List (AMap Bytes BlockBody) := []
  difficulty : List (AMap Bytes Nat) := []
  canonicalHashes : List Bytes := []
  accountChanges : AMap Nat (AMap Bytes (Option Account)) := []
  storageChanges : AMap Nat (AMap Bytes (AMap Nat (AMap Bytes Bytes))) := []
  blockNumber : Nat := 0

namespace MemoryBuffer

/-- core/silkworm/state/memory_buffer.cpp:29-35. -/
def readAccount (b : MemoryBuffer) (address : Bytes) : Option Account := b.accounts.get? address

/-- core/silkworm/state/memory_buffer.cpp:37-43. -/
def readCode (b : MemoryBuffer) (codeHash : Bytes) : Bytes := (b.code.get? codeHash).getD []

/-- Lookup in a nested map (core/silkworm/state/memory_buffer.cpp:47-58). -/
def nestedGet? (m : AMap Bytes (AMap Nat (AMap Bytes Bytes))) (address : Bytes) (incarnation : Nat) (location : Bytes) :
    Option Bytes :=
  match m.get? address with
  | none => none
  | some m1 =>
    match m1.get? incarnation with
    | none => none
    | some m2 => m2.get? location

/-- core/silkworm/state/memory_buffer.cpp:45-60. -/
def readStorage (b : MemoryBuffer) (address : Bytes) (incarnation : Nat) (location : Bytes) : Bytes :=
  (nestedGet? b.storage address incarnation location).getD zero32

/-- core/silkworm/state/memory_buffer.cpp:62-68. -/
def previousIncarnation (b : MemoryBuffer) (address : Bytes) : Nat := (b.prevIncarnations.get? address).getD 0

/-- The readers used by `IntraBlockState`. -/
def reader (b : MemoryBuffer) : StateReader where
  readAccount := b.readAccount
  readCode := b.readCode
  readStorage := b.readStorage
  previousIncarnation := b.previousIncarnation

/-- `m[i].find(k)` guarded by the size (core/silkworm/state/memory_buffer.cpp:72-80, 85-93, 98-106). -/
def indexGet? {V : Type} (m : List (AMap Bytes V)) (i : Nat) (k : Bytes) : Option V :=
  match m[i]? with
  | none => none
  | some m1 => m1.get? k

/-- core/silkworm/state/memory_buffer.cpp:70-81. -/
def readHeader (b : MemoryBuffer) (blockNumber : Nat) (blockHash : Bytes) : Option BlockHeader :=
  indexGet? b.headers blockNumber blockHash

/-- core/silkworm/state/memory_buffer.cpp:83-94. -/
def readBody (b : MemoryBuffer) (blockNumber : Nat) (blockHash : Bytes) : Option BlockBody :=
  indexGet? b.bodies blockNumber blockHash

/-- core/silkworm/state/memory_buffer.cpp:96-107. -/
def totalDifficulty (b : MemoryBuffer) (blockNumber : Nat) (blockHash : Bytes) : Option Nat :=
  indexGet? b.difficulty blockNumber blockHash

/-- core/silkworm/state/memory_buffer.cpp:109; wraps when there is no canonical block. -/
def currentCanonicalBlock (b : MemoryBuffer) : Nat := (b.canonicalHashes.length + (2 ^ 64 - 1)) % 2 ^ 64

/-- core/silkworm/state/memory_buffer.cpp:111-117. -/
def canonicalHash (b : MemoryBuffer) (blockNumber : Nat) : Option Bytes := b.canonicalHashes[blockNumber]?

/-- `resize(n + 1)` if the vector is shorter (core/silkworm/state/memory_buffer.cpp:122-124); `n + 1` must not wrap. -/
def grow {V : Type} (m : List (AMap Bytes V)) (n : Nat) : List (AMap Bytes V) :=
  m ++ List.replicate (n + 1 - m.length) []

/-- `m[i][k] = v` on a vector of maps. -/
def indexSet {V : Type} (m : List (AMap Bytes V)) (i : Nat) (k : Bytes) (v : V) : List (AMap Bytes V) :=
  m.modify i (fun m1 => m1.set k v)

/-- core/silkworm/state/memory_buffer.cpp:131-140: the total difficulties. `difficulty_[n - 1][parent_hash]` adds an
entry with value 0 if there is none. -/
def insertDifficulty (m : List (AMap Bytes Nat)) (n : Nat) (parentHash hash : Bytes) (d : Nat) : List (AMap Bytes Nat) :=
  let m := grow m n
  if n = 0 then indexSet m n hash (d % 2 ^ 256)
  else
    let parent := (indexGet? m (n - 1) parentHash).getD 0
    indexSet (indexSet m (n - 1) parentHash parent) n hash ((parent + d) % 2 ^ 256)

/-- core/silkworm/state/memory_buffer.cpp:119-141 for block numbers below 2^64 - 1. -/
def insertBlock (b : MemoryBuffer) (block : Block) (hash : Bytes) : MemoryBuffer :=
  let n := block.header.number
  { b with
    headers := indexSet (grow b.headers n) n hash block.header
    bodies := indexSet (grow b.bodies n) n hash block.toBlockBody
    difficulty := insertDifficulty b.difficulty n block.header.parentHash hash block.header.difficulty }

/-- core/silkworm/state/memory_buffer.cpp:143-148. -/
def canonizeBlock (b : MemoryBuffer) (blockNumber : Nat) (blockHash : Bytes) : MemoryBuffer :=
  let hs := b.canonicalHashes ++ List.replicate (blockNumber + 1 - b.canonicalHashes.length) zero32
  { b with canonicalHashes := hs.set blockNumber blockHash }

/-- core/silkworm/state/memory_buffer.cpp:150. -/
def decanonizeBlock (b : MemoryBuffer) (blockNumber : Nat) : MemoryBuffer :=
  { b with canonicalHashes :=
      b.canonicalHashes.take blockNumber ++ List.replicate (blockNumber - b.canonicalHashes.length) zero32 }

/-- core/silkworm/state/memory_buffer.cpp:154-158. -/
def beginBlock (b : MemoryBuffer) (blockNumber : Nat) : MemoryBuffer :=
  { b with
    blockNumber := blockNumber
    accountChanges := b.accountChanges.erase blockNumber
    storageChanges := b.storageChanges.erase blockNumber }

/-- core/silkworm/state/memory_buffer.cpp:167-170: only an account that was there is remembered. -/
def notePrevious (m : AMap Bytes Nat) (address : Bytes) : Option Account → AMap Bytes Nat
  | none => m
  | some i => m.set address i.incarnation

/-- core/silkworm/state/memory_buffer.cpp:160-172. -/
def updateAccount (b : MemoryBuffer) (address : Bytes) (initial current : Option Account) : MemoryBuffer :=
  let changes := (b.accountChanges.get? b.blockNumber).getD []
  let b := { b with accountChanges := b.accountChanges.set b.blockNumber (changes.set address initial) }
  match current with
  | some c => { b with accounts := b.accounts.set address c }
  | none => { b with accounts := b.accounts.erase address
                     prevIncarnations := notePrevious b.prevIncarnations address initial }

/-- core/silkworm/state/memory_buffer.cpp:174-176. -/
def updateAccountCode (b : MemoryBuffer) (codeHash code : Bytes) : MemoryBuffer :=
  { b with code := b.code.set codeHash code }

/-- `m[address][incarnation][location] = value`. -/
def nestedSet (m : AMap Bytes (AMap Nat (AMap Bytes Bytes))) (address : Bytes) (incarnation : Nat) (location value : Bytes) :
    AMap Bytes (AMap Nat (AMap Bytes Bytes)) :=
  let m1 := (m.get? address).getD []
  let m2 := (m1.get? incarnation).getD []
  m.set address (m1.set incarnation (m2.set location value))

/-- `m[address][incarnation].erase(location)`. -/
def nestedErase (m : AMap Bytes (AMap Nat (AMap Bytes Bytes))) (address : Bytes) (incarnation : Nat) (location : Bytes) :
    AMap Bytes (AMap Nat (AMap Bytes Bytes)) :=
  let m1 := (m.get? address).getD []
  let m2 := (m1.get? incarnation).getD []
  m.set address (m1.set incarnation (m2.erase location))

/-- core/silkworm/state/memory_buffer.cpp:182-186, 201-205: zero values are not stored. -/
def storeValue (m : AMap Bytes (AMap Nat (AMap Bytes Bytes))) (address : Bytes) (incarnation : Nat)
    (location value : Bytes) : AMap Bytes (AMap Nat (AMap Bytes Bytes)) :=
  if value = zero32 then nestedErase m address incarnation location
  else nestedSet m address incarnation location value

/-- core/silkworm/state/memory_buffer.cpp:178-187. -/
def updateStorage (b : MemoryBuffer) (address : Bytes) (incarnation : Nat) (location initial current : Bytes) :
    MemoryBuffer :=
  let changes := (b.storageChanges.get? b.blockNumber).getD []
  { b with
    storageChanges := b.storageChanges.set b.blockNumber (nestedSet changes address incarnation location initial)
    storage := storeValue b.storage address incarnation location current }

/-- One call of `write_to_db`. -/
def apply (b : MemoryBuffer) : BufferCall → MemoryBuffer
  | .beginBlock n => b.beginBlock n
  | .updateAccount a i c => b.updateAccount a i c
  | .updateAccountCode _ _ h code => b.updateAccountCode h code
  | .updateStorage a n k i c => b.updateStorage a n k i c

/-- Calls in order. -/
def applyAll (b : MemoryBuffer) (calls : List BufferCall) : MemoryBuffer := calls.foldl apply b

/-- core/silkworm/state/memory_buffer.cpp:190-196. -/
def restoreAccount (m : AMap Bytes Account) (e : Bytes × Option Account) : AMap Bytes Account :=
  match e.2 with
  | some account => m.set e.1 account
  | none => m.erase e.1

/-- core/silkworm/state/memory_buffer.cpp:198-208: the entries of a nested map, in the order of iteration. -/
def nestedEntries (m : AMap Bytes (AMap Nat (AMap Bytes Bytes))) : List (Bytes × Nat × Bytes × Bytes) :=
  m.flatMap (fun e1 => e1.2.flatMap (fun e2 => e2.2.map (fun e3 => (e1.1, e2.1, e3.1, e3.2))))

/-- core/silkworm/state/memory_buffer.cpp:189-209. `account_changes_[n]` and `storage_changes_[n]` add empty entries
if there are none, which no reader can see; the model leaves them out. -/
def unwindStateChanges (b : MemoryBuffer) (blockNumber : Nat) : MemoryBuffer :=
  { b with
    accounts := ((b.accountChanges.get? blockNumber).getD []).foldl restoreAccount b.accounts
    storage := (nestedEntries ((b.storageChanges.get? blockNumber).getD [])).foldl
      (fun m e => storeValue m e.1 e.2.1 e.2.2.1 e.2.2.2) b.storage }

/-- core/silkworm/state/memory_buffer.cpp:211. -/
def numberOfAccounts (b : MemoryBuffer) : Nat := b.accounts.length

/-- core/silkworm/state/memory_buffer.cpp:213-224. -/
def storageSize (b : MemoryBuffer) (address : Bytes) (incarnation : Nat) : Nat :=
  match b.storage.get? address with
  | none => 0
  | some m1 =>
    match m1.get? incarnation with
    | none => 0
    | some m2 => m2.length

end MemoryBuffer

end Silkworm
