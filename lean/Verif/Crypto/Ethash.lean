import Verif.Crypto.Keccak
import Verif.Base.Outcome
import Verif.Types.Block

/-!
# Model of ethash/ethash/ethash.cpp

`uint32_t` and `uint64_t` are numbers with the reductions written out. A `hash256`, `hash512` or `hash1024` is its bytes; the words of
the union are read from them and written to them, on a little-endian machine, so that `le::uint32s` (hash_types.hpp:50-57) changes
nothing. Division by zero and access outside of an array are undefined. The alternative for arrays of machines with other byte
orders is left out.
-/

namespace Silkworm.Ethash

open Keccak (keccak256 keccak512)

/-- Undefined behaviour is all that can go wrong. -/
inductive Fault
  deriving DecidableEq

/-- ethash/ethash/hash_types.hpp:20-46: the words of `n` bytes of a hash. -/
def words (n : Nat) (b : Bytes) : List Nat := (List.range (b.length / n)).map (fun i => beToNat ((b.drop (n * i)).take n).reverse)

/-- The hash that has these words. -/
def ofWords (n : Nat) (ws : List Nat) : Bytes := ws.flatMap (fun w => (beFixed n w).reverse)

/-- `a % b` -/
def remainder (a b : Nat) : Outcome Fault Nat := if b = 0 then .ub else .ok (a % b)

/-- `items[i]` -/
def itemAt (items : List Bytes) (i : Nat) : Outcome Fault Bytes :=
  match items[i]? with
  | some x => .ok x
  | none => .ub

/-- ethash/ethash/ethash.hpp:33. -/
def fnvPrime : Nat := 0x01000193

/-- ethash/ethash/ethash.cpp:19 (`fnv1`). -/
def fnv1 (u v : Nat) : Nat := u * fnvPrime % 2 ^ 32 ^^^ v

/-- ethash/ethash/ethash.cpp:20-26 (`fnv1_512`). -/
def fnv1_512 (a b : Bytes) : Bytes := ofWords 4 (List.zipWith fnv1 (words 4 a) (words 4 b))

/-- ethash/ethash/ethash.cpp:27-33 (`xor_512`). -/
def xor512 (x y : Bytes) : Bytes := ofWords 8 (List.zipWith (· ^^^ ·) (words 8 x) (words 8 y))

/-- ethash/ethash/ethash.hpp:36-41 (`epoch_context`). -/
structure Context where
  epochNumber : Nat
  cacheItems : Nat
  datasetItems : Nat
  cache : List Bytes
  deriving DecidableEq

/-- ethash/ethash/ethash.cpp:35-40 (`item_state`): `seed` and `mix`; the other members are those of the context. -/
structure Item where
  seed : Nat
  mix : Bytes
  deriving DecidableEq

/-- ethash/ethash/ethash.cpp:42-47 (`item_state::item_state`). -/
def Item.init (c : Context) (index : Nat) : Outcome Fault Item := do
  let i ← remainder index c.cacheItems
  let mix ← itemAt c.cache i
  let ws := words 4 mix
  .ok ⟨index, keccak512 (ofWords 4 (ws.set 0 (ws.getD 0 0 ^^^ index)))⟩

/-- ethash/ethash/ethash.cpp:49-54 (`item_state::update`). -/
def Item.update (c : Context) (s : Item) (round : Nat) : Outcome Fault Item := do
  let t := fnv1 (s.seed ^^^ round) ((words 4 s.mix).getD (round % 16) 0)
  let parent ← remainder t c.cacheItems
  let p ← itemAt c.cache parent
  .ok { s with mix := fnv1_512 s.mix p }

/-- ethash/ethash/ethash.cpp:56 (`item_state::final`). -/
def Item.final (s : Item) : Bytes := keccak512 s.mix

/-- ethash/ethash/ethash.cpp:71-74: the loop over the parents, from `round` on; `n` rounds remain. -/
def parentLoop (c : Context) : Nat → Nat → Item → Item → Outcome Fault (Item × Item)
  | 0, _, a, b => .ok (a, b)
  | n + 1, round, a, b => do
    let a ← a.update c round
    let b ← b.update c round
    parentLoop c n (round + 1) a b

/-- ethash/ethash/ethash.cpp:67-77 (`calculate_dataset_item_1024`). -/
def datasetItem (c : Context) (index : Nat) : Outcome Fault Bytes := do
  let a ← Item.init c (index * 2 % 2 ^ 32)
  let b ← Item.init c ((index * 2 + 1) % 2 ^ 32)
  let p ← parentLoop c 256 0 a b
  .ok (p.1.final ++ p.2.final)

/-- ethash/ethash/ethash.cpp:82-85: the first loop; `n` items remain. The assignment is undefined outside of the array. -/
def firstLoop (hash : Bytes → Bytes) : Nat → Nat → Bytes → List Bytes → Outcome Fault (List Bytes)
  | 0, _, _, cache => .ok cache
  | n + 1, i, item, cache =>
    let item := hash item
    if i < cache.length then firstLoop hash n (i + 1) item (cache.set i item) else .ub

/-- ethash/ethash/ethash.cpp:89-97: what is done with item `i`. -/
def mixItem (hash : Bytes → Bytes) (num : Nat) (cache : List Bytes) (i : Nat) : Outcome Fault (List Bytes) := do
  let item ← itemAt cache i
  let v ← remainder ((words 4 item).getD 0 0) num
  let w ← remainder ((num + (i + 2 ^ 32 - 1) % 2 ^ 32) % 2 ^ 32) num
  let a ← itemAt cache v
  let b ← itemAt cache w
  .ok (cache.set i (hash (xor512 a b)))

/-- ethash/ethash/ethash.cpp:88-97: the items from `i` on; `n` remain. -/
def mixLoop (hash : Bytes → Bytes) (num : Nat) : Nat → Nat → List Bytes → Outcome Fault (List Bytes)
  | 0, _, cache => .ok cache
  | n + 1, i, cache => do
    let cache ← mixItem hash num cache i
    mixLoop hash num n (i + 1) cache

/-- ethash/ethash/ethash.cpp:87-98: the rounds. -/
def mixRounds (hash : Bytes → Bytes) (num : Nat) : Nat → List Bytes → Outcome Fault (List Bytes)
  | 0, cache => .ok cache
  | n + 1, cache => do
    let cache ← mixLoop hash num num 0 cache
    mixRounds hash num n cache

/-- ethash/ethash/ethash.cpp:79-99 (`build_light_cache`), on memory that was cleared (line 151). -/
def buildLightCache (hash : Bytes → Bytes) (num : Nat) (seed : Bytes) : Outcome Fault (List Bytes) := do
  let item := hash seed
  let cache := List.replicate num (List.replicate 64 0)
  if cache.length = 0 then .ub
  else
    let cache ← firstLoop hash (num - 1) 1 item (cache.set 0 item)
    mixRounds hash num 3 cache

/-- ethash/ethash/ethash.cpp:101-107 (`hash_seed`). -/
def hashSeed (header : Bytes) (nonce : Nat) : Bytes := keccak512 (header ++ (beFixed 8 nonce).reverse)

/-- ethash/ethash/ethash.cpp:116-121: the accesses to the dataset, from `i` on; `n` remain. -/
def accessLoop (c : Context) (seedInit : Nat) : Nat → Nat → Bytes → Outcome Fault Bytes
  | 0, _, mix => .ok mix
  | n + 1, i, mix => do
    let p ← remainder (fnv1 (i ^^^ seedInit) ((words 4 mix).getD (i % 32) 0)) c.datasetItems
    let data ← datasetItem c p
    accessLoop c seedInit n (i + 1) (ofWords 4 (List.zipWith fnv1 (words 4 mix) (words 4 data)))

/-- ethash/ethash/ethash.cpp:123-129: four words become one. -/
def compress (ws : List Nat) : List Nat :=
  (List.range 8).map (fun k =>
    let h1 := fnv1 (ws.getD (4 * k) 0) (ws.getD (4 * k + 1) 0)
    let h2 := fnv1 h1 (ws.getD (4 * k + 2) 0)
    fnv1 h2 (ws.getD (4 * k + 3) 0))

/-- ethash/ethash/ethash.cpp:109-132 (`hash_mix`). -/
def hashMix (c : Context) (seed : Bytes) : Outcome Fault Bytes := do
  let mix ← accessLoop c ((words 4 seed).getD 0 0) 64 0 (seed ++ seed)
  .ok (ofWords 4 (compress (words 4 mix)))

/-- ethash/ethash/ethash.cpp:134-139 (`hash_final`). -/
def hashFinal (seed mix : Bytes) : Bytes := keccak256 (seed ++ mix)

/-- ethash/ethash/ethash.cpp:173-189 (`is_unsigned_odd_prime`): the loop from `d` on. -/
def noFactor (number : Nat) : Nat → Nat → Bool
  | 0, _ => true
  | fuel + 1, d => if d * d ≤ number then (if number % d = 0 then false else noFactor number fuel (d + 2)) else true

/-- ethash/ethash/ethash.cpp:173-189 (`is_unsigned_odd_prime`). -/
def isOddPrime (number : Nat) : Bool := if number % 2 = 0 then false else noFactor number number 3

/-- ethash/ethash/ethash.cpp:199-203: the loop down from `n`. -/
def descend : Nat → Nat → Nat
  | 0, n => n
  | fuel + 1, n => if isOddPrime n then n else descend fuel ((n + 2 ^ 32 - 2) % 2 ^ 32)

/-- ethash/ethash/ethash.cpp:191-204 (`find_largest_unsigned_prime`). -/
def findLargestPrime (bound : Nat) : Nat :=
  if bound < 2 then 0 else descend bound (if bound % 2 = 1 then bound else bound - 1)

/-- ethash/ethash/ethash.cpp:206-216 (`calculate_light_cache_num_items`). -/
def lightCacheNumItems (epoch : Nat) : Nat := findLargestPrime ((2 ^ 24 / 64 + epoch * (2 ^ 17 / 64) % 2 ^ 32) % 2 ^ 32)

/-- ethash/ethash/ethash.cpp:218-228 (`calculate_full_dataset_num_items`). -/
def fullDatasetNumItems (epoch : Nat) : Nat := findLargestPrime ((2 ^ 30 / 128 + epoch * (2 ^ 23 / 128) % 2 ^ 32) % 2 ^ 32)

/-- ethash/ethash/ethash.cpp:230-236 (`calculate_seed_from_epoch`). -/
def seedFromEpoch (epoch : Nat) : Bytes := Nat.repeat keccak256 epoch (List.replicate 32 0)

/-- The static variables of `calculate_epoch_from_seed` (lines 240-241). -/
structure SeedCache where
  epoch : Option Nat := none
  seed : Bytes := List.replicate 32 0
  deriving DecidableEq

/-- ethash/ethash/ethash.cpp:258-270: the search, at epoch `i`; `n` tries remain. -/
def searchSeed (keccak : Bytes → Bytes) (seed : Bytes) : Nat → Nat → Bytes → Option Nat × SeedCache
  | 0, _, s => (none, ⟨none, s⟩)
  | n + 1, i, s => if s = seed then (some i, ⟨some i, s⟩) else searchSeed keccak seed n (i + 1) (keccak s)

/-- ethash/ethash/ethash.cpp:238-271 (`calculate_epoch_from_seed`). -/
def epochFromSeed (keccak : Bytes → Bytes) (c : SeedCache) (seed : Bytes) : Option Nat × SeedCache :=
  match c.epoch with
  | some e =>
    if seed = c.seed then (some e, c)
    else if keccak c.seed = seed then (some ((e + 1) % 2 ^ 32), ⟨some ((e + 1) % 2 ^ 32), keccak c.seed⟩)
    else searchSeed keccak seed 30000 0 (List.replicate 32 0)
  | none => searchSeed keccak seed 30000 0 (List.replicate 32 0)

/-- ethash/ethash/ethash.cpp:141-163 (`create_epoch_context`): no context without memory. -/
def createEpochContext (memory : Bool) (epoch : Nat) : Outcome Fault (Option Context) :=
  if !memory then .ok none
  else do
    let cache ← buildLightCache keccak512 (lightCacheNumItems epoch) (seedFromEpoch epoch)
    .ok (some ⟨epoch, lightCacheNumItems epoch, fullDatasetNumItems epoch, cache⟩)

/-- ethash/ethash/ethash.cpp:273-277 (`hash`): the final hash and the mix hash. -/
def hash (c : Context) (header : Bytes) (nonce : Nat) : Outcome Fault (Bytes × Bytes) := do
  let mix ← hashMix c (hashSeed header nonce)
  .ok (hashFinal (hashSeed header nonce) mix, mix)

/-- ethash/ethash/hash_types.hpp:93-99 (`is_less_or_equal`): the loop over words, which `be::uint64` makes big-endian numbers. -/
def isLessOrEqual : List Nat → List Nat → Bool
  | a :: as, b :: bs => if a > b then false else if a < b then true else isLessOrEqual as bs
  | _, _ => true

/-- The words of a hash as big-endian numbers. -/
def beWords (b : Bytes) : List Nat := (List.range (b.length / 8)).map (fun i => beToNat ((b.drop (8 * i)).take 8))

/-- ethash/ethash/ethash.hpp:49-53 (`VerificationResult`). -/
inductive Verdict
  | ok
  | invalidNonce
  | invalidMixHash
  deriving DecidableEq, Repr

/-- ethash/ethash/ethash.cpp:279-284 (`verify_light`). -/
def verifyLight (header mixHash : Bytes) (nonce : Nat) (boundary : Bytes) : Bool :=
  isLessOrEqual (beWords (hashFinal (hashSeed header nonce) mixHash)) (beWords boundary)

/-- ethash/ethash/ethash.cpp:286-298 (`verify_full`). -/
def verifyFull (c : Context) (header mixHash : Bytes) (nonce : Nat) (boundary : Bytes) : Outcome Fault Verdict :=
  if !isLessOrEqual (beWords (hashFinal (hashSeed header nonce) mixHash)) (beWords boundary) then .ok .invalidNonce
  else do
    let expected ← hashMix c (hashSeed header nonce)
    if mixHash = expected then .ok .ok else .ok .invalidMixHash

/-- ethash/ethash/ethash.cpp:303-307: the context of the epoch, which is kept in a static variable. -/
def epochContext (memory : Bool) (kept : Option Context) (epoch : Nat) : Outcome Fault (Option Context) :=
  match kept with
  | some c => if c.epochNumber = epoch then .ok (some c) else createEpochContext memory epoch
  | none => createEpochContext memory epoch

/-- ethash/ethash/ethash.cpp:300-309 (`verify_full` of a block): the verdict and the context that is kept. There is no context to
refer to if there was no memory. -/
def verifyBlock (memory : Bool) (kept : Option Context) (number : Nat) (header mixHash : Bytes) (nonce : Nat) (boundary : Bytes) :
    Outcome Fault (Verdict × Option Context) := do
  let kept ← epochContext memory kept (number / 30000 % 2 ^ 32)
  match kept with
  | none => .ub
  | some c =>
    let v ← verifyFull c header mixHash nonce boundary
    .ok (v, some c)

/-- ethash/ethash/ethash.cpp:315-328 (`get_boundary_from_diff`). All bytes of the dividend are alike. -/
def boundaryFromDifficulty (difficulty : Nat) : Bytes :=
  if difficulty > 1 then beFixed 32 ((2 ^ 256 - 1) / difficulty) else (beFixed 32 (2 ^ 256 - 1)).reverse

/-- core/silkworm/chain/validity.cpp:179-189: the check of the seal of a header. -/
def sealVerdict (memory : Bool) (kept : Option Context) (h : BlockHeader) : Outcome Fault (Verdict × Option Context) :=
  verifyBlock memory kept h.number (h.hash keccak256 true) h.mixHash (beToNat h.nonce) (boundaryFromDifficulty h.difficulty)

end Silkworm.Ethash
