import Verif.Chain.Validity
import Verif.Spec.Verdict
import Verif.Spec.Block

/-!
# The chain rules of the protocol

Written from the Yellow Paper and the EIPs over unbounded integers, independently of the modelled code. Only the data
types (`ChainConfig`, `BlockHeader`, `Transaction`, `HeaderStore`, error codes) are shared.
-/

namespace Silkworm.Spec

/-! ## Forks -/

/-- The configured activation block of fork number `r ≥ 1` (1 = Homestead, …, 10 = Shanghai) has been reached. -/
def forkReached (c : ChainConfig) (r n : Nat) : Prop := ∃ b, c.forkBlocks[r - 1]? = some (some b) ∧ b ≤ n

/-- The rules of fork `r` are in force: it or a later fork has been reached. -/
def forkActive (c : ChainConfig) (r n : Nat) : Prop := ∃ r', r ≤ r' ∧ 1 ≤ r' ∧ forkReached c r' n

/-- A configuration as the C++ type can hold it. -/
def ConfigWF (c : ChainConfig) : Prop :=
  c.chainId < 2 ^ 64 ∧ c.forkBlocks.length = 10 ∧ (∀ b, some b ∈ c.forkBlocks → b < 2 ^ 64) ∧
  (∀ b, c.muirGlacierBlock = some b → b < 2 ^ 64) ∧ (∀ b, c.daoBlock = some b → b < 2 ^ 64)

/-- Forks happen in order and none is skipped. -/
def ConfigOrdered (c : ChainConfig) : Prop :=
  ∀ (i j : Nat) (b : Nat), i < j → c.forkBlocks[j]? = some (some b) → ∃ a, c.forkBlocks[i]? = some (some a) ∧ a ≤ b

/-! ## Intrinsic gas -/

/-- Cost of one byte of call data: EIP-2028 from Istanbul. -/
def dataByteGas (istanbul : Bool) (b : UInt8) : Nat := if b = 0 then 4 else if istanbul then 16 else 68

/-- `g_0` of the Yellow Paper with EIP-2 and EIP-2930. -/
def intrinsicGas (t : Transaction) (homestead istanbul : Bool) : Nat :=
  21000 + (if t.to = none ∧ homestead then 32000 else 0) + (t.data.map (dataByteGas istanbul)).sum +
    (t.accessList.map fun e => 2400 + 1900 * e.storageKeys.length).sum

/-! ## Difficulty -/

/-- The difficulty bomb `⌊2^(⌊n/100000⌋ - 2)⌋`. -/
def bomb (n : Nat) : Int := if n < 200000 then 0 else 2 ^ (n / 100000 - 2)

/-- Minimum difficulty. -/
def minDifficulty : Int := 131072

/-- The common shape: parent difficulty, adjusted by a multiple of `⌊parent/2048⌋`, plus the bomb, at least 131072. -/
def adjusted (parent factor epsilon : Int) : Int := max minDifficulty (parent + parent / 2048 * factor + epsilon)

/-- Frontier rule. -/
def difficultyFrontier (n parent : Nat) (elapsed : Nat) : Int := adjusted parent (if elapsed < 13 then 1 else -1) (bomb n)

/-- Homestead rule (EIP-2). -/
def difficultyHomestead (n parent : Nat) (elapsed : Nat) : Int :=
  adjusted parent (max (1 - (elapsed / 10 : Nat)) (-99)) (bomb n)

/-- Byzantium rule (EIP-100, EIP-649 and its successors): the bomb sees a block number lowered by `delay`. -/
def difficultyByzantium (n parent : Nat) (elapsed : Nat) (parentHasOmmers : Bool) (delay : Nat) : Int :=
  adjusted parent (max ((if parentHasOmmers then 2 else 1) - (elapsed / 9 : Nat)) (-99)) (bomb (n - delay))

open Classical in
/-- Bomb delays: EIP-649, EIP-1234, EIP-2384 (Muir Glacier), EIP-3554. -/
noncomputable def bombDelay (c : ChainConfig) (n : Nat) : Nat :=
  if forkActive c 9 n then 9700000
  else if ∃ b, c.muirGlacierBlock = some b ∧ b ≤ n then 9000000
  else if forkActive c 5 n then 5000000
  else 3000000

open Classical in
/-- Difficulty of block `n`, `elapsed` seconds after its parent. -/
noncomputable def difficulty (c : ChainConfig) (n parent elapsed : Nat) (parentHasOmmers : Bool) : Int :=
  if forkActive c 4 n then difficultyByzantium n parent elapsed parentHasOmmers (bombDelay c n)
  else if forkActive c 1 n then difficultyHomestead n parent elapsed
  else difficultyFrontier n parent elapsed

/-! ## Base fee (EIP-1559) -/

/-- The base fee of the child of a block with the given base fee, gas used and gas limit. -/
def nextBaseFee (fee gasUsed gasLimit : Nat) : Nat :=
  let target := gasLimit / 2
  if gasUsed = target then fee
  else if gasUsed > target then fee + max (fee * (gasUsed - target) / target / 8) 1
  else fee - fee * (target - gasUsed) / target / 8

/-- The block at which London activates. -/
def isLondonBlock (c : ChainConfig) (n : Nat) : Prop := c.forkBlocks[8]? = some (some n)

/-! ## Headers -/

/-- `p` is the parent of `h`: stored under the parent hash, one number below. -/
def IsParent (s : HeaderStore) (h p : BlockHeader) : Prop :=
  p.number + 1 = h.number ∧ s.readHeader p.number h.parentHash = some p

/-- The parent's gas limit as the child's rules see it: doubled at the London block (EIP-1559). -/
def ParentLimit (c : ChainConfig) (h p : BlockHeader) (limit : Nat) : Prop :=
  (isLondonBlock c h.number → limit = 2 * p.gasLimit) ∧ (¬ isLondonBlock c h.number → limit = p.gasLimit)

/-- The base fee field: absent before London, 10^9 at the London block, computed from the parent afterwards. -/
def BaseFeeRule (c : ChainConfig) (h p : BlockHeader) : Prop :=
  (¬ forkActive c 9 h.number → h.baseFeePerGas = none) ∧
  (forkActive c 9 h.number → isLondonBlock c h.number → h.baseFeePerGas = some 1000000000) ∧
  (forkActive c 9 h.number → ¬ isLondonBlock c h.number →
    ∃ fee, p.baseFeePerGas = some fee ∧ h.baseFeePerGas = some (nextBaseFee fee p.gasUsed p.gasLimit))

/-- "dao-hard-fork". -/
def daoExtraData : Bytes := "dao-hard-fork".toUTF8.toList

/-- The rules for a header, in the order in which they are checked. -/
def headerRules (sealOk : BlockHeader → Bool) (s : HeaderStore) (c : ChainConfig) (h : BlockHeader) :
    List (ValidationError × Prop) :=
  [(.gasAboveLimit, h.gasUsed ≤ h.gasLimit),
   (.invalidGasLimit, 5000 ≤ h.gasLimit),
   (.invalidGasLimit, h.gasLimit < 2 ^ 63),
   (.extraDataTooLong, h.extraData.length ≤ 32),
   (.unknownParent, ∃ p, IsParent s h p),
   (.invalidTimestamp, ∀ p, IsParent s h p → p.timestamp < h.timestamp),
   (.invalidGasLimit, ∀ p, IsParent s h p → ∀ limit, ParentLimit c h p limit →
      h.gasLimit < limit + limit / 1024 ∧ limit < h.gasLimit + limit / 1024),
   (.wrongDifficulty, ∀ p, IsParent s h p → (h.difficulty : Int) =
      difficulty c h.number p.difficulty (h.timestamp - p.timestamp) (decide (p.ommersHash ≠ kEmptyListHash))),
   (.wrongDaoExtraData, ∀ d, c.daoBlock = some d → d ≤ h.number → h.number < d + 10 → h.extraData = daoExtraData),
   (.wrongBaseFee, ∀ p, IsParent s h p → BaseFeeRule c h p),
   (.invalidSeal, c.sealEngine = .ethash → sealOk h = true)]

/-- What a header store must satisfy: headers are stored under their own number, and their fields are in the range of
their C++ types; gas limits and gas used are below `2^63` as for every accepted header, base fees below `2^192`. -/
def StoreWF (s : HeaderStore) : Prop :=
  ∀ n hash p, s.readHeader n hash = some p → p.number = n ∧ n + 1 < 2 ^ 64 ∧ p.gasLimit < 2 ^ 63 ∧ p.gasUsed < 2 ^ 63 ∧
    p.timestamp < 2 ^ 64 ∧ p.difficulty < 2 ^ 256 ∧ (∀ f, p.baseFeePerGas = some f → f < 2 ^ 192)

/-- Preconditions on the parent of `h`: the true difficulty of `h` fits 256 bits, and the parent has a base fee when
one is needed to compute that of `h`. -/
def ParentOk (s : HeaderStore) (c : ChainConfig) (h : BlockHeader) : Prop :=
  ∀ p, IsParent s h p →
    difficulty c h.number p.difficulty (h.timestamp - p.timestamp) (decide (p.ommersHash ≠ kEmptyListHash)) < 2 ^ 256 ∧
    (forkActive c 9 h.number → ¬ isLondonBlock c h.number → ∃ f, p.baseFeePerGas = some f)

/-! ## Transactions -/

/-- The signature is in range: `0 < r < n`, `0 < s < n`, and `s ≤ n/2` from Homestead (EIP-2); `n` is the group order. -/
def SignatureInRange (n r s : Nat) (homestead : Bool) : Prop :=
  0 < r ∧ r < n ∧ 0 < s ∧ s < n ∧ (homestead = true → s ≤ n / 2)

open Classical in
/-- The rules for a transaction that do not need the state, in the order in which they are checked. -/
noncomputable def transactionRules (groupOrder : Nat) (c : ChainConfig) (number : Nat) (baseFee : Option Nat) (t : Transaction) :
    List (ValidationError × Prop) :=
  [(.wrongChainId, ∀ id, t.chainId = some id → forkActive c 3 number ∧ id = c.chainId),
   (.unsupportedTransactionType, t.type = .eip2930 → forkActive c 8 number),
   (.unsupportedTransactionType, t.type = .eip1559 → forkActive c 9 number),
   (.maxFeeLessThanBase, ∀ fee, baseFee = some fee → fee ≤ t.maxFeePerGas),
   (.maxPriorityFeeGreaterThanMax, t.maxPriorityFeePerGas ≤ t.maxFeePerGas),
   (.invalidSignature, SignatureInRange groupOrder t.r t.s (decide (forkActive c 1 number))),
   (.intrinsicGas, intrinsicGas t (decide (forkActive c 1 number)) (decide (forkActive c 7 number)) ≤ t.gasLimit)]

/-- Sizes of a transaction that fits the address space. -/
def TxSizes (t : Transaction) : Prop :=
  t.data.length < 2 ^ 64 ∧ t.accessList.length < 2 ^ 64 ∧ (t.accessList.map fun e => e.storageKeys.length).sum < 2 ^ 64

/-! ## Ommers -/

/-- `m`, with hash `hash`, is the ancestor of a block with header `h` in generation `i` (1 = parent). -/
inductive Ancestor (s : HeaderStore) (h : BlockHeader) : Nat → BlockHeader → Bytes → Prop
  | parent {p : BlockHeader} : IsParent s h p → Ancestor s h 1 p h.parentHash
  | next {i : Nat} {m p : BlockHeader} {hash : Bytes} :
      Ancestor s h i m hash → IsParent s m p → Ancestor s h (i + 1) p m.parentHash

/-- The ommer `u` of a block with header `h` is kin: a sibling of an ancestor up to generation 6 and not an ancestor. -/
def Kin (s : HeaderStore) (h u : BlockHeader) : Prop :=
  (∃ i m hash p, 1 ≤ i ∧ i ≤ 6 ∧ Ancestor s h i m hash ∧ IsParent s m p ∧ IsParent s u p) ∧
  ∀ i m hash, Ancestor s h i m hash → u ≠ m

/-- `u` is listed as an ommer of an ancestor. -/
def OmmerOfAncestor (s : HeaderStore) (h u : BlockHeader) : Prop :=
  ∃ i m hash body, Ancestor s h i m hash ∧ s.readBody m.number hash = some body ∧ u ∈ body.ommers

/-- Bodies are stored for all stored headers within reach, and the ommers they list are older than the block. -/
def BodiesOk (s : HeaderStore) (h : BlockHeader) : Prop :=
  ∀ i m hash, Ancestor s h i m hash → ∃ body, s.readBody m.number hash = some body ∧ ∀ u ∈ body.ommers, u.number < m.number

/-! ## Blocks -/

/-- The rules for one ommer of a block with header `h`. -/
def ommerRules (sealOk : BlockHeader → Bool) (s : HeaderStore) (c : ChainConfig) (h u : BlockHeader) :
    List (ValidationError × Prop) :=
  [(.invalidOmmerHeader, ∀ r ∈ headerRules sealOk s c u, r.2),
   (.notAnOmmer, Kin s h u),
   (.duplicateOmmer, ¬ OmmerOfAncestor s h u)]

/-- The rules for a block before execution, in the order in which they are checked. `keccak` and `listRoot` (the trie
root of a list of values) are the two hash functions involved. -/
noncomputable def blockRules (keccak : Bytes → Bytes) (listRoot : List Bytes → Bytes) (groupOrder : Nat)
    (sealOk : BlockHeader → Bool) (s : HeaderStore) (c : ChainConfig) (b : Block) : List (ValidationError × Prop) :=
  headerRules sealOk s c b.header ++
  [(.wrongOmmersHash, keccak (rlp (.list (b.ommers.map headerItem))) = b.header.ommersHash),
   (.wrongTransactionsRoot, listRoot (b.transactions.map txEnvelope) = b.header.transactionsRoot),
   (.tooManyOmmers, b.ommers.length ≤ 2),
   (.duplicateOmmer, b.ommers.Nodup)] ++
  (b.ommers.flatMap (ommerRules sealOk s c b.header) ++
    b.transactions.flatMap (transactionRules groupOrder c b.header.number b.header.baseFeePerGas))

end Silkworm.Spec
