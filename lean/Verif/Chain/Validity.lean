import Verif.Chain.Difficulty
import Verif.Chain.IntrinsicGas
import Verif.Types.Account
import Verif.Types.Block

/-!
# Model of core/silkworm/chain/validity.{hpp,cpp}
-/

namespace Silkworm

open Rlp

/-- core/silkworm/chain/validity.hpp:28-78 (`ValidationResult`, without `kOk`). -/
inductive ValidationError where
  | wrongStateRoot | wrongOmmersHash | wrongTransactionsRoot | wrongReceiptsRoot | wrongLogsBloom
  | unknownParent | wrongDifficulty | gasAboveLimit | invalidGasLimit | invalidTimestamp | extraDataTooLong
  | wrongDaoExtraData | wrongBaseFee | invalidSeal
  | missingSender | wrongNonce | intrinsicGas | insufficientFunds | blockGasLimitExceeded | maxFeeLessThanBase
  | maxPriorityFeeGreaterThanMax
  | tooManyOmmers | invalidOmmerHeader | notAnOmmer | duplicateOmmer
  | wrongBlockGas | invalidSignature | wrongChainId | unsupportedTransactionType
  deriving DecidableEq, Repr

/-- `ValidationResult`: `kOk` is `ok ()`. -/
abbrev Validation := Outcome ValidationError Unit

/-- core/silkworm/chain/validity.cpp:32-73 (`pre_validate_transaction`). The branch for unknown types (50-52) cannot be
reached with the enumeration. -/
def preValidateTransaction (t : Transaction) (blockNumber : Nat) (config : ChainConfig) (baseFee : Option Nat) :
    Validation :=
  let rev := config.revision blockNumber
  if t.chainId.isSome ∧ (rev < Revision.spuriousDragon ∨ t.chainId ≠ some config.chainId) then .err .wrongChainId
  else if t.type = .eip2930 ∧ rev < Revision.berlin then .err .unsupportedTransactionType
  else if t.type = .eip1559 ∧ rev < Revision.london then .err .unsupportedTransactionType
  else if baseFee.isSome ∧ t.maxFeePerGas < baseFee.getD 0 then .err .maxFeeLessThanBase
  else if t.maxPriorityFeePerGas > t.maxFeePerGas then .err .maxPriorityFeeGreaterThanMax
  else if Ecdsa.isValidSignature t.r t.s (decide (rev ≥ Revision.homestead)) = false then .err .invalidSignature
  else if t.gasLimit < intrinsicGas t (decide (rev ≥ Revision.homestead)) (decide (rev ≥ Revision.istanbul)) then
    .err .intrinsicGas
  else .ok ()

/-- The readers of core/silkworm/state/buffer.hpp:50-56 used by validation. -/
structure HeaderStore where
  /-- `StateBuffer::read_header`. -/
  readHeader : Nat → Bytes → Option BlockHeader
  /-- `StateBuffer::read_body`. -/
  readBody : Nat → Bytes → Option BlockBody

/-- core/silkworm/chain/validity.cpp:75-77 (`get_parent`); `header.number - 1` wraps for the genesis block. -/
def getParent (s : HeaderStore) (header : BlockHeader) : Option BlockHeader :=
  s.readHeader (sub64 header.number 1) header.parentHash

/-- core/silkworm/chain/protocol_param.hpp:68 (`kInitialBaseFee`). -/
def kInitialBaseFee : Nat := 1000000000
/-- core/silkworm/chain/protocol_param.hpp:69 (`kBaseFeeMaxChangeDenominator`). -/
def kBaseFeeMaxChangeDenominator : Nat := 8
/-- core/silkworm/chain/protocol_param.hpp:70 (`kElasticityMultiplier`). -/
def kElasticityMultiplier : Nat := 2

/-- core/silkworm/chain/validity.cpp:79-117 (`expected_base_fee_per_gas`). The failed assertion (92) and division by a
zero gas target (101, 109) are undefined behaviour. -/
def expectedBaseFeePerGas (header parent : BlockHeader) (config : ChainConfig) : Outcome ValidationError (Option Nat) :=
  if config.revision header.number < Revision.london then .ok none
  else if some header.number = config.revisionBlock Revision.london then .ok (some kInitialBaseFee)
  else
    let target := parent.gasLimit / kElasticityMultiplier
    match parent.baseFeePerGas with
    | none => .ub
    | some parentBaseFee =>
      if parent.gasUsed = target then .ok (some parentBaseFee)
      else if target = 0 then .ub
      else if parent.gasUsed > target then
        let delta := mul256 parentBaseFee (parent.gasUsed - target) / target / kBaseFeeMaxChangeDenominator
        let delta := if delta < 1 then 1 else delta
        .ok (some (add256 parentBaseFee delta))
      else
        let delta := mul256 parentBaseFee (target - parent.gasUsed) / target / kBaseFeeMaxChangeDenominator
        if parentBaseFee > delta then .ok (some (parentBaseFee - delta)) else .ok (some 0)

/-- core/silkworm/chain/validity.cpp:167 (`kDaoExtraData`): "dao-hard-fork". -/
def kDaoExtraData : Bytes := [0x64, 0x61, 0x6f, 0x2d, 0x68, 0x61, 0x72, 0x64, 0x2d, 0x66, 0x6f, 0x72, 0x6b]

/-- core/silkworm/chain/validity.cpp:147-153: distance of the gas limit from the parent's (twice the parent's at the
London block, in 64 bits). -/
def gasLimitOk (header parent : BlockHeader) (config : ChainConfig) : Bool :=
  let parentGasLimit :=
    if some header.number = config.revisionBlock Revision.london then (parent.gasLimit * kElasticityMultiplier) % 2 ^ 64
    else parent.gasLimit
  let gasDelta :=
    if header.gasLimit > parentGasLimit then header.gasLimit - parentGasLimit else parentGasLimit - header.gasLimit
  decide (gasDelta < parentGasLimit / 1024)

/-- core/silkworm/chain/validity.cpp:166: the DAO range, `dao_block + 9` in 64 bits. -/
def inDaoRange (config : ChainConfig) (number : Nat) : Bool :=
  match config.daoBlock with
  | some d => decide (d ≤ number ∧ number ≤ (d + 9) % 2 ^ 64)
  | none => false

/-- core/silkworm/chain/validity.cpp:119-200 (`validate_block_header`). The Ethash check (178-197: boundary from the
difficulty, seal hash, mix hash, nonce) is the parameter `sealOk`. -/
def validateBlockHeader (sealOk : BlockHeader → Bool) (header : BlockHeader) (s : HeaderStore) (config : ChainConfig) :
    Validation :=
  if header.gasUsed > header.gasLimit then .err .gasAboveLimit
  else if header.gasLimit < 5000 then .err .invalidGasLimit
  else if header.gasLimit > 0x7fffffffffffffff then .err .invalidGasLimit
  else if header.extraData.length > 32 then .err .extraDataTooLong
  else
    match getParent s header with
    | none => .err .unknownParent
    | some parent =>
      if header.timestamp ≤ parent.timestamp then .err .invalidTimestamp
      else if gasLimitOk header parent config = false then .err .invalidGasLimit
      else if canonicalDifficulty header.number header.timestamp parent.difficulty parent.timestamp
          (decide (parent.ommersHash ≠ kEmptyListHash)) config ≠ header.difficulty then .err .wrongDifficulty
      else if inDaoRange config header.number = true ∧ header.extraData ≠ kDaoExtraData then .err .wrongDaoExtraData
      else do
        let fee ← expectedBaseFeePerGas header parent config
        if header.baseFeePerGas ≠ fee then .err .wrongBaseFee
        else if config.sealEngine = .ethash ∧ sealOk header = false then .err .invalidSeal
        else .ok ()

/-- core/silkworm/chain/validity.cpp:203-229 (`is_kin`); returns the verdict and what was appended to `old_ommers`. -/
def isKin (s : HeaderStore) (branch mainline : BlockHeader) (mainlineHash : Bytes) : Nat → Bool × List BlockHeader
  | 0 => (false, [])
  | n + 1 =>
    if branch = mainline then (false, [])
    else
      match s.readBody mainline.number mainlineHash with
      | none => (false, [])
      | some body =>
        match getParent s mainline with
        | none => (false, body.ommers)
        | some mainlineParent =>
          if getParent s branch = some mainlineParent then (true, body.ommers)
          else
            let r := isKin s branch mainlineParent mainline.parentHash n
            (r.1, body.ommers ++ r.2)

/-- core/silkworm/chain/validity.cpp:264-277: the loop over ommers. -/
def validateOmmers (sealOk : BlockHeader → Bool) (s : HeaderStore) (config : ChainConfig) (parent : Option BlockHeader)
    (parentHash : Bytes) : List BlockHeader → Validation
  | [] => .ok ()
  | ommer :: rest =>
    match validateBlockHeader sealOk ommer s config with
    | .ub => .ub
    | .err _ => .err .invalidOmmerHeader
    | .ok () =>
      match parent with
      | none => .ub
      | some p =>
        let r := isKin s ommer p parentHash 6
        if r.1 = false then .err .notAnOmmer
        else if r.2.contains ommer then .err .duplicateOmmer
        else validateOmmers sealOk s config parent parentHash rest

/-- core/silkworm/chain/validity.cpp:279-284: the loop over transactions. -/
def preValidateTransactions (blockNumber : Nat) (config : ChainConfig) (baseFee : Option Nat) :
    List Transaction → Validation
  | [] => .ok ()
  | t :: rest => do
    preValidateTransaction t blockNumber config baseFee
    preValidateTransactions blockNumber config baseFee rest

/-- core/silkworm/chain/validity.cpp:231-287 (`pre_validate_block`). Keccak-256 and the trie root of a list of encoded
values (`trie::root_hash`) are parameters. -/
def preValidateBlock (keccak : Bytes → Bytes) (listRoot : List Bytes → Bytes) (sealOk : BlockHeader → Bool)
    (block : Block) (s : HeaderStore) (config : ChainConfig) : Validation := do
  let header := block.header
  validateBlockHeader sealOk header s config
  if keccak (encodeVector lengthBlockHeader (encodeBlockHeader · false) block.ommers) ≠ header.ommersHash then
    .err .wrongOmmersHash
  else if listRoot (block.transactions.map (encodeTransaction · false false)) ≠ header.transactionsRoot then
    .err .wrongTransactionsRoot
  else if block.ommers.length > 2 then .err .tooManyOmmers
  else if block.ommers.length = 2 ∧ block.ommers[0]? = block.ommers[1]? then .err .duplicateOmmer
  else do
    validateOmmers sealOk s config (getParent s header) header.parentHash block.ommers
    preValidateTransactions header.number config header.baseFeePerGas block.transactions

end Silkworm
