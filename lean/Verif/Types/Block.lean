import Verif.Types.Transaction

/-!
# Model of core/silkworm/types/block.{hpp,cpp}
-/

namespace Silkworm

open Rlp

/-- core/silkworm/types/block.hpp:36-61 (`BlockHeader`). -/
structure BlockHeader where
  parentHash : Bytes := List.replicate 32 0
  ommersHash : Bytes := List.replicate 32 0
  beneficiary : Bytes := List.replicate 20 0
  stateRoot : Bytes := List.replicate 32 0
  transactionsRoot : Bytes := List.replicate 32 0
  receiptsRoot : Bytes := List.replicate 32 0
  logsBloom : Bytes := List.replicate 256 0
  difficulty : Nat := 0
  number : Nat := 0
  gasLimit : Nat := 0
  gasUsed : Nat := 0
  timestamp : Nat := 0
  extraData : Bytes := []
  mixHash : Bytes := List.replicate 32 0
  nonce : Bytes := List.replicate 8 0
  baseFeePerGas : Option Nat := none
  deriving DecidableEq, Repr

/-- core/silkworm/types/block.hpp:67-70 (`BlockBody`). -/
structure BlockBody where
  transactions : List Transaction := []
  ommers : List BlockHeader := []
  deriving DecidableEq, Repr

/-- core/silkworm/types/block.hpp:76-80 (`Block`). -/
structure Block extends BlockBody where
  header : BlockHeader := {}
  deriving DecidableEq, Repr

namespace Rlp

/-- core/silkworm/types/block.cpp:54-77 (`rlp_header(BlockHeader, for_sealing)`). -/
def blockHeaderHeader (h : BlockHeader) (forSealing : Bool) : Header :=
  ⟨true,
    (32 + 1) + (32 + 1) + (20 + 1) + (32 + 1) + (32 + 1) + (32 + 1) + (256 + lengthOfLength 256) +
    lengthUint 32 h.difficulty + lengthUint 8 h.number + lengthUint 8 h.gasLimit + lengthUint 8 h.gasUsed +
    lengthUint 8 h.timestamp + lengthBytes h.extraData +
    (if !forSealing then (32 + 1) + (8 + 1) else 0) +
    (match h.baseFeePerGas with
      | some f => lengthUint 32 f
      | none => 0)⟩

/-- core/silkworm/types/block.cpp:79-82 (`length(BlockHeader)`). -/
def lengthBlockHeader (h : BlockHeader) : Nat :=
  let r := blockHeaderHeader h false
  lengthOfLength r.payloadLength + r.payloadLength

/-- core/silkworm/types/block.cpp:84-106 (`encode(BlockHeader, for_sealing)`). -/
def encodeBlockHeader (h : BlockHeader) (forSealing : Bool) : Bytes :=
  encodeHeader (blockHeaderHeader h forSealing) ++
  encodeArray h.parentHash ++ encodeArray h.ommersHash ++ encodeArray h.beneficiary ++ encodeArray h.stateRoot ++
  encodeArray h.transactionsRoot ++ encodeArray h.receiptsRoot ++ encodeBytes h.logsBloom ++
  encodeUint 32 h.difficulty ++ encodeUint 8 h.number ++ encodeUint 8 h.gasLimit ++ encodeUint 8 h.gasUsed ++
  encodeUint 8 h.timestamp ++ encodeBytes h.extraData ++
  (if !forSealing then encodeArray h.mixHash ++ encodeArray h.nonce else []) ++
  (match h.baseFeePerGas with
    | some f => encodeUint 32 f
    | none => [])

/-- core/silkworm/types/block.cpp:165-172: the optional base fee. -/
def decodeBaseFee (from_ : Bytes) (leftover : Nat) : Dec (Option Nat × Bytes) :=
  if from_.length > leftover then do
    let (f, from_) ← decodeUint 32 from_
    .ok (some f, from_)
  else .ok (none, from_)

/-- core/silkworm/types/block.cpp:108-175 (`decode<BlockHeader>`). Every field of the target is overwritten. -/
def decodeBlockHeader (from_ : Bytes) : Dec (BlockHeader × Bytes) := do
  let (h, from_) ← decodeHeader from_
  if !h.list then .err .unexpectedString
  else
    let leftover := from_.length - h.payloadLength
    let (parentHash, from_) ← decodeArray 32 from_
    let (ommersHash, from_) ← decodeArray 32 from_
    let (beneficiary, from_) ← decodeArray 20 from_
    let (stateRoot, from_) ← decodeArray 32 from_
    let (transactionsRoot, from_) ← decodeArray 32 from_
    let (receiptsRoot, from_) ← decodeArray 32 from_
    let (logsBloom, from_) ← decodeArray 256 from_
    let (difficulty, from_) ← decodeUint 32 from_
    let (number, from_) ← decodeUint 8 from_
    let (gasLimit, from_) ← decodeUint 8 from_
    let (gasUsed, from_) ← decodeUint 8 from_
    let (timestamp, from_) ← decodeUint 8 from_
    let (extraData, from_) ← decodeBytes from_
    let (mixHash, from_) ← decodeArray 32 from_
    let (nonce, from_) ← decodeArray 8 from_
    let (baseFee, from_) ← decodeBaseFee from_ leftover
    if from_.length = leftover then
      .ok ({ parentHash := parentHash, ommersHash := ommersHash, beneficiary := beneficiary, stateRoot := stateRoot,
             transactionsRoot := transactionsRoot, receiptsRoot := receiptsRoot, logsBloom := logsBloom,
             difficulty := difficulty, number := number, gasLimit := gasLimit, gasUsed := gasUsed,
             timestamp := timestamp, extraData := extraData, mixHash := mixHash, nonce := nonce,
             baseFeePerGas := baseFee }, from_)
    else .err .listLengthMismatch

/-- core/silkworm/types/block.cpp:177-184 (`encode(BlockBody)`). -/
def encodeBlockBody (b : BlockBody) : Bytes :=
  encodeHeader ⟨true, lengthVector lengthTransaction b.transactions + lengthVector lengthBlockHeader b.ommers⟩ ++
  encodeVector lengthTransaction encodeTransactionInBlock b.transactions ++
  encodeVector lengthBlockHeader (encodeBlockHeader · false) b.ommers

/-- core/silkworm/types/block.cpp:186-205 (`decode<BlockBody>`). -/
def decodeBlockBody (from_ : Bytes) : Dec (BlockBody × Bytes) := do
  let (h, from_) ← decodeHeader from_
  if !h.list then .err .unexpectedString
  else
    let leftover := from_.length - h.payloadLength
    let (transactions, from_) ← decodeVector decodeTransaction from_
    let (ommers, from_) ← decodeVector decodeBlockHeader from_
    if from_.length = leftover then .ok (⟨transactions, ommers⟩, from_) else .err .listLengthMismatch

/-- core/silkworm/types/block.cpp:207-229 (`decode<Block>`). -/
def decodeBlock (from_ : Bytes) : Dec (Block × Bytes) := do
  let (h, from_) ← decodeHeader from_
  if !h.list then .err .unexpectedString
  else
    let leftover := from_.length - h.payloadLength
    let (header, from_) ← decodeBlockHeader from_
    let (transactions, from_) ← decodeVector decodeTransaction from_
    let (ommers, from_) ← decodeVector decodeBlockHeader from_
    if from_.length = leftover then .ok (⟨⟨transactions, ommers⟩, header⟩, from_) else .err .listLengthMismatch

end Rlp

/-- core/silkworm/types/block.cpp:26-30 (`BlockHeader::hash`); Keccak-256 is a parameter. -/
def BlockHeader.hash (keccak : Bytes → Bytes) (h : BlockHeader) (forSealing : Bool := false) : Bytes :=
  keccak (Rlp.encodeBlockHeader h forSealing)

end Silkworm
