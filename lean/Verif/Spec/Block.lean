import Verif.Spec.Transaction
import Verif.Types.Block

/-!
# Specification of header, body and block serializations (Yellow Paper 4.3, EIP-1559)
-/

namespace Silkworm.Spec

open Silkworm

/-- EIP-1559: the base fee is a trailing item, present from London on. -/
def feeItems : Option Nat → List Item
  | some f => [num f]
  | none => []

/-- YP equation (40): header items; the seal covers all but mix hash and nonce; EIP-1559 appends the base fee. -/
def headerItems (h : BlockHeader) (forSealing : Bool) : List Item :=
  [.str h.parentHash, .str h.ommersHash, .str h.beneficiary, .str h.stateRoot, .str h.transactionsRoot,
   .str h.receiptsRoot, .str h.logsBloom, num h.difficulty, num h.number, num h.gasLimit, num h.gasUsed,
   num h.timestamp, .str h.extraData] ++
  (if forSealing then [] else [.str h.mixHash, .str h.nonce]) ++
  feeItems h.baseFeePerGas

/-- A block header. -/
def headerItem (h : BlockHeader) : Item := .list (headerItems h false)

/-- A transaction inside a body: a list (legacy) or a string holding the EIP-2718 envelope. -/
def txItem (t : Transaction) : Item :=
  match t.type with
  | .legacy => legacySigned t
  | _ => .str (txEnvelope t)

/-- YP (34): a body is `[transactions, ommers]`. -/
def bodyItem (b : BlockBody) : Item := .list [.list (b.transactions.map txItem), .list (b.ommers.map headerItem)]

/-- YP (34): a block is `[header, transactions, ommers]`. -/
def blockItem (b : Block) : Item :=
  .list [headerItem b.header, .list (b.transactions.map txItem), .list (b.ommers.map headerItem)]

end Silkworm.Spec

namespace Silkworm

/-- Values a C++ `BlockHeader` can hold. -/
structure BlockHeader.WF (h : BlockHeader) : Prop where
  parentHash : h.parentHash.length = 32
  ommersHash : h.ommersHash.length = 32
  beneficiary : h.beneficiary.length = 20
  stateRoot : h.stateRoot.length = 32
  transactionsRoot : h.transactionsRoot.length = 32
  receiptsRoot : h.receiptsRoot.length = 32
  logsBloom : h.logsBloom.length = 256
  difficulty : h.difficulty < 2 ^ 256
  number : h.number < 2 ^ 64
  gasLimit : h.gasLimit < 2 ^ 64
  gasUsed : h.gasUsed < 2 ^ 64
  timestamp : h.timestamp < 2 ^ 64
  extraData : h.extraData.length < 2 ^ 63
  mixHash : h.mixHash.length = 32
  nonce : h.nonce.length = 8
  baseFee : ∀ f, h.baseFeePerGas = some f → f < 2 ^ 256

/-- Transactions that round-trip (C09, C10): field ranges, sizes, and the fields that are not transmitted have the
values the decoder gives them. -/
structure Transaction.Codable (t : Transaction) : Prop where
  wf : t.WF
  sized : t.Sized
  prio : t.type ≠ .eip1559 → t.maxPriorityFeePerGas = t.maxFeePerGas
  access : t.type = .legacy → t.accessList = []
  chain : t.type ≠ .legacy → t.chainId.isSome
  v : t.type = .legacy → ∀ c, t.chainId = some c → 2 * c + 36 < 2 ^ 256

end Silkworm
