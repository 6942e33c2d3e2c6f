import Verif.Spec.Rlp
import Verif.Types.Transaction

/-!
# Specification of transaction serializations

EIP-155 (legacy), EIP-2930 (type 1), EIP-1559 (type 2), EIP-2718 (envelope), as RLP item trees.
-/

namespace Silkworm.Spec

open Silkworm

/-- EIP-2930: an access list entry is `[address, [storageKey, ...]]`. -/
def accessItem (e : AccessListEntry) : Item := .list [.str e.account, .list (e.storageKeys.map .str)]

/-- The recipient: 20 bytes, or the empty string for contract creation. -/
def toItem : Option Bytes → Item
  | some a => .str a
  | none => .str []

/-- EIP-155 `v`: `{0,1} + 27` without, `{0,1} + CHAIN_ID * 2 + 35` with a chain id. -/
def vValue (odd : Bool) : Option Nat → Nat
  | none => 27 + odd.toNat
  | some c => c * 2 + 35 + odd.toNat

/-- Yellow Paper, equation (15): the fields common to all forms of a legacy transaction. -/
def legacyCore (t : Transaction) : List Item :=
  [num t.nonce, num t.maxFeePerGas, num t.gasLimit, toItem t.to, num t.value, .str t.data]

/-- A signed legacy transaction. -/
def legacySigned (t : Transaction) : Item :=
  .list (legacyCore t ++ [num (vValue t.oddYParity t.chainId), num t.r, num t.s])

/-- The signing payload of a legacy transaction: six elements, or nine under EIP-155. -/
def legacyUnsigned (t : Transaction) : Item :=
  .list (legacyCore t ++ match t.chainId with
    | none => []
    | some c => [num c, num 0, num 0])

/-- EIP-2930: `[chainId, nonce, gasPrice, gasLimit, to, value, data, accessList]`;
EIP-1559: `[chain_id, nonce, max_priority_fee, max_fee, gas_limit, destination, amount, data, access_list]`. -/
def typedCore (t : Transaction) : List Item :=
  [num (t.chainId.getD 0), num t.nonce] ++
  (if t.type = .eip1559 then [num t.maxPriorityFeePerGas] else []) ++
  [num t.maxFeePerGas, num t.gasLimit, toItem t.to, num t.value, .str t.data, .list (t.accessList.map accessItem)]

/-- The signed payload of a typed transaction: the core followed by `signatureYParity, signatureR, signatureS`. -/
def typedSigned (t : Transaction) : Item := .list (typedCore t ++ [num t.oddYParity.toNat, num t.r, num t.s])

/-- EIP-2718 type number. -/
def typeNumber : TxType → UInt8
  | .legacy => 0
  | .eip2930 => 1
  | .eip1559 => 2

/-- EIP-2718 envelope `TransactionType || TransactionPayload`, or the legacy list. -/
def txEnvelope (t : Transaction) : Bytes :=
  match t.type with
  | .legacy => rlp (legacySigned t)
  | _ => typeNumber t.type :: rlp (typedSigned t)

/-- The bytes that are hashed and signed. -/
def txSigningPayload (t : Transaction) : Bytes :=
  match t.type with
  | .legacy => rlp (legacyUnsigned t)
  | _ => typeNumber t.type :: rlp (.list (typedCore t))

/-- Inside a block body a typed transaction is an RLP string holding its envelope. -/
def txInBlock (t : Transaction) : Bytes :=
  match t.type with
  | .legacy => rlp (legacySigned t)
  | _ => rlp (.str (txEnvelope t))

end Silkworm.Spec

namespace Silkworm

/-- Values a C++ `AccessListEntry` can hold. -/
structure AccessListEntry.WF (e : AccessListEntry) : Prop where
  account : e.account.length = 20
  keys : ∀ k ∈ e.storageKeys, k.length = 32

/-- Values a C++ `Transaction` can hold, apart from bounds on the sizes of `data` and `access_list`. -/
structure Transaction.WF (t : Transaction) : Prop where
  nonce : t.nonce < 2 ^ 64
  prio : t.maxPriorityFeePerGas < 2 ^ 256
  fee : t.maxFeePerGas < 2 ^ 256
  gas : t.gasLimit < 2 ^ 64
  to : ∀ a, t.to = some a → a.length = 20
  value : t.value < 2 ^ 256
  chain : ∀ c, t.chainId = some c → c < 2 ^ 256
  r : t.r < 2 ^ 256
  s : t.s < 2 ^ 256
  access : ∀ e ∈ t.accessList, e.WF

/-- Memory bound: call data and access list below `2^62` bytes. An entry of `k` storage keys takes at most
`40 + 33 * k` bytes. -/
structure Transaction.Sized (t : Transaction) : Prop where
  data : t.data.length < 2 ^ 62
  access : (t.accessList.map (fun e => 40 + 33 * e.storageKeys.length)).sum < 2 ^ 62

end Silkworm
