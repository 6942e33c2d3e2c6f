import Verif.Rlp.CodecLemmas
import Verif.Crypto.Ecdsa

/-!
# Model of core/silkworm/types/transaction.{hpp,cpp}
-/

namespace Silkworm

open Rlp

/-- core/silkworm/types/transaction.hpp:31-34 (`AccessListEntry`). -/
structure AccessListEntry where
  account : Bytes
  storageKeys : List Bytes := []
  deriving DecidableEq, Repr

/-- core/silkworm/types/transaction.hpp:41-45 (`Transaction::Type`). Other byte values are rejected by the decoder
(transaction.cpp:351-353) before they are used. -/
inductive TxType where
  | legacy
  | eip2930
  | eip1559
  deriving DecidableEq, Repr

/-- core/silkworm/types/transaction.hpp:38-79 (`Transaction`). -/
structure Transaction where
  type : TxType := .legacy
  nonce : Nat := 0
  maxPriorityFeePerGas : Nat := 0
  maxFeePerGas : Nat := 0
  gasLimit : Nat := 0
  to : Option Bytes := none
  value : Nat := 0
  data : Bytes := []
  oddYParity : Bool := false
  chainId : Option Nat := none
  r : Nat := 0
  s : Nat := 0
  accessList : List AccessListEntry := []
  sender : Option Bytes := none
  deriving DecidableEq, Repr

namespace Transaction

/-- core/silkworm/types/transaction.cpp:34-40 (`operator==`): `from` is omitted. -/
def same (a b : Transaction) : Prop :=
  a.type = b.type ∧ a.nonce = b.nonce ∧ a.maxPriorityFeePerGas = b.maxPriorityFeePerGas ∧
  a.maxFeePerGas = b.maxFeePerGas ∧ a.gasLimit = b.gasLimit ∧ a.to = b.to ∧ a.value = b.value ∧
  a.data = b.data ∧ a.oddYParity = b.oddYParity ∧ a.chainId = b.chainId ∧ a.r = b.r ∧ a.s = b.s ∧
  a.accessList = b.accessList

/-- core/silkworm/types/transaction.cpp:43 (`v`). -/
def v (t : Transaction) : Nat := Ecdsa.yParityAndChainIdToV t.oddYParity t.chainId

end Transaction

namespace Rlp

/-- `rlp::length(evmc::bytes32)`, core/silkworm/rlp/encode.hpp:84. -/
def lengthBytes32 (_ : Bytes) : Nat := 33

/-- core/silkworm/types/transaction.cpp:54-58 (`rlp_header(AccessListEntry)`). -/
def accessListEntryHeader (e : AccessListEntry) : Header :=
  ⟨true, 20 + 1 + lengthVector lengthBytes32 e.storageKeys⟩

/-- core/silkworm/types/transaction.cpp:60-63 (`length(AccessListEntry)`). -/
def lengthAccessListEntry (e : AccessListEntry) : Nat :=
  let h := accessListEntryHeader e
  lengthOfLength h.payloadLength + h.payloadLength

/-- core/silkworm/types/transaction.cpp:65-69 (`encode(AccessListEntry)`). -/
def encodeAccessListEntry (e : AccessListEntry) : Bytes :=
  encodeHeader (accessListEntryHeader e) ++ encodeArray e.account ++
    encodeVector lengthBytes32 encodeArray e.storageKeys

/-- core/silkworm/types/transaction.cpp:71-90 (`decode<AccessListEntry>`). -/
def decodeAccessListEntry (from_ : Bytes) : Dec (AccessListEntry × Bytes) := do
  let (h, from_) ← decodeHeader from_
  if !h.list then .err .unexpectedString
  else
    let leftover := from_.length - h.payloadLength
    let (account, from_) ← decodeArray 20 from_
    let (storageKeys, from_) ← decodeVector (decodeArray 32) from_
    if from_.length = leftover then .ok (⟨account, storageKeys⟩, from_)
    else .err .listLengthMismatch

/-- core/silkworm/types/transaction.cpp:105: `txn.to ? (kAddressLength + 1) : 1`. -/
def lengthTo (to : Option Bytes) : Nat := if to.isSome then 20 + 1 else 1

/-- core/silkworm/types/transaction.cpp:146-150, 187-191. -/
def encodeTo (to : Option Bytes) : Bytes :=
  match to with
  | some a => encodeArray a
  | none => [0x80]

/-- core/silkworm/types/transaction.cpp:92-127 (`rlp_header(Transaction, for_signing)`). -/
def txHeader (t : Transaction) (forSigning : Bool) : Header :=
  ⟨true,
    (if t.type ≠ .legacy then lengthUint 32 (t.chainId.getD 0) else 0) +
    lengthUint 8 t.nonce +
    (if t.type = .eip1559 then lengthUint 32 t.maxPriorityFeePerGas else 0) +
    lengthUint 32 t.maxFeePerGas +
    lengthUint 8 t.gasLimit +
    lengthTo t.to +
    lengthUint 32 t.value +
    lengthBytes t.data +
    (if t.type ≠ .legacy then lengthVector lengthAccessListEntry t.accessList else 0) +
    (if !forSigning then
      (if t.type ≠ .legacy then lengthUint 8 (if t.oddYParity then 1 else 0) else lengthUint 32 t.v) +
      lengthUint 32 t.r + lengthUint 32 t.s
    else
      match t.type, t.chainId with
      | .legacy, some c => lengthUint 32 c + 2
      | _, _ => 0)⟩

/-- core/silkworm/types/transaction.cpp:129-138 (`length(Transaction)`). -/
def lengthTransaction (t : Transaction) : Nat :=
  let h := txHeader t false
  let rlpLen := lengthOfLength h.payloadLength + h.payloadLength
  if t.type ≠ .legacy then lengthOfLength (rlpLen + 1) + rlpLen + 1 else rlpLen

/-- core/silkworm/types/transaction.cpp:140-163 (`legacy_encode`). -/
def legacyEncode (t : Transaction) (forSigning : Bool) : Bytes :=
  encodeHeader (txHeader t forSigning) ++
  encodeUint 8 t.nonce ++ encodeUint 32 t.maxFeePerGas ++ encodeUint 8 t.gasLimit ++ encodeTo t.to ++
  encodeUint 32 t.value ++ encodeBytes t.data ++
  (if !forSigning then encodeUint 32 t.v ++ encodeUint 32 t.r ++ encodeUint 32 t.s
  else
    match t.chainId with
    | some c => encodeUint 32 c ++ encodeUint 8 0 ++ encodeUint 8 0
    | none => [])

/-- `static_cast<uint8_t>(txn.type)`, core/silkworm/types/transaction.hpp:41-45. -/
def typeByte : TxType → UInt8
  | .legacy => 0
  | .eip2930 => 1
  | .eip1559 => 2

/-- core/silkworm/types/transaction.cpp:165-201 (`eip2718_encode`). The assertion on the type (166) holds at the only
call site (207), where the type is not legacy. -/
def eip2718Encode (t : Transaction) (forSigning wrap : Bool) : Bytes :=
  let h := txHeader t forSigning
  (if wrap then
    let rlpLen := lengthOfLength h.payloadLength + h.payloadLength
    encodeHeader ⟨false, rlpLen + 1⟩
  else []) ++
  [typeByte t.type] ++
  encodeHeader h ++
  encodeUint 32 (t.chainId.getD 0) ++
  encodeUint 8 t.nonce ++
  (if t.type = .eip1559 then encodeUint 32 t.maxPriorityFeePerGas else []) ++
  encodeUint 32 t.maxFeePerGas ++ encodeUint 8 t.gasLimit ++ encodeTo t.to ++
  encodeUint 32 t.value ++ encodeBytes t.data ++
  encodeVector lengthAccessListEntry encodeAccessListEntry t.accessList ++
  (if !forSigning then encodeBool t.oddYParity ++ encodeUint 32 t.r ++ encodeUint 32 t.s else [])

/-- core/silkworm/types/transaction.cpp:203-209 (`encode(Transaction, for_signing, wrap_eip2718_into_array)`). -/
def encodeTransaction (t : Transaction) (forSigning wrap : Bool) : Bytes :=
  if t.type = .legacy then legacyEncode t forSigning else eip2718Encode t forSigning wrap

/-- core/silkworm/types/transaction.cpp:211-213 (`encode(Transaction)`): the form used inside block bodies. -/
def encodeTransactionInBlock (t : Transaction) : Bytes := encodeTransaction t false true

/-- core/silkworm/types/transaction.cpp:229-237, 296-304: `from[0]` is read without checking that the view is not
empty, which is undefined behaviour. -/
def decodeTo (from_ : Bytes) : Dec (Option Bytes × Bytes) := do
  let b ← byteAt from_ 0
  if b = 0x80 then
    let from_ ← removePrefix from_ 1
    .ok (none, from_)
  else
    let (a, from_) ← decodeArray 20 from_
    .ok (some a, from_)

/-- core/silkworm/types/transaction.cpp:215-260 (`legacy_decode`). `t0` is the previous content of the target: fields
not assigned (`type`, `access_list`, `from`) keep it. -/
def legacyDecode (t0 : Transaction) (from_ : Bytes) : Dec (Transaction × Bytes) := do
  let (nonce, from_) ← decodeUint 8 from_
  let (fee, from_) ← decodeUint 32 from_
  let (gasLimit, from_) ← decodeUint 8 from_
  let (to, from_) ← decodeTo from_
  let (value, from_) ← decodeUint 32 from_
  let (data, from_) ← decodeBytes from_
  let (v, from_) ← decodeUint 32 from_
  let y := Ecdsa.vToYParityAndChainId v
  let (r, from_) ← decodeUint 32 from_
  let (s, from_) ← decodeUint 32 from_
  .ok ({ t0 with nonce := nonce, maxPriorityFeePerGas := fee, maxFeePerGas := fee, gasLimit := gasLimit, to := to,
                 value := value, data := data, oddYParity := y.1, chainId := y.2, r := r, s := s }, from_)

/-- core/silkworm/types/transaction.cpp:286-290: the second fee field is read for EIP-1559 only. -/
def decodeMaxFee (type : TxType) (prio : Nat) (from_ : Bytes) : Dec (Nat × Bytes) :=
  if type = .eip2930 then .ok (prio, from_) else decodeUint 32 from_

/-- core/silkworm/types/transaction.cpp:262-326 (`eip2718_decode`). The payload length of the inner list header is
not used. -/
def eip2718Decode (t0 : Transaction) (from_ : Bytes) : Dec (Transaction × Bytes) := do
  let (h, from_) ← decodeHeader from_
  if !h.list then .err .unexpectedString
  else
    let (chainId, from_) ← decodeUint 32 from_
    let (nonce, from_) ← decodeUint 8 from_
    let (prio, from_) ← decodeUint 32 from_
    let (fee, from_) ← decodeMaxFee t0.type prio from_
    let (gasLimit, from_) ← decodeUint 8 from_
    let (to, from_) ← decodeTo from_
    let (value, from_) ← decodeUint 32 from_
    let (data, from_) ← decodeBytes from_
    let (accessList, from_) ← decodeVector decodeAccessListEntry from_
    let (odd, from_) ← decodeBool from_
    let (r, from_) ← decodeUint 32 from_
    let (s, from_) ← decodeUint 32 from_
    .ok ({ t0 with chainId := some chainId, nonce := nonce, maxPriorityFeePerGas := prio, maxFeePerGas := fee,
                   gasLimit := gasLimit, to := to, value := value, data := data, accessList := accessList,
                   oddYParity := odd, r := r, s := s }, from_)

/-- core/silkworm/types/transaction.cpp:348-353: the type byte. -/
def txTypeOfByte (b : UInt8) : Dec TxType :=
  if b = 1 then .ok .eip2930 else if b = 2 then .ok .eip1559 else .err .unsupportedTransactionType

/-- core/silkworm/types/transaction.cpp:328-367 (`decode<Transaction>`) into an object with previous content `t0`. -/
def decodeTransactionInto (t0 : Transaction) (from_ : Bytes) : Dec (Transaction × Bytes) := do
  let (h, from_) ← decodeHeader from_
  if h.list then
    let leftover := from_.length - h.payloadLength
    let (t, from_) ← legacyDecode { t0 with type := .legacy } from_
    if from_.length = leftover then .ok (t, from_) else .err .listLengthMismatch
  else if h.payloadLength = 0 then .err .inputTooShort
  else
    let b ← byteAt from_ 0
    let from_ ← removePrefix from_ 1
    let type ← txTypeOfByte b
    let view := from_.take (h.payloadLength - 1)
    let (t, view) ← eip2718Decode { t0 with type := type } view
    if view ≠ [] then .err .listLengthMismatch
    else
      let from_ ← removePrefix from_ (h.payloadLength - 1)
      .ok (t, from_)

/-- `decode<Transaction>` into a default-constructed object, as `decode_vector` does (decode.hpp:116-117). -/
def decodeTransaction (from_ : Bytes) : Dec (Transaction × Bytes) := decodeTransactionInto {} from_

end Rlp

namespace Transaction

/-- core/silkworm/types/transaction.cpp:371-388 (`recover_sender`). Keccak-256 and secp256k1 recovery are parameters. -/
def recoverSender (keccak : Bytes → Bytes) (recover : Bytes → Bytes → Bool → Option Bytes) (t : Transaction) :
    Transaction :=
  let hash := keccak (Rlp.encodeTransaction t true false)
  let signature := beFixed 32 t.r ++ beFixed 32 t.s
  match recover hash signature t.oddYParity with
  | some recovered => { t with sender := some (((keccak (recovered.drop 1)).drop 12).take 20) }
  | none => { t with sender := none }

/-- core/silkworm/types/transaction.cpp:390-393 (`priority_fee_per_gas`); a failed assertion is undefined behaviour. -/
def priorityFeePerGas (t : Transaction) (baseFee : Nat) : Outcome Empty Nat :=
  if t.maxFeePerGas ≥ baseFee then .ok (min t.maxPriorityFeePerGas (t.maxFeePerGas - baseFee)) else .ub

/-- core/silkworm/types/transaction.cpp:395-397 (`effective_gas_price`); 256-bit addition. -/
def effectiveGasPrice (t : Transaction) (baseFee : Nat) : Outcome Empty Nat := do
  let p ← t.priorityFeePerGas baseFee
  .ok ((p + baseFee) % 2 ^ 256)

end Transaction

end Silkworm
