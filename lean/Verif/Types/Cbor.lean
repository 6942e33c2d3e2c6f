import Verif.Types.Log

/-!
# Model of db/silkworm/types/log_cbor.cpp and receipt_cbor.cpp

The encoder of the library cbor-cpp is not part of the repository. Its functions are taken to write the shortest definite
form of RFC 8949; sizes are below 2^31, where the conversions to `int` keep them.
-/

namespace Silkworm.Cbor

/-- RFC 8949 section 3: the head of an item of a major type with an argument. -/
def head (major n : Nat) : Bytes :=
  if n < 24 then [UInt8.ofNat (major * 32 + n)]
  else if n < 2 ^ 8 then UInt8.ofNat (major * 32 + 24) :: beFixed 1 n
  else if n < 2 ^ 16 then UInt8.ofNat (major * 32 + 25) :: beFixed 2 n
  else if n < 2 ^ 32 then UInt8.ofNat (major * 32 + 26) :: beFixed 4 n
  else UInt8.ofNat (major * 32 + 27) :: beFixed 8 n

/-- `encoder::write_int` of an unsigned number. -/
def writeInt (n : Nat) : Bytes := head 0 n

/-- `encoder::write_bytes`. -/
def writeBytes (b : Bytes) : Bytes := head 2 b.length ++ b

/-- `encoder::write_array`. -/
def writeArray (n : Nat) : Bytes := head 4 n

/-- `encoder::write_null`. -/
def writeNull : Bytes := [0xf6]

/-- db/silkworm/types/log_cbor.cpp:30-38: one log. -/
def encodeLog (l : Log) : Bytes :=
  writeArray 3 ++ writeBytes l.address ++ writeArray l.topics.length ++ l.topics.flatMap writeBytes ++ writeBytes l.data

/-- db/silkworm/types/log_cbor.cpp:24-41 (`cbor_encode` of logs). -/
def encodeLogs (v : List Log) : Bytes := writeArray v.length ++ v.flatMap encodeLog

/-- db/silkworm/types/receipt_cbor.cpp:34-43: one receipt; logs and bloom are not stored. -/
def encodeReceipt (r : Receipt) : Bytes :=
  writeArray 4 ++ writeInt (Rlp.typeByte r.type).toNat ++ writeNull ++ writeInt (if r.success then 1 else 0) ++ writeInt r.cumulativeGasUsed

/-- db/silkworm/types/receipt_cbor.cpp:24-46 (`cbor_encode` of receipts): null without receipts. -/
def encodeReceipts (v : List Receipt) : Bytes :=
  (if v.isEmpty then writeNull else writeArray v.length) ++ v.flatMap encodeReceipt

end Silkworm.Cbor
