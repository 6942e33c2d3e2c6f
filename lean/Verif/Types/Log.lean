import Verif.Types.Transaction

/-!
# Model of core/silkworm/types/{log,bloom,receipt}.{hpp,cpp}
-/

namespace Silkworm

open Rlp

/-- core/silkworm/types/log.hpp:26-30 (`Log`). -/
structure Log where
  address : Bytes
  topics : List Bytes
  data : Bytes
  deriving DecidableEq, Repr

/-- core/silkworm/types/log.cpp:24-31 (`header(Log)`). -/
def logHeader (l : Log) : Header := ⟨true, 20 + 1 + lengthVector lengthBytes32 l.topics + lengthBytes l.data⟩

/-- core/silkworm/types/log.cpp:33-36 (`length(Log)`). -/
def lengthLog (l : Log) : Nat := lengthOfLength (logHeader l).payloadLength + (logHeader l).payloadLength

/-- core/silkworm/types/log.cpp:38-43 (`encode(Log)`). -/
def encodeLog (l : Log) : Bytes :=
  encodeHeader (logHeader l) ++ encodeBytes l.address ++ encodeVector lengthBytes32 encodeArray l.topics ++ encodeBytes l.data

/-- core/silkworm/types/receipt.hpp:28-34 (`Receipt`). -/
structure Receipt where
  type : TxType := .legacy
  success : Bool := false
  cumulativeGasUsed : Nat := 0
  bloom : Bytes
  logs : List Log
  deriving DecidableEq, Repr

/-- core/silkworm/types/receipt.cpp:24-32 (`header(Receipt)`). -/
def receiptHeader (r : Receipt) : Header :=
  ⟨true, 1 + lengthUint 8 r.cumulativeGasUsed + lengthBytes r.bloom + lengthVector lengthLog r.logs⟩

/-- core/silkworm/types/receipt.cpp:34-43 (`encode(Receipt)`). -/
def encodeReceipt (r : Receipt) : Bytes :=
  (if r.type ≠ .legacy then [typeByte r.type] else []) ++
  encodeHeader (receiptHeader r) ++ encodeBool r.success ++ encodeUint 8 r.cumulativeGasUsed ++ encodeBytes r.bloom ++
  encodeVector lengthLog encodeLog r.logs

/-! ## Blooms -/

/-- `bloom[i] |= 1 << (bit % 8)` with `i = 255 - bit / 8`, core/silkworm/types/bloom.cpp:30. -/
def setBloomBit (bloom : Bytes) (bit : Nat) : Bytes :=
  bloom.modify (256 - 1 - bit / 8) (fun b => b ||| UInt8.ofNat (1 <<< (bit % 8)))

/-- core/silkworm/types/bloom.cpp:29: `(hash.bytes[i + 1] + (hash.bytes[i] << 8)) & 0x7FF`. -/
def bloomBit (hash : Bytes) (i : Nat) : Nat :=
  ((hash.getD (i + 1) 0).toNat + ((hash.getD i 0).toNat <<< 8)) &&& 0x7FF

/-- core/silkworm/types/bloom.cpp:26-32 (`m3_2048`). Keccak-256 is a parameter. -/
def m3_2048 (keccak : Bytes → Bytes) (bloom : Bytes) (x : Bytes) : Bytes :=
  setBloomBit (setBloomBit (setBloomBit bloom (bloomBit (keccak x) 0)) (bloomBit (keccak x) 2)) (bloomBit (keccak x) 4)

/-- core/silkworm/types/bloom.cpp:34-43 (`logs_bloom`). -/
def logsBloom (keccak : Bytes → Bytes) (logs : List Log) : Bytes :=
  logs.foldl (fun bloom l => l.topics.foldl (m3_2048 keccak) (m3_2048 keccak bloom l.address)) (List.replicate 256 0)

/-- core/silkworm/types/bloom.hpp:38-42 (`join`). -/
def joinBloom (sum addend : Bytes) : Bytes := List.zipWith (· ||| ·) sum addend

end Silkworm
