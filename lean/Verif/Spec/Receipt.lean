import Verif.Spec.Transaction
import Verif.Types.Log

/-!
# Specification of logs, receipts and blooms (Yellow Paper 4.3.1, EIP-2718/658)
-/

namespace Silkworm.Spec

open Silkworm

/-- A log is `[address, topics, data]`. -/
def logItem (l : Log) : Item := .list [.str l.address, .list (l.topics.map .str), .str l.data]

/-- A receipt is `[status, cumulative gas, bloom, logs]`. -/
def receiptItem (r : Receipt) : Item :=
  .list [num r.success.toNat, num r.cumulativeGasUsed, .str r.bloom, .list (r.logs.map logItem)]

/-- EIP-2718: receipts of typed transactions are prefixed with the type. -/
def receiptBytes (r : Receipt) : List UInt8 :=
  match r.type with
  | .legacy => rlp (receiptItem r)
  | ty => typeNumber ty :: rlp (receiptItem r)

/-- `B_k` of a bloom of 256 bytes: bit `k`, counting from the least significant bit of the last byte. -/
def bloomHas (bloom : List UInt8) (k : Nat) : Bool := (beToNat bloom).testBit k

/-- YP (31): the three bits `m(x, i)`, `i ∈ {0, 2, 4}`: low 11 bits of the pairs of bytes of the hash. -/
def bloomIndices (hash : List UInt8) : List Nat :=
  [beToNat ((hash.drop 0).take 2) % 2048, beToNat ((hash.drop 2).take 2) % 2048, beToNat ((hash.drop 4).take 2) % 2048]

/-- YP (29): what a log contributes to the bloom: its address and its topics. -/
def logEntries (logs : List Log) : List (List UInt8) := logs.flatMap (fun l => l.address :: l.topics)

end Silkworm.Spec

namespace Silkworm

/-- Values a C++ `Log` can hold. -/
structure Log.WF (l : Log) : Prop where
  address : l.address.length = 20
  topics : ∀ t ∈ l.topics, t.length = 32

/-- Values a C++ `Receipt` can hold. -/
structure Receipt.WF (r : Receipt) : Prop where
  gas : r.cumulativeGasUsed < 2 ^ 64
  bloom : r.bloom.length = 256
  logs : ∀ l ∈ r.logs, l.WF

end Silkworm
