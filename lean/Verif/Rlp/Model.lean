import Verif.Base.Outcome
import Verif.Base.Bytes

/-!
# Model of core/silkworm/rlp/{encode,decode}.{hpp,cpp}

Encoders append to a buffer in C++; here they return the bytes appended. Sums of lengths are
natural numbers: the C++ sums are `uint64_t`/`size_t` and agree as long as totals are below `2^64`.
Decoders take the view and return the decoded value with the remaining view; the value left in `to` and the
position of `from` after an error are not modelled.
-/

namespace Silkworm.Rlp

/-- core/silkworm/rlp/decode.hpp:36-48 (`DecodingResult`, without `kOk`). -/
inductive DecodingResult where
  | overflow
  | leadingZero
  | inputTooShort
  | nonCanonicalSingleByte
  | nonCanonicalSize
  | unexpectedLength
  | unexpectedString
  | unexpectedList
  | listLengthMismatch
  | unsupportedTransactionType
  deriving DecidableEq, Repr

/-- Outcome of a decoder. -/
abbrev Dec (α : Type) := Outcome DecodingResult α

/-- core/silkworm/rlp/encode.hpp:43-46 (`Header`). -/
structure Header where
  list : Bool := false
  payloadLength : Nat := 0
  deriving DecidableEq, Repr

/-- core/silkworm/rlp/encode.cpp:104-120 (`big_endian` for `uint64_t`, k = 8, and `uint256`, k = 32): store
big-endian into a `k`-byte buffer and skip `clz(n) / 8` bytes. -/
def bigEndian (k n : Nat) : Bytes := (beFixed k n).drop (clz (8 * k) n / 8)

/-- core/silkworm/rlp/encode.cpp:24-34 (`encode_header`). -/
def encodeHeader (h : Header) : Bytes :=
  if h.payloadLength < 56 then
    [UInt8.ofNat ((if h.list then 0xC0 else 0x80) + h.payloadLength)]
  else
    let lenBe := bigEndian 8 h.payloadLength
    UInt8.ofNat ((if h.list then 0xF7 else 0xB7) + lenBe.length) :: lenBe

/-- core/silkworm/rlp/encode.cpp:36-42 (`length_of_length`). -/
def lengthOfLength (payloadLength : Nat) : Nat :=
  if payloadLength < 56 then 1 else 1 + 8 - clz 64 payloadLength / 8

/-- The test `s.length() != 1 || s[0] >= kEmptyStringCode`, core/silkworm/rlp/encode.cpp:50,58. -/
def needsHeader (s : Bytes) : Bool :=
  match s with
  | [x] => decide (0x80 ≤ x)
  | _ => true

/-- core/silkworm/rlp/encode.cpp:49-54 (`encode(Bytes&, ByteView)`). -/
def encodeBytes (s : Bytes) : Bytes :=
  (if needsHeader s then encodeHeader ⟨false, s.length⟩ else []) ++ s

/-- core/silkworm/rlp/encode.cpp:56-62 (`length(ByteView)`). -/
def lengthBytes (s : Bytes) : Nat :=
  s.length + (if needsHeader s then lengthOfLength s.length else 0)

/-- core/silkworm/rlp/encode.cpp:64-74 (`encode(Bytes&, uint64_t)`, k = 8) and 84-94
(`encode(Bytes&, uint256)`, k = 32). -/
def encodeUint (k n : Nat) : Bytes :=
  if n = 0 then [0x80]
  else if n < 0x80 then [UInt8.ofNat n]
  else
    let be := bigEndian k n
    UInt8.ofNat (0x80 + be.length) :: be

/-- core/silkworm/rlp/encode.cpp:76-82 (`length(uint64_t)`, k = 8) and 96-102 (`length(uint256)`, k = 32). -/
def lengthUint (k n : Nat) : Nat :=
  if n < 0x80 then 1 else 1 + k - clz (8 * k) n / 8

/-- core/silkworm/rlp/encode.hpp:58-73 (`encode` of `span`, C array and `std::array` of N <= 55 bytes) and
encode.cpp:44-47 (`bytes32`). -/
def encodeArray (s : Bytes) : Bytes := UInt8.ofNat (0x80 + s.length) :: s

/-- The payload length computed in core/silkworm/rlp/encode.hpp:96-100 and 106-109. -/
def payloadLength {α : Type} (len : α → Nat) (v : List α) : Nat := v.foldl (fun acc x => acc + len x) 0

/-- core/silkworm/rlp/encode.hpp:95-102 (`length(std::vector<T>)`). -/
def lengthVector {α : Type} (len : α → Nat) (v : List α) : Nat :=
  lengthOfLength (payloadLength len v) + payloadLength len v

/-- core/silkworm/rlp/encode.hpp:104-114 (`encode(Bytes&, std::vector<T>)`). -/
def encodeVector {α : Type} (len : α → Nat) (enc : α → Bytes) (v : List α) : Bytes :=
  encodeHeader ⟨true, payloadLength len v⟩ ++ (v.map enc).flatten

/-! ## Decoding -/

/-- `from[i]`; out of range is undefined behaviour. -/
def byteAt {ε : Type} (v : Bytes) (i : Nat) : Outcome ε UInt8 :=
  match v[i]? with
  | some b => .ok b
  | none => .ub

/-- `string_view::remove_prefix(n)`; undefined if `n` exceeds the size. -/
def removePrefix {ε : Type} (v : Bytes) (n : Nat) : Outcome ε Bytes :=
  if n ≤ v.length then .ok (v.drop n) else .ub

/-- core/silkworm/rlp/decode.cpp:27-51 (`read_uint64`, k = 8) and 53-77 (`read_uint256`, k = 32). The default
argument `allow_leading_zeros = false` is explicit. -/
def readUint (k : Nat) (be : Bytes) (allowLeadingZeros : Bool := false) : Dec Nat :=
  if be.length > k then .err .overflow
  else match be with
    | [] => .ok 0
    | b :: _ =>
      if b = 0 ∧ allowLeadingZeros = false then .err .leadingZero
      else .ok (beToNat (List.replicate (k - be.length) 0 ++ be))

/-- The long-form branches of core/silkworm/rlp/decode.cpp:99-113 and 118-134 after the first byte is removed. -/
def decodeLongLength (from_ : Bytes) (list : Bool) (lenOfLen : Nat) : Dec (Header × Bytes) :=
  if from_.length < lenOfLen then .err .inputTooShort
  else do
    let len ← readUint 8 (from_.take lenOfLen)
    let rest ← removePrefix from_ lenOfLen
    if len < 56 then .err .nonCanonicalSize
    else .ok (⟨list, len⟩, rest)

/-- core/silkworm/rlp/decode.cpp:79-134: the part of `decode_header` before the final length check. -/
def decodeHeaderPrefix (from_ : Bytes) : Dec (Header × Bytes) :=
  match from_ with
  | [] => .err .inputTooShort
  | b :: rest =>
    if b < 0x80 then .ok (⟨false, 1⟩, from_)
    else if b < 0xB8 then
      let len := b.toNat - 0x80
      if len = 1 then
        match rest with
        | [] => .err .inputTooShort
        | c :: _ => if c < 0x80 then .err .nonCanonicalSingleByte else .ok (⟨false, 1⟩, rest)
      else .ok (⟨false, len⟩, rest)
    else if b < 0xC0 then decodeLongLength rest false (b.toNat - 0xB7)
    else if b < 0xF8 then .ok (⟨true, b.toNat - 0xC0⟩, rest)
    else decodeLongLength rest true (b.toNat - 0xF7)

/-- core/silkworm/rlp/decode.cpp:79-141 (`decode_header`). -/
def decodeHeader (from_ : Bytes) : Dec (Header × Bytes) := do
  let (h, rest) ← decodeHeaderPrefix from_
  if rest.length < h.payloadLength then .err .inputTooShort
  else .ok (h, rest)

/-- core/silkworm/rlp/decode.cpp:148-160 (`decode<Bytes>`). -/
def decodeBytes (from_ : Bytes) : Dec (Bytes × Bytes) := do
  let (h, rest) ← decodeHeader from_
  if h.list then .err .unexpectedList
  else
    let to := rest.take h.payloadLength
    let rest' ← removePrefix rest h.payloadLength
    .ok (to, rest')

/-- core/silkworm/rlp/decode.cpp:175-191 (`decode<uint64_t>`, k = 8) and 193-209 (`decode<uint256>`, k = 32). -/
def decodeUint (k : Nat) (from_ : Bytes) : Dec (Nat × Bytes) := do
  let (h, rest) ← decodeHeader from_
  if h.list then .err .unexpectedList
  else
    let n ← readUint k (rest.take h.payloadLength)
    let rest' ← removePrefix rest h.payloadLength
    .ok (n, rest')

/-- core/silkworm/rlp/decode.cpp:162-173 (`decode<bool>`). -/
def decodeBool (from_ : Bytes) : Dec (Bool × Bytes) := do
  let (i, rest) ← decodeUint 8 from_
  if i > 1 then .err .overflow
  else .ok (decide (i = 1), rest)

/-- `memcpy(dst, from.data(), n)`; undefined if `n` bytes are not available. -/
def copyBytes {ε : Type} (v : Bytes) (n : Nat) : Outcome ε Bytes :=
  if n ≤ v.length then .ok (v.take n) else .ub

/-- core/silkworm/rlp/decode.hpp:72-100 (`decode` into a fixed-size array of `n` bytes) and decode.cpp:143-146. -/
def decodeArray (n : Nat) (from_ : Bytes) : Dec (Bytes × Bytes) := do
  let (h, rest) ← decodeHeader from_
  if h.list then .err .unexpectedList
  else if h.payloadLength ≠ n then .err .unexpectedLength
  else
    let to ← copyBytes rest n
    let rest' ← removePrefix rest n
    .ok (to, rest')

/-- The loop of core/silkworm/rlp/decode.hpp:115-120. `fuel` bounds the number of iterations; running out of it
with a non-empty view stands for an endless loop and counts as `ub`. -/
def decodeItems {α : Type} (dec : Bytes → Dec (α × Bytes)) : Nat → Bytes → Dec (List α)
  | _, [] => .ok []
  | 0, _ :: _ => .ub
  | fuel + 1, v@(_ :: _) => do
    let (x, rest) ← dec v
    let xs ← decodeItems dec fuel rest
    .ok (x :: xs)

/-- core/silkworm/rlp/decode.hpp:102-124 (`decode_vector`). -/
def decodeVector {α : Type} (dec : Bytes → Dec (α × Bytes)) (from_ : Bytes) : Dec (List α × Bytes) := do
  let (h, rest) ← decodeHeader from_
  if !h.list then .err .unexpectedString
  else
    let payload := rest.take h.payloadLength
    let to ← decodeItems dec payload.length payload
    let rest' ← removePrefix rest h.payloadLength
    .ok (to, rest')

end Silkworm.Rlp
