import Verif.Base.Bytes
import Verif.Base.Outcome

/-!
# Model of core/silkworm/common/util.cpp

Characters are bytes.
-/

namespace Silkworm

/-! ## Padding -/

/-- A `ByteView` as argument of the padding functions: bytes elsewhere in memory, or a part of the buffer itself. -/
inductive PadView where
  | external (bytes : Bytes)
  | inside (offset length : Nat)
  deriving Repr

/-- A `Bytes` buffer with its capacity: `resize` beyond the capacity moves the contents to new memory. -/
structure Buffer where
  bytes : Bytes
  capacity : Nat
  deriving Repr

/-- `view.size()`. -/
def PadView.size : PadView → Nat
  | .external b => b.length
  | .inside _ n => n

/-- The bytes a view shows. -/
def PadView.read (buffer : Buffer) : PadView → Bytes
  | .external b => b
  | .inside o n => (buffer.bytes.drop o).take n

/-- `buffer.resize(n)`: truncates or appends zeros; the flag tells whether the contents were moved. -/
def Buffer.resize (b : Buffer) (n : Nat) : Buffer × Bool :=
  (⟨b.bytes.take n ++ List.replicate (n - b.bytes.length) 0, max b.capacity n⟩, decide (b.capacity < n))

/-- `memmove(buffer.data() + pos, src, src.size())` into a buffer that is long enough. -/
def Buffer.memmove (b : Buffer) (pos : Nat) (src : Bytes) : Buffer :=
  { b with bytes := b.bytes.take pos ++ src ++ b.bytes.drop (pos + src.length) }

/-- Reading a view after its buffer may have been moved: a view into the old memory is dangling. -/
def PadView.readAfter (view : PadView) (buffer : Buffer) (moved : Bool) : Outcome Empty Bytes :=
  match view, moved with
  | .inside _ _, true => .ub
  | v, _ => .ok (v.read buffer)

/-- core/silkworm/common/util.cpp:24-47 (`left_pad`): the returned view's contents and the buffer. -/
def leftPad (view : PadView) (minSize : Nat) (buffer : Buffer) : Outcome Empty (Bytes × Buffer) :=
  if view.size ≥ minSize then .ok (view.read buffer, buffer)
  else
    let (buffer, moved) := if buffer.bytes.length < minSize then buffer.resize minSize else (buffer, false)
    let prefixLen := minSize - view.size
    do
      let src ← view.readAfter buffer moved
      let buffer := (buffer.memmove prefixLen src)
      let buffer := (buffer.resize minSize).1
      let buffer := { buffer with bytes := List.replicate prefixLen 0 ++ buffer.bytes.drop prefixLen }
      .ok (buffer.bytes, buffer)

/-- core/silkworm/common/util.cpp:49-70 (`right_pad`). -/
def rightPad (view : PadView) (minSize : Nat) (buffer : Buffer) : Outcome Empty (Bytes × Buffer) :=
  if view.size ≥ minSize then .ok (view.read buffer, buffer)
  else
    let (buffer, moved) := if buffer.bytes.length < view.size then buffer.resize view.size else (buffer, false)
    do
      let src ← view.readAfter buffer moved
      let buffer := buffer.memmove 0 src
      let buffer := (buffer.resize view.size).1
      let buffer := (buffer.resize minSize).1
      .ok (buffer.bytes, buffer)

/-- Copying the first `min(length, n)` bytes to the end of a zeroed array of size `n`, as in `to_address` and
`to_bytes32`. -/
def toArray (n : Nat) (bytes : Bytes) : Bytes :=
  let k := min bytes.length n
  List.replicate (n - k) 0 ++ bytes.take k

/-- core/silkworm/common/util.cpp:72-77 (`to_address`). -/
def toAddress (bytes : Bytes) : Bytes := toArray 20 bytes

/-- core/silkworm/common/util.cpp:79-84 (`to_bytes32`). -/
def toBytes32 (bytes : Bytes) : Bytes := toArray 32 bytes

/-- core/silkworm/common/util.cpp:86-92 (`zeroless_view`). -/
def zerolessView : Bytes → Bytes
  | [] => []
  | b :: bs => if b = 0 then zerolessView bs else b :: bs

/-! ## Hexadecimal -/

/-- core/silkworm/common/util.cpp:99 (`kHexDigits`): "0123456789abcdef". -/
def hexDigits : Bytes :=
  [0x30, 0x31, 0x32, 0x33, 0x34, 0x35, 0x36, 0x37, 0x38, 0x39, 0x61, 0x62, 0x63, 0x64, 0x65, 0x66]

/-- core/silkworm/common/util.cpp:98-113 (`to_hex`). -/
def toHex : Bytes → Bytes
  | [] => []
  | x :: xs => hexDigits.getD (x >>> 4).toNat 0 :: hexDigits.getD (x &&& 0x0f).toNat 0 :: toHex xs

/-- core/silkworm/common/util.cpp:115-124 (`decode_hex_digit`). -/
def decodeHexDigit (ch : UInt8) : Option UInt8 :=
  if 0x30 ≤ ch ∧ ch ≤ 0x39 then some (ch - 0x30)
  else if 0x61 ≤ ch ∧ ch ≤ 0x66 then some (ch - 0x61 + 10)
  else if 0x41 ≤ ch ∧ ch ≤ 0x46 then some (ch - 0x41 + 10)
  else none

/-- core/silkworm/common/util.cpp:138-149: the loop; `even` is `i % 2 == 0`. -/
def fromHexLoop (even : Bool) (carry : UInt8) : Bytes → Option Bytes
  | [] => some []
  | ch :: rest =>
    match decodeHexDigit ch with
    | none => none
    | some v =>
      if even then fromHexLoop false (v <<< 4) rest
      else
        match fromHexLoop true carry rest with
        | none => none
        | some out => some ((carry ||| v) :: out)

/-- core/silkworm/common/util.cpp:127-129: drop the prefix "0x" or "0X". -/
def stripHexPrefix : Bytes → Bytes
  | 0x30 :: x :: rest => if x = 0x78 ∨ x = 0x58 then rest else 0x30 :: x :: rest
  | hex => hex

/-- core/silkworm/common/util.cpp:126-152 (`from_hex`). -/
def fromHex (hex : Bytes) : Option Bytes :=
  let hex := stripHexPrefix hex
  if hex.length % 2 ≠ 0 then none else fromHexLoop true 0 hex

/-! ## Prefixes -/

/-- core/silkworm/common/util.cpp:220-228 (`prefix_length`). -/
def prefixLength : Bytes → Bytes → Nat
  | a :: as, b :: bs => if a ≠ b then 0 else prefixLength as bs + 1
  | _, _ => 0

end Silkworm
