/-!
# Byte strings and big-endian numbers

`Bytes` and `ByteView` of core/silkworm/common/base.hpp:37-39 are lists of bytes.
-/

namespace Silkworm

/-- core/silkworm/common/base.hpp:37-39 (`Bytes`, `ByteView`): a view is represented by its contents. -/
abbrev Bytes := List UInt8

/-- Value of a big-endian byte string (what `intx::bswap` on a little-endian machine computes after the
bytes were copied right-aligned, core/silkworm/rlp/decode.cpp:45-50). -/
def beToNat (b : Bytes) : Nat := b.foldl (fun acc x => acc * 256 + x.toNat) 0

/-- `n` as exactly `k` big-endian bytes, reduced modulo `256^k` (`intx::be::store` and
`buf = intx::bswap(n)`, core/silkworm/rlp/encode.cpp:108,117). -/
def beFixed : Nat → Nat → Bytes
  | 0, _ => []
  | k + 1, n => beFixed k (n / 256) ++ [UInt8.ofNat (n % 256)]

/-- `intx::clz` of a `w`-bit number (number of leading zero bits, `w` for zero). -/
def clz (w n : Nat) : Nat := if n = 0 then w else w - 1 - Nat.log2 n

end Silkworm
