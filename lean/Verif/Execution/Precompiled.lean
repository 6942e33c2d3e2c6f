import Verif.Chain.Config
import Verif.Chain.Difficulty
import Verif.Common.Util
import Verif.Base.BytesLemmas
import Verif.Crypto.Ecdsa

/-!
# Model of core/silkworm/execution/precompiled.{hpp,cpp}

Inputs are byte strings in memory of the caller. `intx::uint256` arithmetic is modulo 2^256, `uint64_t` arithmetic
modulo 2^64. GMP numbers are natural numbers. Reading beyond a view is undefined behaviour. SHA-256, RIPEMD-160, the
BLAKE2 compression function, signature recovery, Keccak and the operations on the curve alt_bn128 are parameters.
-/

namespace Silkworm.Precompiled

/-- Functions of other libraries and of core/silkworm/crypto. -/
structure Crypto where
  keccak : Bytes → Bytes
  sha256 : Bytes → Bytes
  ripemd160 : Bytes → Bytes
  /-- `ecdsa::recover(message, signature, odd_y_parity)`. -/
  recover : Bytes → Bytes → Bool → Option Bytes
  bnAdd : Bytes → Option Bytes
  bnMul : Bytes → Option Bytes
  pairing : Bytes → Option Bytes
  /-- `blake2b_compress` of (h, block, t, final flag, rounds); the new h. -/
  blake2Compress : Bytes → Bytes → Bytes → Bool → Nat → Bytes

/-- `input.length()` rounded up to words, in 64-bit arithmetic (precompiled.cpp:80, 88, 96). -/
def words64 (n : Nat) : Nat := (n + 31) % 2 ^ 64 / 32

/-- core/silkworm/execution/precompiled.cpp:44 (`ecrec_gas`). -/
def ecrecGas (_ : Bytes) (_ : Nat) : Nat := 3000

/-- core/silkworm/execution/precompiled.cpp:80 (`sha256_gas`). -/
def sha256Gas (input : Bytes) (_ : Nat) : Nat := (60 + 12 * words64 input.length % 2 ^ 64) % 2 ^ 64

/-- core/silkworm/execution/precompiled.cpp:88 (`rip160_gas`). -/
def rip160Gas (input : Bytes) (_ : Nat) : Nat := (600 + 120 * words64 input.length % 2 ^ 64) % 2 ^ 64

/-- core/silkworm/execution/precompiled.cpp:96 (`id_gas`). -/
def idGas (input : Bytes) (_ : Nat) : Nat := (15 + 3 * words64 input.length % 2 ^ 64) % 2 ^ 64

/-- core/silkworm/execution/precompiled.cpp:100-109 (`mult_complexity_eip198`). -/
def multComplexityEip198 (x : Nat) : Nat :=
  let xSquared := mul256 x x
  if x ≤ 64 then xSquared
  else if x ≤ 1024 then sub256 (add256 (xSquared / 4) (mul256 96 x)) 3072
  else sub256 (add256 (xSquared / 16) (mul256 480 x)) 199680

/-- core/silkworm/execution/precompiled.cpp:111-114 (`mult_complexity_eip2565`). -/
def multComplexityEip2565 (maxLength : Nat) : Nat :=
  let words := add256 maxLength 7 / 8
  mul256 words words

/-- core/silkworm/execution/precompiled.cpp:140-148: the first 32 bytes of the exponent, as a number. `input` is what
follows the three lengths; it lies in the memory of the caller, because a padded input ends with the lengths. -/
def expHead (input : Bytes) (baseLen expLen : Nat) (buffer : Buffer) : Outcome Empty Nat :=
  if input.length > baseLen then
    (rightPad (.external (input.drop baseLen)) 32 buffer).bind fun x =>
      if expLen < 32 then
        let view : PadView :=
          if (input.drop baseLen).length ≥ 32 then .external (x.1.take expLen) else .inside 0 expLen
        (leftPad view 32 x.2).bind fun y => .ok (beToNat (y.1.take 32))
      else .ok (beToNat (x.1.take 32))
  else .ok 0

/-- core/silkworm/execution/precompiled.cpp:149-161. -/
def adjustedExponentLen (expLen expHead : Nat) : Nat :=
  let bitLen := 256 - clz 256 expHead
  let len := if expLen > 32 then mul256 8 (sub256 expLen 32) else 0
  let len := if bitLen > 1 then add256 len (bitLen - 1) else len
  if len < 1 then 1 else len

/-- core/silkworm/execution/precompiled.cpp:163-176. -/
def expmodCost (rev minGas baseLen modLen adjusted : Nat) : Nat :=
  let maxLength := max modLen baseLen
  let gas :=
    if rev < Revision.berlin then mul256 (multComplexityEip198 maxLength) adjusted / 20
    else mul256 (multComplexityEip2565 maxLength) adjusted / 3
  if gas ≥ 2 ^ 64 then 2 ^ 64 - 1 else max minGas gas

/-- core/silkworm/execution/precompiled.cpp:116-177 (`expmod_gas`). `count_significant_words(x) > 1` is `x ≥ 2^64`. -/
def expmodGas (input : Bytes) (rev : Nat) : Outcome Empty Nat :=
  let minGas := if rev < Revision.berlin then 0 else 200
  (rightPad (.external input) 96 ⟨[], 15⟩).bind fun x =>
    let baseLen := beToNat (x.1.take 32)
    let expLen := beToNat ((x.1.drop 32).take 32)
    let modLen := beToNat ((x.1.drop 64).take 32)
    if baseLen = 0 ∧ modLen = 0 then .ok minGas
    else if baseLen ≥ 2 ^ 64 ∨ expLen ≥ 2 ^ 64 ∨ modLen ≥ 2 ^ 64 then .ok (2 ^ 64 - 1)
    else
      (expHead (x.1.drop 96) baseLen expLen x.2).bind fun head =>
        .ok (expmodCost rev minGas baseLen modLen (adjustedExponentLen expLen head))

/-- `mpz_import` of `n` bytes (precompiled.cpp:198-216). -/
def importBytes (n : Nat) (input : Bytes) : Outcome Empty (Nat × Bytes) :=
  if n > input.length then .ub else .ok (beToNat (input.take n), input.drop n)

/-- core/silkworm/execution/precompiled.cpp:231-235: the number in little-endian bytes at the start of a zeroed buffer,
reversed. -/
def exportBytes (n result : Nat) : Outcome Empty Bytes :=
  if byteLen result > n then .ub
  else .ok ((beFixed (byteLen result) result).reverse ++ List.replicate (n - byteLen result) 0).reverse

/-- core/silkworm/execution/precompiled.cpp:198-242: the part of `expmod_run` after padding. -/
def expmodCompute (input : Bytes) (baseLen exponentLen modulusLen : Nat) : Outcome Empty (Option Bytes) :=
  (importBytes baseLen input).bind fun base =>
    (importBytes exponentLen base.2).bind fun exponent =>
      (importBytes modulusLen exponent.2).bind fun modulus =>
        if modulus.1 = 0 then .ok (some (List.replicate modulusLen 0))
        else (exportBytes modulusLen (base.1 ^ exponent.1 % modulus.1)).bind fun out => .ok (some out)

/-- core/silkworm/execution/precompiled.cpp:179-243 (`expmod_run`). The lengths are the last eight bytes of the three
words. -/
def expmodRun (input : Bytes) : Outcome Empty (Option Bytes) :=
  (rightPad (.external input) 96 ⟨[], 15⟩).bind fun x =>
    let baseLen := beToNat ((x.1.drop 24).take 8)
    let exponentLen := beToNat ((x.1.drop 56).take 8)
    let modulusLen := beToNat ((x.1.drop 88).take 8)
    if modulusLen = 0 then .ok (some [])
    else
      let view : PadView := if input.length ≥ 96 then .external (input.drop 96) else .inside 96 0
      (rightPad view ((baseLen + exponentLen + modulusLen) % 2 ^ 64) x.2).bind fun y =>
        expmodCompute y.1 baseLen exponentLen modulusLen

/-- core/silkworm/execution/precompiled.cpp:46-78 (`ecrec_run`). `key->at(0)` of an empty key throws in a `noexcept`
function. -/
def ecrecRun (c : Crypto) (input : Bytes) : Outcome Empty (Option Bytes) :=
  let d := if input.length < 128 then input ++ List.replicate (128 - input.length) 0 else input
  let v := beToNat ((d.drop 32).take 32)
  let r := beToNat ((d.drop 64).take 32)
  let s := beToNat ((d.drop 96).take 32)
  if !Ecdsa.isValidSignature r s false then .ok (some [])
  else
    let y := Ecdsa.vToYParityAndChainId v
    if y.2.isSome then .ok (some [])
    else
      match c.recover (d.take 32) ((d.drop 64).take 64) y.1 with
      | none => .ok (some [])
      | some [] => .ub
      | some (b :: key) =>
        if b ≠ 4 then .ok (some []) else .ok (some (List.replicate 12 0 ++ (c.keccak key).drop 12))

/-- core/silkworm/execution/precompiled.cpp:245 (`bn_add_gas`). -/
def bnAddGas (_ : Bytes) (rev : Nat) : Nat := if rev ≥ Revision.istanbul then 150 else 500

/-- core/silkworm/execution/precompiled.cpp:267 (`bn_mul_gas`). -/
def bnMulGas (_ : Bytes) (rev : Nat) : Nat := if rev ≥ Revision.istanbul then 6000 else 40000

/-- core/silkworm/execution/precompiled.cpp:288-291 (`snarkv_gas`). -/
def snarkvGas (input : Bytes) (rev : Nat) : Nat :=
  let k := input.length / 192
  if rev ≥ Revision.istanbul then (34000 * k % 2 ^ 64 + 45000) % 2 ^ 64 else (80000 * k % 2 ^ 64 + 100000) % 2 ^ 64

/-- core/silkworm/execution/precompiled.cpp:329-335 (`blake2_f_gas`). -/
def blake2Gas (input : Bytes) (_ : Nat) : Nat := if input.length < 4 then 0 else beToNat (input.take 4)

/-- core/silkworm/execution/precompiled.cpp:337-366 (`blake2_f_run`). -/
def blake2Run (c : Crypto) (input : Bytes) : Option Bytes :=
  if input.length ≠ 213 then none
  else
    let f := input.getD 212 0
    if f ≠ 0 ∧ f ≠ 1 then none
    else
      some (c.blake2Compress ((input.drop 4).take 64) ((input.drop 68).take 128) ((input.drop 196).take 16) (f != 0)
        (beToNat (input.take 4)))

/-- `contract.gas` of core/silkworm/execution/precompiled.hpp:70-74 (`kContracts[num - 1]`). -/
def gas (num : Nat) (input : Bytes) (rev : Nat) : Outcome Empty Nat :=
  match num with
  | 1 => .ok (ecrecGas input rev)
  | 2 => .ok (sha256Gas input rev)
  | 3 => .ok (rip160Gas input rev)
  | 4 => .ok (idGas input rev)
  | 5 => expmodGas input rev
  | 6 => .ok (bnAddGas input rev)
  | 7 => .ok (bnMulGas input rev)
  | 8 => .ok (snarkvGas input rev)
  | 9 => .ok (blake2Gas input rev)
  | _ => .ub

/-- `contract.run` of core/silkworm/execution/precompiled.hpp:70-74 (`kContracts[num - 1]`). The inputs of the curve
operations are padded to 128 and 96 bytes (precompiled.cpp:249, 271), which is left to the parameters. -/
def run (c : Crypto) (num : Nat) (input : Bytes) : Outcome Empty (Option Bytes) :=
  match num with
  | 1 => ecrecRun c input
  | 2 => .ok (some (c.sha256 input))
  | 3 => .ok (some (List.replicate 12 0 ++ c.ripemd160 input))
  | 4 => .ok (some input)
  | 5 => expmodRun input
  | 6 => .ok (c.bnAdd input)
  | 7 => .ok (c.bnMul input)
  | 8 => .ok (c.pairing input)
  | 9 => .ok (blake2Run c input)
  | _ => .ub

/-- core/silkworm/execution/precompiled.hpp:76-78 and core/silkworm/execution/evm.cpp:325-335
(`number_of_precompiles`). -/
def number (rev : Nat) : Nat :=
  if rev ≥ Revision.istanbul then 9 else if rev ≥ Revision.byzantium then 8 else 4

end Silkworm.Precompiled
