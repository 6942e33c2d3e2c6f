import Verif.Common.Util

/-!
# Model of core/silkworm/crypto/snark.cpp and of the contracts that use it (core/silkworm/execution/precompiled.cpp)

The library libff is a parameter. A `Scalar` (`libff::bigint` of four 64-bit limbs) is a natural number below 2^256.
`ByteView::substr` beyond the end throws, in functions that are `noexcept`: undefined behaviour here, as failed assertions.
-/

namespace Silkworm.Snark

/-- What is used of libff: the types `alt_bn128_G1`, `alt_bn128_G2`, `alt_bn128_Fq12` and their operations. -/
structure Libff where
  G1 : Type
  G2 : Type
  F12 : Type
  /-- `alt_bn128_modulus_q`. -/
  q : Nat
  /-- `alt_bn128_G1::zero()`. -/
  zero1 : G1
  /-- `alt_bn128_G1{x, y, alt_bn128_Fq::one()}`. -/
  mk1 : Nat → Nat → G1
  /-- `is_well_formed`. -/
  wellFormed1 : G1 → Bool
  /-- `is_zero`. -/
  isZero1 : G1 → Bool
  add1 : G1 → G1 → G1
  /-- `operator*(bigint, G1)`. -/
  mul1 : Nat → G1 → G1
  /-- `X` and `Y` after `to_affine_coordinates`, `as_bigint`. -/
  affine1 : G1 → Nat × Nat
  /-- `alt_bn128_G2::zero()`. -/
  zero2 : G2
  /-- `alt_bn128_G2{x, y, alt_bn128_Fq2::one()}` with `x` and `y` given by their coefficients (c0, c1). -/
  mk2 : Nat × Nat → Nat × Nat → G2
  wellFormed2 : G2 → Bool
  isZero2 : G2 → Bool
  /-- `alt_bn128_G2::order()`. -/
  order2 : Nat
  mul2 : Nat → G2 → G2
  /-- `alt_bn128_Fq12::one()`. -/
  one12 : F12
  mul12 : F12 → F12 → F12
  eq12 : F12 → F12 → Bool
  /-- `alt_bn128_miller_loop(alt_bn128_precompute_G1(a), alt_bn128_precompute_G2(b))`. -/
  miller : G1 → G2 → F12
  /-- `alt_bn128_final_exponentiation`. -/
  finalExp : F12 → F12

/-- `std::basic_string_view::substr`. -/
def substr (b : Bytes) (pos n : Nat) : Outcome Empty Bytes :=
  if pos > b.length then .ub else .ok ((b.drop pos).take n)

/-- core/silkworm/crypto/snark.cpp:40-47 (`to_scalar`). More than 32 bytes do not fit (assertion in the constructor of
`bigint`); `be[0]` needs a byte. -/
def toScalar (be : Bytes) : Outcome Empty Nat :=
  if be.length = 0 ∨ beToNat be ≥ 2 ^ 256 then .ub else .ok (beToNat be)

/-- core/silkworm/crypto/snark.cpp:49-53 (`valid_element_of_fp`). -/
def validElementOfFp (lib : Libff) (x : Nat) : Bool := x < lib.q

/-- core/silkworm/crypto/snark.cpp:55-77 (`decode_g1_element`). -/
def decodeG1Element (lib : Libff) (bytes64 : Bytes) : Outcome Empty (Option lib.G1) :=
  if bytes64.length ≠ 64 then .ub
  else
    (substr bytes64 0 32).bind fun bx => (toScalar bx).bind fun x =>
      if !validElementOfFp lib x then .ok none
      else
        (substr bytes64 32 32).bind fun by' => (toScalar by').bind fun y =>
          if !validElementOfFp lib y then .ok none
          else if x = 0 ∧ y = 0 then .ok (some lib.zero1)
          else
            let point := lib.mk1 x y
            if !lib.wellFormed1 point then .ok none else .ok (some point)

/-- core/silkworm/crypto/snark.cpp:79-91 (`decode_fp2_element`): the coefficients (c0, c1). -/
def decodeFp2Element (lib : Libff) (bytes64 : Bytes) : Outcome Empty (Option (Nat × Nat)) :=
  if bytes64.length ≠ 64 then .ub
  else
    (substr bytes64 32 32).bind fun b0 => (toScalar b0).bind fun c0 =>
      (substr bytes64 0 32).bind fun b1 => (toScalar b1).bind fun c1 =>
        if !validElementOfFp lib c0 || !validElementOfFp lib c1 then .ok none else .ok (some (c0, c1))

/-- core/silkworm/crypto/snark.cpp:93-121 (`decode_g2_element`). -/
def decodeG2Element (lib : Libff) (bytes128 : Bytes) : Outcome Empty (Option lib.G2) :=
  if bytes128.length ≠ 128 then .ub
  else
    (substr bytes128 0 64).bind fun bx => (decodeFp2Element lib bx).bind fun
      | none => .ok none
      | some x =>
        (substr bytes128 64 64).bind fun by' => (decodeFp2Element lib by').bind fun
          | none => .ok none
          | some y =>
            if x = (0, 0) ∧ y = (0, 0) then .ok (some lib.zero2)
            else
              let point := lib.mk2 x y
              if !lib.wellFormed2 point then .ok none
              else if !lib.isZero2 (lib.mul2 lib.order2 point) then .ok none
              else .ok (some point)

/-- The 32 bytes of the limbs of a `bigint` in memory, on a little-endian machine. -/
def limbs (x : Nat) : Bytes := (beFixed 32 x).reverse

/-- core/silkworm/crypto/snark.cpp:123-143 (`encode_g1_element`). -/
def encodeG1Element (lib : Libff) (p : lib.G1) : Bytes :=
  if lib.isZero1 p then List.replicate 64 0
  else (limbs (lib.affine1 p).2 ++ limbs (lib.affine1 p).1).reverse

/-- core/silkworm/execution/precompiled.cpp:247-265 (`bn_add_run`). -/
def bnAddRun (lib : Libff) (input : Bytes) : Outcome Empty (Option Bytes) :=
  (rightPad (.external input) 128 ⟨[], 15⟩).bind fun padded =>
    (substr padded.1 0 64).bind fun bx => (decodeG1Element lib bx).bind fun
      | none => .ok none
      | some x =>
        (substr padded.1 64 64).bind fun by' => (decodeG1Element lib by').bind fun
          | none => .ok none
          | some y => .ok (some (encodeG1Element lib (lib.add1 x y)))

/-- core/silkworm/execution/precompiled.cpp:269-284 (`bn_mul_run`). -/
def bnMulRun (lib : Libff) (input : Bytes) : Outcome Empty (Option Bytes) :=
  (rightPad (.external input) 96 ⟨[], 15⟩).bind fun padded =>
    (substr padded.1 0 64).bind fun bx => (decodeG1Element lib bx).bind fun
      | none => .ok none
      | some x =>
        (substr padded.1 64 32).bind fun bn => (toScalar bn).bind fun n =>
          .ok (some (encodeG1Element lib (lib.mul1 n x)))

/-- core/silkworm/execution/precompiled.cpp:305-320: the loop of `snarkv_run`; the first argument is `k - i`. -/
def snarkvLoop (lib : Libff) (input : Bytes) : Nat → Nat → lib.F12 → Outcome Empty (Option lib.F12)
  | 0, _, accumulator => .ok (some accumulator)
  | todo + 1, i, accumulator =>
    (substr input (i * 192) 64).bind fun ba => (decodeG1Element lib ba).bind fun
      | none => .ok none
      | some a =>
        (substr input (i * 192 + 64) 128).bind fun bb => (decodeG2Element lib bb).bind fun
          | none => .ok none
          | some b =>
            if lib.isZero1 a || lib.isZero2 b then snarkvLoop lib input todo (i + 1) accumulator
            else snarkvLoop lib input todo (i + 1) (lib.mul12 accumulator (lib.miller a b))

/-- core/silkworm/execution/precompiled.cpp:293-327 (`snarkv_run`). -/
def snarkvRun (lib : Libff) (input : Bytes) : Outcome Empty (Option Bytes) :=
  if input.length % 192 ≠ 0 then .ok none
  else
    (snarkvLoop lib input (input.length / 192) 0 lib.one12).bind fun
      | none => .ok none
      | some accumulator =>
        let out : Bytes := List.replicate 32 0
        .ok (some (if lib.eq12 (lib.finalExp accumulator) lib.one12 then out.set 31 1 else out))

end Silkworm.Snark
