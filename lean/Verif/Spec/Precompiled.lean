import Verif.Base.Bytes

/-!
# Precompiled contracts as the Yellow Paper (Appendix E) and EIPs 152, 196, 197, 198, 1108, 2565 define them
-/

namespace Silkworm.Spec.Precompiled

/-- Bytes `offset .. offset + length` of the input, which is followed by infinitely many zeros. -/
def bytesAt (input : Bytes) (offset length : Nat) : Bytes :=
  (List.range length).map (fun i => input.getD (offset + i) 0)

/-- Value of bytes, most significant first. -/
def number : Bytes → Nat
  | [] => 0
  | b :: bs => b.toNat * 256 ^ bs.length + number bs

/-- The number in these bytes of the input. -/
def numberAt (input : Bytes) (offset length : Nat) : Nat := number (bytesAt input offset length)

/-- Words needed for `n` bytes. -/
def words (n : Nat) : Nat := n / 32 + if n % 32 = 0 then 0 else 1

/-- Length of the base of a modular exponentiation. -/
def baseLength (input : Bytes) : Nat := numberAt input 0 32
/-- Length of the exponent. -/
def exponentLength (input : Bytes) : Nat := numberAt input 32 32
/-- Length of the modulus. -/
def modulusLength (input : Bytes) : Nat := numberAt input 64 32
/-- The base. -/
def base (input : Bytes) : Nat := numberAt input 96 (baseLength input)
/-- The exponent. -/
def exponent (input : Bytes) : Nat := numberAt input (96 + baseLength input) (exponentLength input)
/-- The modulus. -/
def modulus (input : Bytes) : Nat :=
  numberAt input (96 + baseLength input + exponentLength input) (modulusLength input)

/-- Index of the highest bit of a number, zero for zero. -/
def highestBit (n : Nat) : Nat := Nat.log2 n

/-- EIP-198, EIP-2565: adjusted length of the exponent. -/
def adjustedExponentLength (input : Bytes) : Nat :=
  let e := exponentLength input
  let head := numberAt input (96 + baseLength input) (min e 32)
  if e ≤ 32 then highestBit head else 8 * (e - 32) + highestBit head

/-- EIP-198: complexity of a multiplication. -/
def complexity198 (x : Nat) : Nat :=
  if x ≤ 64 then x ^ 2
  else if x ≤ 1024 then x ^ 2 / 4 + 96 * x - 3072
  else x ^ 2 / 16 + 480 * x - 199680

/-- EIP-2565: complexity of a multiplication, with words of eight bytes. -/
def complexity2565 (x : Nat) : Nat := ((x + 7) / 8) ^ 2

/-- Gas of a modular exponentiation: EIP-198, and EIP-2565 from Berlin. -/
def modexpGas (berlin : Bool) (input : Bytes) : Nat :=
  let m := max (baseLength input) (modulusLength input)
  let e := max (adjustedExponentLength input) 1
  if berlin then max 200 (complexity2565 m * e / 3) else complexity198 m * e / 20

/-- The largest number that can be returned. -/
def saturate (n : Nat) : Nat := min n (2 ^ 64 - 1)

/-- Gas of the other contracts by number; `istanbul`: EIP-1108. -/
def gas (num : Nat) (istanbul : Bool) (input : Bytes) : Nat :=
  match num with
  | 1 => 3000
  | 2 => 60 + 12 * words input.length
  | 3 => 600 + 120 * words input.length
  | 4 => 15 + 3 * words input.length
  | 6 => if istanbul then 150 else 500
  | 7 => if istanbul then 6000 else 40000
  | 8 => if istanbul then 45000 + 34000 * (input.length / 192) else 100000 + 80000 * (input.length / 192)
  | 9 => if input.length < 4 then 0 else numberAt input 0 4
  | _ => 0

/-- What a modular exponentiation returns: as many bytes as the modulus is long. -/
structure IsModexp (input out : Bytes) : Prop where
  length : out.length = modulusLength input
  value : number out = if modulus input = 0 then 0 else base input ^ exponent input % modulus input

end Silkworm.Spec.Precompiled

namespace Silkworm.Spec.Precompiled

/-- ECRECOVER (Yellow Paper, appendix E.1): the four words of the input are h, v, r and s. `recover h (r ++ s) odd` is
the public key, if there is one. The result is the address, left-padded to 32 bytes, or nothing. -/
def ecrecover (keccak : Bytes → Bytes) (recover : Bytes → Bytes → Bool → Option Bytes) (input : Bytes) : Bytes :=
  let n := 115792089237316195423570985008687907852837564279074904382605163141518161494337
  let v := numberAt input 32 32
  let r := numberAt input 64 32
  let s := numberAt input 96 32
  if (v = 27 ∨ v = 28) ∧ 0 < r ∧ r < n ∧ 0 < s ∧ s < n then
    match recover (bytesAt input 0 32) (bytesAt input 64 64) (decide (v = 28)) with
    | some key => List.replicate 12 0 ++ (keccak (key.drop 1)).drop 12
    | none => []
  else []

/-- What `ecdsa::recover` guarantees: a key is found only if both halves of the signature are below the group order, and
it is an uncompressed point: 65 bytes beginning with 4. -/
structure RecoverOk (recover : Bytes → Bytes → Bool → Option Bytes) : Prop where
  range : ∀ h sig odd key, recover h sig odd = some key →
    numberAt sig 0 32 < 115792089237316195423570985008687907852837564279074904382605163141518161494337 ∧
    numberAt sig 32 32 < 115792089237316195423570985008687907852837564279074904382605163141518161494337
  shape : ∀ h sig odd key, recover h sig odd = some key → ∃ point : Bytes, point.length = 64 ∧ key = 4 :: point

end Silkworm.Spec.Precompiled
