import Verif.Base.Bytes

/-!
# Specification of Keccak

The permutation Keccak-f[1600] and the sponge as in FIPS 202, sections 3.2 to 4, without the two bits that SHA-3 adds to a message:
this is the function that Ethereum calls Keccak. A lane (64 bits along the axis z) is a word, whose bit `z` has the weight 2^z. The
bits of a byte are taken from the lowest up, so that a lane is eight bytes, the lowest first.
-/

namespace Silkworm.Spec.Keccak

abbrev Word := BitVec 64

/-- Section 3.1: `A[x, y]`. -/
abbrev State := Fin 5 → Fin 5 → Word

/-- Section 3.2.1, steps 1 and 2. -/
def column (a : State) (x : Fin 5) : Word := a x 0 ^^^ a x 1 ^^^ a x 2 ^^^ a x 3 ^^^ a x 4

/-- Section 3.2.1. -/
def theta (a : State) : State := fun x y => a x y ^^^ (column a (x - 1) ^^^ (column a (x + 1)).rotateLeft 1)

/-- Section 3.2.2, step 3: the lanes other than (0, 0) in the order of the walk from (1, 0). -/
def walk : Nat → Fin 5 × Fin 5
  | 0 => (1, 0)
  | t + 1 => let (x, y) := walk t; (y, 2 * x + 3 * y)

/-- Section 3.2.2: by how much a lane is rotated: for the lane that comes after `t` steps, (t + 1)(t + 2) / 2. -/
def offset (x y : Fin 5) : Nat :=
  match (List.range 24).find? (fun t => walk t == (x, y)) with
  | some t => (t + 1) * (t + 2) / 2 % 64
  | none => 0

/-- Section 3.2.2. -/
def rho (a : State) : State := fun x y => (a x y).rotateLeft (offset x y)

/-- Section 3.2.3. -/
def pi (a : State) : State := fun x y => a (x + 3 * y) x

/-- Section 3.2.4. -/
def chi (a : State) : State := fun x y => a x y ^^^ (~~~(a (x + 1) y) &&& a (x + 2) y)

/-- Section 3.2.5, algorithm 5: one step of the register of eight bits. -/
def shiftRegister (r : List Bool) : List Bool :=
  let last := r.getD 7 false
  let r := false :: r
  ((r.set 0 (xor (r.getD 0 false) last)).set 4 (xor (r.getD 4 false) last)).set 5 (xor (r.getD 5 false) last)
    |>.set 6 (xor (r.getD 6 false) last) |>.take 8

/-- Section 3.2.5, algorithm 5. -/
def rc (t : Nat) : Bool :=
  ((List.range (t % 255)).foldl (fun r _ => shiftRegister r) [true, false, false, false, false, false, false, false]).getD 0 false

/-- Section 3.2.5, algorithm 6: the bits 2^j - 1 of the constant of round `i`. -/
def roundConstant (i : Nat) : Word :=
  (List.range 7).foldl (fun w j => if rc (j + 7 * i) then w ||| BitVec.ofNat 64 (2 ^ (2 ^ j - 1)) else w) 0

/-- Section 3.2.5. -/
def iota (w : Word) (a : State) : State := fun x y => if x = 0 ∧ y = 0 then a x y ^^^ w else a x y

/-- Section 3.3. -/
def round (w : Word) (a : State) : State := iota w (chi (pi (rho (theta a))))

/-- Section 3.3: 24 rounds. -/
def permutation (a : State) : State := (List.range 24).foldl (fun a i => round (roundConstant i) a) a

/-- Section 5.1, pad10*1, for whole bytes: a one bit, zeros and a one bit up to a multiple of the rate of `r` bytes. -/
def pad (r : Nat) (m : List UInt8) : List UInt8 :=
  if m.length % r = r - 1 then m ++ [0x81] else m ++ [0x01] ++ List.replicate (r - 2 - m.length % r) 0 ++ [0x80]

/-- The bits of a string of bytes, the lowest of a byte first (appendix B.1). -/
def bits (m : List UInt8) : List Bool := m.flatMap (fun b => (List.range 8).map (fun i => b.toNat.testBit i))

/-- The number of a string of bytes, the lowest byte first. -/
def number : List UInt8 → Nat
  | [] => 0
  | b :: m => b.toNat + 256 * number m

/-- Blocks of `r` bytes. -/
def blocks (r : Nat) (m : List UInt8) : List (List UInt8) := (List.range (m.length / r)).map (fun i => (m.drop (r * i)).take r)

/-- Section 3.1.2: lane (x, y) of a string is made of its bytes from 8(5y + x) on; what is beyond its end is zero. -/
def lanes (block : List UInt8) : State := fun x y => BitVec.ofNat 64 (number ((block.drop (8 * (5 * y.val + x.val))).take 8))

/-- Section 4, step 6. -/
def absorb (a : State) (block : List UInt8) : State := permutation (fun x y => a x y ^^^ lanes block x y)

/-- The `i`-th byte of a word from the lowest. -/
def byte (w : Word) (i : Nat) : UInt8 := UInt8.ofNat (w.toNat / 256 ^ i % 256)

/-- Section 3.1.3: the string of a state: byte `i` is in lane `i / 8`, that is x = (i / 8) mod 5, y = i / 40. -/
def stateByte (a : State) (i : Nat) : UInt8 := byte (a (Fin.ofNat 5 (i / 8)) (Fin.ofNat 5 (i / 40))) (i % 8)

/-- Section 4: the sponge with a rate of `r` bytes and a result of `d` bytes, where `d ≤ r`. -/
def sponge (r d : Nat) (m : List UInt8) : List UInt8 :=
  (List.range d).map (stateByte ((blocks r (pad r m)).foldl absorb (fun _ _ => 0)))

/-- Keccak-256: capacity 512 bits. -/
def keccak256 (m : List UInt8) : List UInt8 := sponge 136 32 m

/-- Keccak-512: capacity 1024 bits. -/
def keccak512 (m : List UInt8) : List UInt8 := sponge 72 64 m

end Silkworm.Spec.Keccak
