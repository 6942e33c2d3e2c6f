import Verif.Spec.Ripemd160

/-!
# Specification of the BLAKE2b compression function (RFC 7693) and of the contract of EIP-152

The working vector is a matrix of four rows and four columns, here a list by rows. Half a round changes the four columns, the
other half the four diagonals, each half all at once.
-/

namespace Silkworm.Spec.Blake2b

abbrev Word := BitVec 64

/-- RFC 7693, section 2.6: the first 64 bits of the fractional parts of the square roots of the first eight primes. -/
def iv (i : Nat) : Word := BitVec.ofNat 64 (rootFloor 2 72 ((primesBelow 20).getD i 0 * 2 ^ 128))

/-- RFC 7693, section 2.7: the ten permutations. -/
def sigma (round i : Nat) : Nat :=
  (([[0, 1, 2, 3, 4, 5, 6, 7, 8, 9, 10, 11, 12, 13, 14, 15],
     [14, 10, 4, 8, 9, 15, 13, 6, 1, 12, 0, 2, 11, 7, 5, 3],
     [11, 8, 12, 0, 5, 2, 15, 13, 10, 14, 3, 6, 7, 1, 9, 4],
     [7, 9, 3, 1, 13, 12, 11, 14, 2, 6, 5, 10, 4, 0, 15, 8],
     [9, 0, 5, 7, 2, 4, 10, 15, 14, 1, 11, 12, 6, 8, 3, 13],
     [2, 12, 6, 10, 0, 11, 8, 3, 4, 13, 7, 5, 15, 14, 1, 9],
     [12, 5, 1, 15, 14, 13, 4, 10, 0, 7, 6, 3, 9, 2, 8, 11],
     [13, 11, 7, 14, 12, 1, 3, 9, 5, 0, 15, 4, 8, 6, 2, 10],
     [6, 15, 14, 9, 11, 3, 0, 8, 12, 2, 13, 7, 1, 4, 10, 5],
     [10, 2, 8, 4, 7, 6, 1, 5, 15, 11, 9, 14, 3, 12, 13, 0]] : List (List Nat)).getD (round % 10) []).getD i 0

/-- RFC 7693, section 3.1: mixing of four words with two message words. -/
def mix (a b c d x y : Word) : List Word :=
  let a := a + b + x
  let d := (d ^^^ a).rotateRight 32
  let c := c + d
  let b := (b ^^^ c).rotateRight 24
  let a := a + b + y
  let d := (d ^^^ a).rotateRight 16
  let c := c + d
  let b := (b ^^^ c).rotateRight 63
  [a, b, c, d]

/-- The entry of a matrix. -/
def entry (v : List Word) (row col : Nat) : Word := v.getD (4 * row + col) 0

/-- All columns mixed; `w` are the message words in the order of the round. -/
def columns (w : Nat → Word) (v : List Word) : List Word :=
  (List.range 16).map (fun n =>
    let col := n % 4
    (mix (entry v 0 col) (entry v 1 col) (entry v 2 col) (entry v 3 col) (w (2 * col)) (w (2 * col + 1))).getD (n / 4) 0)

/-- All diagonals mixed: diagonal `i` has the entry of row `k` in column `i + k` modulo 4. -/
def diagonals (w : Nat → Word) (v : List Word) : List Word :=
  (List.range 16).map (fun n =>
    let i := (n % 4 + 4 - n / 4) % 4
    (mix (entry v 0 i) (entry v 1 ((i + 1) % 4)) (entry v 2 ((i + 2) % 4)) (entry v 3 ((i + 3) % 4)) (w (8 + 2 * i))
      (w (9 + 2 * i))).getD (n / 4) 0)

/-- The first `n` rounds. -/
def rounds (m : Nat → Word) (v : List Word) : Nat → List Word
  | 0 => v
  | n + 1 => diagonals (fun i => m (sigma n i)) (columns (fun i => m (sigma n i)) (rounds m v n))

/-- RFC 7693, section 3.2: the function F with any number of rounds. `t` is the 128-bit offset counter. -/
def F (r : Nat) (h m : Nat → Word) (t : Nat) (final : Bool) (i : Nat) : Word :=
  let v := rounds m [h 0, h 1, h 2, h 3, h 4, h 5, h 6, h 7, iv 0, iv 1, iv 2, iv 3, iv 4 ^^^ BitVec.ofNat 64 t,
    iv 5 ^^^ BitVec.ofNat 64 (t / 2 ^ 64), if final then ~~~iv 6 else iv 6, iv 7] r
  h i ^^^ v.getD i 0 ^^^ v.getD (i + 8) 0

/-- The `i`-th little-endian word. -/
def word (b : List UInt8) (i : Nat) : Word := BitVec.ofNat 64 (leNat ((b.drop (8 * i)).take 8))

/-- EIP-152: rounds (4 bytes, big-endian), `h` (64 bytes), message block (128 bytes), offset (16 bytes, little-endian), final
flag (1 byte, 0 or 1); the output is the new `h`. -/
def contract (input : List UInt8) : Option (List UInt8) :=
  if input.length = 213 ∧ (input.getD 212 0 = 0 ∨ input.getD 212 0 = 1) then
    some ((List.range 8).flatMap (fun i => leBytes 8
      (F (beToNat (input.take 4)) (word (input.drop 4)) (word (input.drop 68)) (leNat ((input.drop 196).take 16))
        (input.getD 212 0 == 1) i).toNat))
  else none

end Silkworm.Spec.Blake2b
