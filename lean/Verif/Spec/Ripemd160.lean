import Verif.Spec.Sha256

/-!
# Specification of RIPEMD-160

After H. Dobbertin, A. Bosselaers, B. Preneel, "RIPEMD-160: A Strengthened Version of RIPEMD": the order of message words comes from
two permutations, the amounts of rotation from a table by round and message word, the constants from roots.
-/

namespace Silkworm.Spec

/-- The number of a little-endian byte string. -/
def leNat : List UInt8 → Nat
  | [] => 0
  | b :: bs => b.toNat + 256 * leNat bs

/-- `n` in `k` little-endian bytes. -/
def leBytes : Nat → Nat → List UInt8
  | 0, _ => []
  | k + 1, n => UInt8.ofNat (n % 256) :: leBytes k (n / 256)

namespace Ripemd160

abbrev Word := BitVec 32

/-- The permutation ρ. -/
def rho (i : Nat) : Nat := [7, 4, 13, 1, 10, 6, 15, 3, 12, 0, 9, 5, 2, 14, 11, 8].getD i 0

/-- The permutation π. -/
def pi (i : Nat) : Nat := (9 * i + 5) % 16

/-- ρ applied as many times as there were rounds. -/
def rhoTimes : Nat → Nat → Nat
  | 0, i => i
  | n + 1, i => rho (rhoTimes n i)

/-- The message word of step `j` of the left and of the right line. -/
def wordLeft (j : Nat) : Nat := rhoTimes (j / 16) (j % 16)
def wordRight (j : Nat) : Nat := rhoTimes (j / 16) (pi (j % 16))

/-- The rotation for a message word, by round. -/
def shift (round word : Nat) : Nat :=
  (([[11, 14, 15, 12, 5, 8, 7, 9, 11, 13, 14, 15, 6, 7, 9, 8],
     [12, 13, 11, 15, 6, 9, 9, 7, 12, 15, 11, 13, 7, 8, 7, 7],
     [13, 15, 14, 11, 7, 7, 6, 8, 13, 14, 13, 12, 5, 5, 6, 9],
     [14, 11, 12, 14, 8, 6, 5, 5, 15, 12, 15, 14, 9, 9, 8, 6],
     [15, 12, 13, 13, 9, 5, 8, 6, 14, 11, 12, 11, 8, 6, 5, 5]] : List (List Nat)).getD round []).getD word 0

/-- The Boolean functions. -/
def f (round : Nat) (x y z : Word) : Word :=
  match round with
  | 0 => x ^^^ y ^^^ z
  | 1 => (x &&& y) ||| (~~~x &&& z)
  | 2 => (x ||| ~~~y) ^^^ z
  | 3 => (x &&& z) ||| (y &&& ~~~z)
  | _ => x ^^^ (y ||| ~~~z)

/-- Zero, then the integer parts of 2^30 times the square roots of 2, 3, 5, 7. -/
def constLeft (round : Nat) : Word :=
  if round = 0 then 0 else BitVec.ofNat 32 (rootFloor 2 33 ([2, 3, 5, 7].getD (round - 1) 0 * 2 ^ 60))

/-- The integer parts of 2^30 times the cube roots of 2, 3, 5, 7, then zero. -/
def constRight (round : Nat) : Word :=
  if round = 4 then 0 else BitVec.ofNat 32 (rootFloor 3 33 ([2, 3, 5, 7].getD round 0 * 2 ^ 90))

/-- The chaining variables, or the variables of a line. -/
structure Vars where
  a : Word
  b : Word
  c : Word
  d : Word
  e : Word
  deriving DecidableEq

/-- One step. -/
def step (fv : Word → Word → Word → Word) (x k : Word) (s : Nat) (v : Vars) : Vars :=
  ⟨v.e, (v.a + fv v.b v.c v.d + x + k).rotateLeft s + v.e, v.b, v.c.rotateLeft 10, v.d⟩

/-- The first `n` steps of the left line. -/
def left (X : Nat → Word) (v : Vars) : Nat → Vars
  | 0 => v
  | j + 1 => step (f (j / 16)) (X (wordLeft j)) (constLeft (j / 16)) (shift (j / 16) (wordLeft j)) (left X v j)

/-- The first `n` steps of the right line. -/
def right (X : Nat → Word) (v : Vars) : Nat → Vars
  | 0 => v
  | j + 1 => step (f (4 - j / 16)) (X (wordRight j)) (constRight (j / 16)) (shift (j / 16) (wordRight j)) (right X v j)

/-- The compression function. -/
def compress (h : Vars) (X : Nat → Word) : Vars :=
  let l := left X h 80
  let r := right X h 80
  ⟨h.b + l.c + r.d, h.c + l.d + r.e, h.d + l.e + r.a, h.e + l.a + r.b, h.a + l.b + r.c⟩

/-- A one bit, zeros up to 56 bytes modulo 64, and `bits` in eight little-endian bytes. -/
def padWith (bits : Nat) (m : List UInt8) : List UInt8 :=
  m ++ [0x80] ++ List.replicate ((119 - m.length % 64) % 64) 0 ++ leBytes 8 bits

/-- The `t`-th word of a block. -/
def word (block : List UInt8) (t : Nat) : Word := BitVec.ofNat 32 (leNat ((block.drop (4 * t)).take 4))

def start : Vars := ⟨0x67452301, 0xefcdab89, 0x98badcfe, 0x10325476, 0xc3d2e1f0⟩

def Vars.bytes (v : Vars) : List UInt8 := [v.a, v.b, v.c, v.d, v.e].flatMap (fun x => leBytes 4 x.toNat)

/-- The hash of a message that is said to have a number of bits. -/
def hashWith (bits : Nat) (m : List UInt8) : List UInt8 :=
  ((Sha256.blocks (padWith bits m)).foldl (fun h b => compress h (word b)) start).bytes

/-- RIPEMD-160. -/
def ripemd160 (m : List UInt8) : List UInt8 := hashWith (8 * m.length) m

end Ripemd160

end Silkworm.Spec
