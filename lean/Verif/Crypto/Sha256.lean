import Verif.Base.Bytes
import Verif.Base.Outcome

/-!
# Model of core/silkworm/crypto/sha-256.c

`uint32_t` is `BitVec 32`, `size_t` has 64 bits. A pointer into the input is what follows it. The array `w` is declared inside
the loop over `i` (line 178): at the beginning of each iteration its contents are indeterminate. They are a parameter `stale`
that may depend on the iteration and on the contents before.
-/

namespace Silkworm.Sha256

abbrev Word := BitVec 32

/-- core/silkworm/crypto/sha-256.c:25-34. -/
def k : List Word :=
  [0x428a2f98, 0x71374491, 0xb5c0fbcf, 0xe9b5dba5, 0x3956c25b, 0x59f111f1, 0x923f82a4, 0xab1c5ed5,
   0xd807aa98, 0x12835b01, 0x243185be, 0x550c7dc3, 0x72be5d74, 0x80deb1fe, 0x9bdc06a7, 0xc19bf174,
   0xe49b69c1, 0xefbe4786, 0x0fc19dc6, 0x240ca1cc, 0x2de92c6f, 0x4a7484aa, 0x5cb0a9dc, 0x76f988da,
   0x983e5152, 0xa831c66d, 0xb00327c8, 0xbf597fc7, 0xc6e00bf3, 0xd5a79147, 0x06ca6351, 0x14292967,
   0x27b70a85, 0x2e1b2138, 0x4d2c6dfc, 0x53380d13, 0x650a7354, 0x766a0abb, 0x81c2c92e, 0x92722c85,
   0xa2bfe8a1, 0xa81a664b, 0xc24b8b70, 0xc76c51a3, 0xd192e819, 0xd6990624, 0xf40e3585, 0x106aa070,
   0x19a4c116, 0x1e376c08, 0x2748774c, 0x34b0bcb5, 0x391c0cb3, 0x4ed8aa4a, 0x5b9cca4f, 0x682e6ff3,
   0x748f82ee, 0x78a5636f, 0x84c87814, 0x8cc70208, 0x90befffa, 0xa4506ceb, 0xbef9a3f7, 0xc67178f2]

/-- core/silkworm/crypto/sha-256.c:36-42 (`buffer_state`). -/
structure BufferState where
  p : Bytes
  len : Nat
  totalLen : Nat
  singleOneDelivered : Bool
  totalLenDelivered : Bool

/-- core/silkworm/crypto/sha-256.c:44-51 (`right_rot`). -/
def rightRot (value : Word) (count : Nat) : Word := value >>> count ||| value <<< (32 - count)

/-- core/silkworm/crypto/sha-256.c:53-60 (`init_buf_state`). -/
def initBufState (input : Bytes) : BufferState := ⟨input, input.length, input.length, false, false⟩

/-- core/silkworm/crypto/sha-256.c:107-110: the loop that stores seven bytes from the last to the first. -/
def storeBytes : Nat → Nat → Bytes
  | 0, _ => []
  | n + 1, len => storeBytes n (len >>> 8) ++ [UInt8.ofNat len]

/-- core/silkworm/crypto/sha-256.c:104-110: `len * 8` in eight bytes. -/
def storeLength (len : Nat) : Bytes := storeBytes 7 (len >>> 5) ++ [UInt8.ofNat (len <<< 3)]

/-- core/silkworm/crypto/sha-256.c:62-117 (`calc_chunk`): the chunk, and `none` for the return value 0. -/
def calcChunk (s : BufferState) : Option (Bytes × BufferState) :=
  if s.totalLenDelivered then none
  else if s.len ≥ 64 then some (s.p.take 64, { s with p := s.p.drop 64, len := s.len - 64 })
  else
    let chunk := s.p.take s.len
    let space := 64 - s.len
    let s := { s with p := s.p.drop s.len, len := 0 }
    let chunk' := if s.singleOneDelivered then chunk else chunk ++ [0x80]
    let space' := if s.singleOneDelivered then space else space - 1
    let s := { s with singleOneDelivered := true }
    if space' ≥ 8 then
      some (chunk' ++ List.replicate (space' - 8) 0 ++ storeLength s.totalLen, { s with totalLenDelivered := true })
    else some (chunk' ++ List.replicate space' 0, s)

/-- An element of an array that is not read beyond its end. -/
def at' (l : List Word) (n : Nat) : Word := l.getD n 0

/-- core/silkworm/crypto/sha-256.c:182-183: four bytes as a word. -/
def loadWord (chunk : Bytes) (pos : Nat) : Word :=
  let b (i : Nat) : Word := BitVec.ofNat 32 (chunk.getD (pos + i) 0).toNat
  b 0 <<< 24 ||| b 1 <<< 16 ||| b 2 <<< 8 ||| b 3

/-- core/silkworm/crypto/sha-256.c:181-205: the body of the loop over `j`, from the arrays `w` and `ah` to their next contents. -/
def innerStep (chunk : Bytes) (i j : Nat) (w ah : List Word) : List Word × List Word :=
  let w :=
    if i = 0 then w.set j (loadWord chunk (4 * j))
    else
      let s0 := rightRot (at' w ((j + 1) &&& 0xf)) 7 ^^^ rightRot (at' w ((j + 1) &&& 0xf)) 18 ^^^ (at' w ((j + 1) &&& 0xf) >>> 3)
      let s1 := rightRot (at' w ((j + 14) &&& 0xf)) 17 ^^^ rightRot (at' w ((j + 14) &&& 0xf)) 19 ^^^
        (at' w ((j + 14) &&& 0xf) >>> 10)
      w.set j (at' w j + s0 + at' w ((j + 9) &&& 0xf) + s1)
  let s1 := rightRot (at' ah 4) 6 ^^^ rightRot (at' ah 4) 11 ^^^ rightRot (at' ah 4) 25
  let ch := (at' ah 4 &&& at' ah 5) ^^^ (~~~(at' ah 4) &&& at' ah 6)
  let temp1 := at' ah 7 + s1 + ch + at' k (i <<< 4 ||| j) + at' w j
  let s0 := rightRot (at' ah 0) 2 ^^^ rightRot (at' ah 0) 13 ^^^ rightRot (at' ah 0) 22
  let maj := (at' ah 0 &&& at' ah 1) ^^^ (at' ah 0 &&& at' ah 2) ^^^ (at' ah 1 &&& at' ah 2)
  let temp2 := s0 + maj
  (w, [temp1 + temp2, at' ah 0, at' ah 1, at' ah 2, at' ah 3 + temp1, at' ah 4, at' ah 5, at' ah 6])

/-- core/silkworm/crypto/sha-256.c:180-206: the loop over `j`. -/
def innerLoop (chunk : Bytes) (i : Nat) (s : List Word × List Word) : List Word × List Word :=
  (List.range 16).foldl (fun s j => innerStep chunk i j s.1 s.2) s

/-- core/silkworm/crypto/sha-256.c:161-207: the loop over `i`. -/
def outerLoop (stale : Nat → List Word → List Word) (chunk : Bytes) (ah : List Word) : List Word :=
  ((List.range 4).foldl (fun s i => innerLoop chunk i (stale i s.1, s.2)) ([], ah)).2

/-- core/silkworm/crypto/sha-256.c:152-212: the loop over chunks. Running out of `fuel` stands for not terminating. -/
def chunkLoop (stale : Nat → List Word → List Word) : Nat → BufferState → List Word → Outcome Empty (List Word)
  | 0, _, _ => .ub
  | fuel + 1, s, h =>
    match calcChunk s with
    | none => .ok h
    | some (chunk, s) =>
      let ah := outerLoop stale chunk h
      chunkLoop stale fuel s ((List.range 8).map (fun i => at' h i + at' ah i))

/-- core/silkworm/crypto/sha-256.c:127-222 (`calc_sha_256`). -/
def calcSha256 (stale : Nat → List Word → List Word) (input : Bytes) : Outcome Empty Bytes :=
  (chunkLoop stale (input.length / 64 + 4) (initBufState input)
    [0x6a09e667, 0xbb67ae85, 0x3c6ef372, 0xa54ff53a, 0x510e527f, 0x9b05688c, 0x1f83d9ab, 0x5be0cd19]).bind fun h =>
  .ok ((List.range 8).flatMap (fun i =>
    [UInt8.ofNat (at' h i >>> 24).toNat, UInt8.ofNat (at' h i >>> 16).toNat, UInt8.ofNat (at' h i >>> 8).toNat,
     UInt8.ofNat (at' h i).toNat]))

end Silkworm.Sha256
