import Verif.Base.Bytes

/-!
# Model of core/silkworm/crypto/blake2b-ref.c and of its use in core/silkworm/execution/precompiled.cpp

`uint64_t` is `BitVec 64`; the machine is little-endian.
-/

namespace Silkworm.Blake2b

abbrev Word := BitVec 64

/-- core/silkworm/crypto/blake2b-ref.c:22-24. -/
def iv : List Word :=
  [0x6a09e667f3bcc908, 0xbb67ae8584caa73b, 0x3c6ef372fe94f82b, 0xa54ff53a5f1d36f1, 0x510e527fade682d1, 0x9b05688c2b3e6c1f,
   0x1f83d9abfb41bd6b, 0x5be0cd19137e2179]

/-- core/silkworm/crypto/blake2b-ref.c:26-32. -/
def sigma : List (List Nat) :=
  [[0, 1, 2, 3, 4, 5, 6, 7, 8, 9, 10, 11, 12, 13, 14, 15], [14, 10, 4, 8, 9, 15, 13, 6, 1, 12, 0, 2, 11, 7, 5, 3],
   [11, 8, 12, 0, 5, 2, 15, 13, 10, 14, 3, 6, 7, 1, 9, 4], [7, 9, 3, 1, 13, 12, 11, 14, 2, 6, 5, 10, 4, 0, 15, 8],
   [9, 0, 5, 7, 2, 4, 10, 15, 14, 1, 11, 12, 6, 8, 3, 13], [2, 12, 6, 10, 0, 11, 8, 3, 4, 13, 7, 5, 15, 14, 1, 9],
   [12, 5, 1, 15, 14, 13, 4, 10, 0, 7, 6, 3, 9, 2, 8, 11], [13, 11, 7, 14, 12, 1, 3, 9, 5, 0, 15, 4, 8, 6, 2, 10],
   [6, 15, 14, 9, 11, 3, 0, 8, 12, 2, 13, 7, 1, 4, 10, 5], [10, 2, 8, 4, 7, 6, 1, 5, 15, 11, 9, 14, 3, 12, 13, 0],
   [0, 1, 2, 3, 4, 5, 6, 7, 8, 9, 10, 11, 12, 13, 14, 15], [14, 10, 4, 8, 9, 15, 13, 6, 1, 12, 0, 2, 11, 7, 5, 3]]

/-- core/silkworm/crypto/blake2.h: the parts of `blake2b_state` that are used. -/
structure State where
  h : List Word
  t : List Word
  f : List Word

/-- core/silkworm/crypto/blake2b-ref.c:34-38 (`load64`). -/
def load64 (src : Bytes) : Word :=
  BitVec.ofNat 64 ((src.getD 0 0).toNat + 2 ^ 8 * (src.getD 1 0).toNat + 2 ^ 16 * (src.getD 2 0).toNat + 2 ^ 24 * (src.getD 3 0).toNat +
    2 ^ 32 * (src.getD 4 0).toNat + 2 ^ 40 * (src.getD 5 0).toNat + 2 ^ 48 * (src.getD 6 0).toNat + 2 ^ 56 * (src.getD 7 0).toNat)

/-- core/silkworm/crypto/blake2b-ref.c:40 (`rotr64`). -/
def rotr64 (w : Word) (c : Nat) : Word := w >>> c ||| w <<< (64 - c)

/-- An element of an array that is not read beyond its end. -/
def at' (l : List Word) (n : Nat) : Word := l.getD n 0

/-- core/silkworm/crypto/blake2b-ref.c:42-52 (macro `G`), for `v[a]`, `v[b]`, `v[c]`, `v[d]`. -/
def g (m : List Word) (r i a b c d : Nat) (v : List Word) : List Word :=
  let v := v.set a (at' v a + at' v b + at' m ((sigma.getD r []).getD (2 * i + 0) 0))
  let v := v.set d (rotr64 (at' v d ^^^ at' v a) 32)
  let v := v.set c (at' v c + at' v d)
  let v := v.set b (rotr64 (at' v b ^^^ at' v c) 24)
  let v := v.set a (at' v a + at' v b + at' m ((sigma.getD r []).getD (2 * i + 1) 0))
  let v := v.set d (rotr64 (at' v d ^^^ at' v a) 16)
  let v := v.set c (at' v c + at' v d)
  v.set b (rotr64 (at' v b ^^^ at' v c) 63)

/-- core/silkworm/crypto/blake2b-ref.c:54-64 (macro `ROUND`). -/
def round (m : List Word) (r : Nat) (v : List Word) : List Word :=
  let v := g m r 0 0 4 8 12 v
  let v := g m r 1 1 5 9 13 v
  let v := g m r 2 2 6 10 14 v
  let v := g m r 3 3 7 11 15 v
  let v := g m r 4 0 5 10 15 v
  let v := g m r 5 1 6 11 12 v
  let v := g m r 6 2 7 8 13 v
  g m r 7 3 4 9 14 v

/-- core/silkworm/crypto/blake2b-ref.c:88-90: the loop over rounds, with `n` iterations done. -/
def rounds (m v : List Word) : Nat → List Word
  | 0 => v
  | n + 1 => round m (n % 10) (rounds m v n)

/-- core/silkworm/crypto/blake2b-ref.c:66-95 (`blake2b_compress`): the new `S->h`. -/
def compress (s : State) (block : Bytes) (r : Nat) : List Word :=
  let m := (List.range 16).map (fun i => load64 (block.drop (i * 8)))
  let v := (List.range 8).map (fun i => at' s.h i) ++
    [at' iv 0, at' iv 1, at' iv 2, at' iv 3, at' iv 4 ^^^ at' s.t 0, at' iv 5 ^^^ at' s.t 1, at' iv 6 ^^^ at' s.f 0,
     at' iv 7 ^^^ at' s.f 1]
  let v := rounds m v r
  (List.range 8).map (fun i => at' s.h i ^^^ at' v i ^^^ at' v (i + 8))

/-- Copying words to memory. -/
def store64 (w : Word) : Bytes :=
  [UInt8.ofNat w.toNat, UInt8.ofNat (w >>> 8).toNat, UInt8.ofNat (w >>> 16).toNat, UInt8.ofNat (w >>> 24).toNat,
   UInt8.ofNat (w >>> 32).toNat, UInt8.ofNat (w >>> 40).toNat, UInt8.ofNat (w >>> 48).toNat, UInt8.ofNat (w >>> 56).toNat]

/-- core/silkworm/execution/precompiled.cpp:346-365: from the bytes of `h`, block and `t` to the bytes of the new `h`. -/
def compressBytes (h block t : Bytes) (final : Bool) (r : Nat) : Bytes :=
  let s : State := ⟨(List.range 8).map (fun i => load64 (h.drop (8 * i))), (List.range 2).map (fun i => load64 (t.drop (8 * i))),
    [if final then 0xffffffffffffffff else 0, 0]⟩
  (compress s block r).flatMap store64

end Silkworm.Blake2b
