import Verif.Base.Bytes

/-!
# Model of ethash/ethash/keccak.cpp

`uint64_t` is `BitVec 64`. The machine is little-endian, so that `le::uint64` (hash_types.hpp:50-59) changes nothing. The two rounds in
the body of the loop are written out in the source with the variables A.. and E.. exchanged; both texts are here, each as a function
of the 25 words they begin with. The versions for different processors (lines 259-279) are the same text. A pointer into the input
is what follows it.
-/

namespace Silkworm.Keccak

abbrev Word := BitVec 64

/-- ethash/ethash/keccak.cpp:15-25 (`load_le`): eight bytes as a little-endian number. -/
def loadLe64 (b : Bytes) : Word := BitVec.ofNat 64 (beToNat (b.take 8).reverse)

/-- ethash/ethash/keccak.cpp:30 (`rotl_64`): `-s` is taken modulo 2^32. -/
def rotl64 (x : Word) (s : Nat) : Word := x <<< s ||| x >>> ((2 ^ 32 - s) % 2 ^ 32 &&& 63)

/-- ethash/ethash/keccak.cpp:32-37. -/
def roundConstants : List Word :=
  [0x0000000000000001, 0x0000000000008082, 0x800000000000808a, 0x8000000080008000, 0x000000000000808b, 0x0000000080000001,
   0x8000000080008081, 0x8000000000008009, 0x000000000000008a, 0x0000000000000088, 0x0000000080008009, 0x000000008000000a,
   0x000000008000808b, 0x800000000000008b, 0x8000000000008089, 0x8000000000008003, 0x8000000000008002, 0x8000000000000080,
   0x000000000000800a, 0x800000008000000a, 0x8000000080008081, 0x8000000000008080, 0x0000000080000001, 0x8000000080008008]

/-- ethash/ethash/keccak.cpp:50-54: the variables `Aba` to `Asu`, or `Eba` to `Esu` (lines 56-60). -/
structure Lanes where
  ba : Word
  be : Word
  bi : Word
  bo : Word
  bu : Word
  ga : Word
  ge : Word
  gi : Word
  go : Word
  gu : Word
  ka : Word
  ke : Word
  ki : Word
  ko : Word
  ku : Word
  ma : Word
  me : Word
  mi : Word
  mo : Word
  mu : Word
  sa : Word
  se : Word
  si : Word
  so : Word
  su : Word
  deriving DecidableEq

/-- ethash/ethash/keccak.cpp:95-160: round `n`, from `Axx` to `Exx`. -/
def roundEven (rc : Word) (s : Lanes) : Lanes :=
  let Ba := s.ba ^^^ s.ga ^^^ s.ka ^^^ s.ma ^^^ s.sa
  let Be := s.be ^^^ s.ge ^^^ s.ke ^^^ s.me ^^^ s.se
  let Bi := s.bi ^^^ s.gi ^^^ s.ki ^^^ s.mi ^^^ s.si
  let Bo := s.bo ^^^ s.go ^^^ s.ko ^^^ s.mo ^^^ s.so
  let Bu := s.bu ^^^ s.gu ^^^ s.ku ^^^ s.mu ^^^ s.su
  let Da := Bu ^^^ rotl64 Be 1
  let De := Ba ^^^ rotl64 Bi 1
  let Di := Be ^^^ rotl64 Bo 1
  let Do_ := Bi ^^^ rotl64 Bu 1
  let Du := Bo ^^^ rotl64 Ba 1
  let Ba := s.ba ^^^ Da
  let Be := rotl64 (s.ge ^^^ De) 44
  let Bi := rotl64 (s.ki ^^^ Di) 43
  let Bo := rotl64 (s.mo ^^^ Do_) 21
  let Bu := rotl64 (s.su ^^^ Du) 14
  let Eba := Ba ^^^ (~~~Be &&& Bi) ^^^ rc
  let Ebe := Be ^^^ (~~~Bi &&& Bo)
  let Ebi := Bi ^^^ (~~~Bo &&& Bu)
  let Ebo := Bo ^^^ (~~~Bu &&& Ba)
  let Ebu := Bu ^^^ (~~~Ba &&& Be)
  let Ba := rotl64 (s.bo ^^^ Do_) 28
  let Be := rotl64 (s.gu ^^^ Du) 20
  let Bi := rotl64 (s.ka ^^^ Da) 3
  let Bo := rotl64 (s.me ^^^ De) 45
  let Bu := rotl64 (s.si ^^^ Di) 61
  let Ega := Ba ^^^ (~~~Be &&& Bi)
  let Ege := Be ^^^ (~~~Bi &&& Bo)
  let Egi := Bi ^^^ (~~~Bo &&& Bu)
  let Ego := Bo ^^^ (~~~Bu &&& Ba)
  let Egu := Bu ^^^ (~~~Ba &&& Be)
  let Ba := rotl64 (s.be ^^^ De) 1
  let Be := rotl64 (s.gi ^^^ Di) 6
  let Bi := rotl64 (s.ko ^^^ Do_) 25
  let Bo := rotl64 (s.mu ^^^ Du) 8
  let Bu := rotl64 (s.sa ^^^ Da) 18
  let Eka := Ba ^^^ (~~~Be &&& Bi)
  let Eke := Be ^^^ (~~~Bi &&& Bo)
  let Eki := Bi ^^^ (~~~Bo &&& Bu)
  let Eko := Bo ^^^ (~~~Bu &&& Ba)
  let Eku := Bu ^^^ (~~~Ba &&& Be)
  let Ba := rotl64 (s.bu ^^^ Du) 27
  let Be := rotl64 (s.ga ^^^ Da) 36
  let Bi := rotl64 (s.ke ^^^ De) 10
  let Bo := rotl64 (s.mi ^^^ Di) 15
  let Bu := rotl64 (s.so ^^^ Do_) 56
  let Ema := Ba ^^^ (~~~Be &&& Bi)
  let Eme := Be ^^^ (~~~Bi &&& Bo)
  let Emi := Bi ^^^ (~~~Bo &&& Bu)
  let Emo := Bo ^^^ (~~~Bu &&& Ba)
  let Emu := Bu ^^^ (~~~Ba &&& Be)
  let Ba := rotl64 (s.bi ^^^ Di) 62
  let Be := rotl64 (s.go ^^^ Do_) 55
  let Bi := rotl64 (s.ku ^^^ Du) 39
  let Bo := rotl64 (s.ma ^^^ Da) 41
  let Bu := rotl64 (s.se ^^^ De) 2
  let Esa := Ba ^^^ (~~~Be &&& Bi)
  let Ese := Be ^^^ (~~~Bi &&& Bo)
  let Esi := Bi ^^^ (~~~Bo &&& Bu)
  let Eso := Bo ^^^ (~~~Bu &&& Ba)
  let Esu := Bu ^^^ (~~~Ba &&& Be)
  ⟨Eba, Ebe, Ebi, Ebo, Ebu, Ega, Ege, Egi, Ego, Egu, Eka, Eke, Eki, Eko, Eku,
    Ema, Eme, Emi, Emo, Emu, Esa, Ese, Esi, Eso, Esu⟩

/-- ethash/ethash/keccak.cpp:164-229: round `n + 1`, from `Exx` to `Axx`. -/
def roundOdd (rc : Word) (s : Lanes) : Lanes :=
  let Ba := s.ba ^^^ s.ga ^^^ s.ka ^^^ s.ma ^^^ s.sa
  let Be := s.be ^^^ s.ge ^^^ s.ke ^^^ s.me ^^^ s.se
  let Bi := s.bi ^^^ s.gi ^^^ s.ki ^^^ s.mi ^^^ s.si
  let Bo := s.bo ^^^ s.go ^^^ s.ko ^^^ s.mo ^^^ s.so
  let Bu := s.bu ^^^ s.gu ^^^ s.ku ^^^ s.mu ^^^ s.su
  let Da := Bu ^^^ rotl64 Be 1
  let De := Ba ^^^ rotl64 Bi 1
  let Di := Be ^^^ rotl64 Bo 1
  let Do_ := Bi ^^^ rotl64 Bu 1
  let Du := Bo ^^^ rotl64 Ba 1
  let Ba := s.ba ^^^ Da
  let Be := rotl64 (s.ge ^^^ De) 44
  let Bi := rotl64 (s.ki ^^^ Di) 43
  let Bo := rotl64 (s.mo ^^^ Do_) 21
  let Bu := rotl64 (s.su ^^^ Du) 14
  let Aba := Ba ^^^ (~~~Be &&& Bi) ^^^ rc
  let Abe := Be ^^^ (~~~Bi &&& Bo)
  let Abi := Bi ^^^ (~~~Bo &&& Bu)
  let Abo := Bo ^^^ (~~~Bu &&& Ba)
  let Abu := Bu ^^^ (~~~Ba &&& Be)
  let Ba := rotl64 (s.bo ^^^ Do_) 28
  let Be := rotl64 (s.gu ^^^ Du) 20
  let Bi := rotl64 (s.ka ^^^ Da) 3
  let Bo := rotl64 (s.me ^^^ De) 45
  let Bu := rotl64 (s.si ^^^ Di) 61
  let Aga := Ba ^^^ (~~~Be &&& Bi)
  let Age := Be ^^^ (~~~Bi &&& Bo)
  let Agi := Bi ^^^ (~~~Bo &&& Bu)
  let Ago := Bo ^^^ (~~~Bu &&& Ba)
  let Agu := Bu ^^^ (~~~Ba &&& Be)
  let Ba := rotl64 (s.be ^^^ De) 1
  let Be := rotl64 (s.gi ^^^ Di) 6
  let Bi := rotl64 (s.ko ^^^ Do_) 25
  let Bo := rotl64 (s.mu ^^^ Du) 8
  let Bu := rotl64 (s.sa ^^^ Da) 18
  let Aka := Ba ^^^ (~~~Be &&& Bi)
  let Ake := Be ^^^ (~~~Bi &&& Bo)
  let Aki := Bi ^^^ (~~~Bo &&& Bu)
  let Ako := Bo ^^^ (~~~Bu &&& Ba)
  let Aku := Bu ^^^ (~~~Ba &&& Be)
  let Ba := rotl64 (s.bu ^^^ Du) 27
  let Be := rotl64 (s.ga ^^^ Da) 36
  let Bi := rotl64 (s.ke ^^^ De) 10
  let Bo := rotl64 (s.mi ^^^ Di) 15
  let Bu := rotl64 (s.so ^^^ Do_) 56
  let Ama := Ba ^^^ (~~~Be &&& Bi)
  let Ame := Be ^^^ (~~~Bi &&& Bo)
  let Ami := Bi ^^^ (~~~Bo &&& Bu)
  let Amo := Bo ^^^ (~~~Bu &&& Ba)
  let Amu := Bu ^^^ (~~~Ba &&& Be)
  let Ba := rotl64 (s.bi ^^^ Di) 62
  let Be := rotl64 (s.go ^^^ Do_) 55
  let Bi := rotl64 (s.ku ^^^ Du) 39
  let Bo := rotl64 (s.ma ^^^ Da) 41
  let Bu := rotl64 (s.se ^^^ De) 2
  let Asa := Ba ^^^ (~~~Be &&& Bi)
  let Ase := Be ^^^ (~~~Bi &&& Bo)
  let Asi := Bi ^^^ (~~~Bo &&& Bu)
  let Aso := Bo ^^^ (~~~Bu &&& Ba)
  let Asu := Bu ^^^ (~~~Ba &&& Be)
  ⟨Aba, Abe, Abi, Abo, Abu, Aga, Age, Agi, Ago, Agu, Aka, Ake, Aki, Ako, Aku,
    Ama, Ame, Ami, Amo, Amu, Asa, Ase, Asi, Aso, Asu⟩

/-- ethash/ethash/keccak.cpp:66-90: the words of the state. -/
def loadLanes (st : List Word) : Lanes :=
  ⟨st.getD 0 0, st.getD 1 0, st.getD 2 0, st.getD 3 0, st.getD 4 0,
    st.getD 5 0, st.getD 6 0, st.getD 7 0, st.getD 8 0, st.getD 9 0,
    st.getD 10 0, st.getD 11 0, st.getD 12 0, st.getD 13 0, st.getD 14 0,
    st.getD 15 0, st.getD 16 0, st.getD 17 0, st.getD 18 0, st.getD 19 0,
    st.getD 20 0, st.getD 21 0, st.getD 22 0, st.getD 23 0, st.getD 24 0⟩

/-- ethash/ethash/keccak.cpp:232-256. -/
def storeLanes (s : Lanes) : List Word :=
  [s.ba, s.be, s.bi, s.bo, s.bu,
    s.ga, s.ge, s.gi, s.go, s.gu,
    s.ka, s.ke, s.ki, s.ko, s.ku,
    s.ma, s.me, s.mi, s.mo, s.mu,
    s.sa, s.se, s.si, s.so, s.su]

/-- ethash/ethash/keccak.cpp:92-230: the loop, with `n` twice the number of the iteration. -/
def roundLoop (s : Lanes) : Lanes :=
  (List.range 12).foldl (fun s i => roundOdd (roundConstants.getD (2 * i + 1) 0) (roundEven (roundConstants.getD (2 * i) 0) s)) s

/-- ethash/ethash/keccak.cpp:49-257 (`keccakf1600_implementation`). -/
def keccakf1600 (st : List Word) : List Word := storeLanes (roundLoop (loadLanes st))

/-- `state[i] ^= w` -/
def xorAt (st : List Word) (i : Nat) (w : Word) : List Word := st.set i (st.getD i 0 ^^^ w)

/-- ethash/ethash/keccak.cpp:298-301: a whole block. -/
def xorBlock (words : Nat) (st : List Word) (input : Bytes) : List Word × Bytes :=
  (List.range words).foldl (fun p i => (xorAt p.1 i (loadLe64 p.2), p.2.drop 8)) (st, input)

/-- ethash/ethash/keccak.cpp:295-314: the loop over the input: the state, the position of `state_iterator` and the bytes in
`last_word`. `fuel` bounds the number of rounds. -/
def absorbLoop (blockSize : Nat) : Nat → List Word → Nat → Bytes → List Word × Nat × Bytes
  | 0, st, pos, _ => (st, pos, [])
  | fuel + 1, st, pos, input =>
    if input.length = 0 then (st, pos, [])
    else if input.length ≥ blockSize then
      let p := xorBlock (blockSize / 8) st input
      absorbLoop blockSize fuel (keccakf1600 p.1) pos p.2
    else if input.length ≥ 8 then absorbLoop blockSize fuel (xorAt st pos (loadLe64 input)) (pos + 1) (input.drop 8)
    else (st, pos, input)

/-- ethash/ethash/keccak.cpp:281-325 (`keccak`): the words of the result. `last_word` was zero. -/
def keccakWords (bits : Nat) (input : Bytes) : List Word :=
  let hashSize := bits / 8
  let blockSize := (1600 - bits * 2) / 8
  let r := absorbLoop blockSize (input.length + 1) (List.replicate 25 0) 0 input
  let last := (r.2.2 ++ [0x01] ++ List.replicate (7 - r.2.2.length) 0)
  let st := xorAt r.1 r.2.1 (loadLe64 last)
  let st := xorAt st (blockSize / 8 - 1) 0x8000000000000000
  (keccakf1600 st).take (hashSize / 8)

/-- The bytes of a word in memory. -/
def bytesOf (w : Word) : Bytes := (beFixed 8 w.toNat).reverse

/-- ethash/ethash/keccak.cpp:327-331 (`keccak256`). -/
def keccak256 (input : Bytes) : Bytes := (keccakWords 256 input).flatMap bytesOf

/-- ethash/ethash/keccak.cpp:335-339 (`keccak512`). -/
def keccak512 (input : Bytes) : Bytes := (keccakWords 512 input).flatMap bytesOf

end Silkworm.Keccak
