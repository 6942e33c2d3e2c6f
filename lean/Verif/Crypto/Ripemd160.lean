import Verif.Base.Bytes
import Verif.Base.Outcome

/-!
# Model of core/silkworm/crypto/rmd160.c and rmd160.cpp

`dword` is `BitVec 32`. The 160 lines of `rmd160_compress` that invoke macros are data (`leftLines`, `rightLines`), one entry per
line with the arguments as they stand there; `exec` is what a macro does. The constants with the suffix `UL` make sums of 64 bits;
these are reduced to 32 bits when they are assigned, so addition of words is the same.
-/

namespace Silkworm.Ripemd160

abbrev Word := BitVec 32

/-- core/silkworm/crypto/rmd160.c:47-49 (`ROL`). -/
def rol (x : Word) (n : Nat) : Word := x <<< n ||| x >>> (32 - n)

/-- core/silkworm/crypto/rmd160.c:51-56 (`F` to `J`). -/
def F (x y z : Word) : Word := x ^^^ y ^^^ z
def G (x y z : Word) : Word := (x &&& y) ||| (~~~x &&& z)
def H (x y z : Word) : Word := (x ||| ~~~y) ^^^ z
def I (x y z : Word) : Word := (x &&& z) ||| (y &&& ~~~z)
def J (x y z : Word) : Word := x ^^^ (y ||| ~~~z)

/-- The ten macros of core/silkworm/crypto/rmd160.c:58-108. -/
inductive Macro
  | FF | GG | HH | II | JJ | FFF | GGG | HHH | III | JJJ
  deriving DecidableEq

/-- The variables of a line of computation: `aa` stands for `aa` or `aaa`, and so on. -/
inductive Var
  | aa | bb | cc | dd | ee
  deriving DecidableEq

/-- A line that invokes a macro. -/
structure Line where
  op : Macro
  a : Var
  b : Var
  c : Var
  d : Var
  e : Var
  x : Nat
  s : Nat
  deriving DecidableEq

/-- The values of the variables. -/
structure Regs where
  aa : Word
  bb : Word
  cc : Word
  dd : Word
  ee : Word
  deriving DecidableEq

def Regs.get (r : Regs) : Var → Word
  | .aa => r.aa
  | .bb => r.bb
  | .cc => r.cc
  | .dd => r.dd
  | .ee => r.ee

def Regs.set (r : Regs) (v : Var) (w : Word) : Regs :=
  match v with
  | .aa => { r with aa := w }
  | .bb => { r with bb := w }
  | .cc => { r with cc := w }
  | .dd => { r with dd := w }
  | .ee => { r with ee := w }

/-- core/silkworm/crypto/rmd160.c:60, 65, 70, 75, 80, 85, 90, 95, 100, 105: what is added to `a`. -/
def addend (op : Macro) (b c d x : Word) : Word :=
  match op with
  | .FF => F b c d + x
  | .GG => G b c d + x + 0x5a827999
  | .HH => H b c d + x + 0x6ed9eba1
  | .II => I b c d + x + 0x8f1bbcdc
  | .JJ => J b c d + x + 0xa953fd4e
  | .FFF => F b c d + x
  | .GGG => G b c d + x + 0x7a6d76e9
  | .HHH => H b c d + x + 0x6d703ef3
  | .III => I b c d + x + 0x5c4dd124
  | .JJJ => J b c d + x + 0x50a28be6

/-- core/silkworm/crypto/rmd160.c:58-108: the three statements of a macro. -/
def exec (X : List Word) (r : Regs) (l : Line) : Regs :=
  let r := r.set l.a (r.get l.a + addend l.op (r.get l.b) (r.get l.c) (r.get l.d) (X.getD l.x 0))
  let r := r.set l.a (rol (r.get l.a) l.s + r.get l.e)
  r.set l.c (rol (r.get l.c) 10)

/-- core/silkworm/crypto/rmd160.c:132-220. -/
def leftLines : List Line :=
  [⟨.FF, .aa, .bb, .cc, .dd, .ee, 0, 11⟩, ⟨.FF, .ee, .aa, .bb, .cc, .dd, 1, 14⟩,
   ⟨.FF, .dd, .ee, .aa, .bb, .cc, 2, 15⟩, ⟨.FF, .cc, .dd, .ee, .aa, .bb, 3, 12⟩,
   ⟨.FF, .bb, .cc, .dd, .ee, .aa, 4, 5⟩, ⟨.FF, .aa, .bb, .cc, .dd, .ee, 5, 8⟩,
   ⟨.FF, .ee, .aa, .bb, .cc, .dd, 6, 7⟩, ⟨.FF, .dd, .ee, .aa, .bb, .cc, 7, 9⟩,
   ⟨.FF, .cc, .dd, .ee, .aa, .bb, 8, 11⟩, ⟨.FF, .bb, .cc, .dd, .ee, .aa, 9, 13⟩,
   ⟨.FF, .aa, .bb, .cc, .dd, .ee, 10, 14⟩, ⟨.FF, .ee, .aa, .bb, .cc, .dd, 11, 15⟩,
   ⟨.FF, .dd, .ee, .aa, .bb, .cc, 12, 6⟩, ⟨.FF, .cc, .dd, .ee, .aa, .bb, 13, 7⟩,
   ⟨.FF, .bb, .cc, .dd, .ee, .aa, 14, 9⟩, ⟨.FF, .aa, .bb, .cc, .dd, .ee, 15, 8⟩,
   ⟨.GG, .ee, .aa, .bb, .cc, .dd, 7, 7⟩, ⟨.GG, .dd, .ee, .aa, .bb, .cc, 4, 6⟩,
   ⟨.GG, .cc, .dd, .ee, .aa, .bb, 13, 8⟩, ⟨.GG, .bb, .cc, .dd, .ee, .aa, 1, 13⟩,
   ⟨.GG, .aa, .bb, .cc, .dd, .ee, 10, 11⟩, ⟨.GG, .ee, .aa, .bb, .cc, .dd, 6, 9⟩,
   ⟨.GG, .dd, .ee, .aa, .bb, .cc, 15, 7⟩, ⟨.GG, .cc, .dd, .ee, .aa, .bb, 3, 15⟩,
   ⟨.GG, .bb, .cc, .dd, .ee, .aa, 12, 7⟩, ⟨.GG, .aa, .bb, .cc, .dd, .ee, 0, 12⟩,
   ⟨.GG, .ee, .aa, .bb, .cc, .dd, 9, 15⟩, ⟨.GG, .dd, .ee, .aa, .bb, .cc, 5, 9⟩,
   ⟨.GG, .cc, .dd, .ee, .aa, .bb, 2, 11⟩, ⟨.GG, .bb, .cc, .dd, .ee, .aa, 14, 7⟩,
   ⟨.GG, .aa, .bb, .cc, .dd, .ee, 11, 13⟩, ⟨.GG, .ee, .aa, .bb, .cc, .dd, 8, 12⟩,
   ⟨.HH, .dd, .ee, .aa, .bb, .cc, 3, 11⟩, ⟨.HH, .cc, .dd, .ee, .aa, .bb, 10, 13⟩,
   ⟨.HH, .bb, .cc, .dd, .ee, .aa, 14, 6⟩, ⟨.HH, .aa, .bb, .cc, .dd, .ee, 4, 7⟩,
   ⟨.HH, .ee, .aa, .bb, .cc, .dd, 9, 14⟩, ⟨.HH, .dd, .ee, .aa, .bb, .cc, 15, 9⟩,
   ⟨.HH, .cc, .dd, .ee, .aa, .bb, 8, 13⟩, ⟨.HH, .bb, .cc, .dd, .ee, .aa, 1, 15⟩,
   ⟨.HH, .aa, .bb, .cc, .dd, .ee, 2, 14⟩, ⟨.HH, .ee, .aa, .bb, .cc, .dd, 7, 8⟩,
   ⟨.HH, .dd, .ee, .aa, .bb, .cc, 0, 13⟩, ⟨.HH, .cc, .dd, .ee, .aa, .bb, 6, 6⟩,
   ⟨.HH, .bb, .cc, .dd, .ee, .aa, 13, 5⟩, ⟨.HH, .aa, .bb, .cc, .dd, .ee, 11, 12⟩,
   ⟨.HH, .ee, .aa, .bb, .cc, .dd, 5, 7⟩, ⟨.HH, .dd, .ee, .aa, .bb, .cc, 12, 5⟩,
   ⟨.II, .cc, .dd, .ee, .aa, .bb, 1, 11⟩, ⟨.II, .bb, .cc, .dd, .ee, .aa, 9, 12⟩,
   ⟨.II, .aa, .bb, .cc, .dd, .ee, 11, 14⟩, ⟨.II, .ee, .aa, .bb, .cc, .dd, 10, 15⟩,
   ⟨.II, .dd, .ee, .aa, .bb, .cc, 0, 14⟩, ⟨.II, .cc, .dd, .ee, .aa, .bb, 8, 15⟩,
   ⟨.II, .bb, .cc, .dd, .ee, .aa, 12, 9⟩, ⟨.II, .aa, .bb, .cc, .dd, .ee, 4, 8⟩,
   ⟨.II, .ee, .aa, .bb, .cc, .dd, 13, 9⟩, ⟨.II, .dd, .ee, .aa, .bb, .cc, 3, 14⟩,
   ⟨.II, .cc, .dd, .ee, .aa, .bb, 7, 5⟩, ⟨.II, .bb, .cc, .dd, .ee, .aa, 15, 6⟩,
   ⟨.II, .aa, .bb, .cc, .dd, .ee, 14, 8⟩, ⟨.II, .ee, .aa, .bb, .cc, .dd, 5, 6⟩,
   ⟨.II, .dd, .ee, .aa, .bb, .cc, 6, 5⟩, ⟨.II, .cc, .dd, .ee, .aa, .bb, 2, 12⟩,
   ⟨.JJ, .bb, .cc, .dd, .ee, .aa, 4, 9⟩, ⟨.JJ, .aa, .bb, .cc, .dd, .ee, 0, 15⟩,
   ⟨.JJ, .ee, .aa, .bb, .cc, .dd, 5, 5⟩, ⟨.JJ, .dd, .ee, .aa, .bb, .cc, 9, 11⟩,
   ⟨.JJ, .cc, .dd, .ee, .aa, .bb, 7, 6⟩, ⟨.JJ, .bb, .cc, .dd, .ee, .aa, 12, 8⟩,
   ⟨.JJ, .aa, .bb, .cc, .dd, .ee, 2, 13⟩, ⟨.JJ, .ee, .aa, .bb, .cc, .dd, 10, 12⟩,
   ⟨.JJ, .dd, .ee, .aa, .bb, .cc, 14, 5⟩, ⟨.JJ, .cc, .dd, .ee, .aa, .bb, 1, 12⟩,
   ⟨.JJ, .bb, .cc, .dd, .ee, .aa, 3, 13⟩, ⟨.JJ, .aa, .bb, .cc, .dd, .ee, 8, 14⟩,
   ⟨.JJ, .ee, .aa, .bb, .cc, .dd, 11, 11⟩, ⟨.JJ, .dd, .ee, .aa, .bb, .cc, 6, 8⟩,
   ⟨.JJ, .cc, .dd, .ee, .aa, .bb, 15, 5⟩, ⟨.JJ, .bb, .cc, .dd, .ee, .aa, 13, 6⟩]

/-- core/silkworm/crypto/rmd160.c:222-310. -/
def rightLines : List Line :=
  [⟨.JJJ, .aa, .bb, .cc, .dd, .ee, 5, 8⟩, ⟨.JJJ, .ee, .aa, .bb, .cc, .dd, 14, 9⟩,
   ⟨.JJJ, .dd, .ee, .aa, .bb, .cc, 7, 9⟩, ⟨.JJJ, .cc, .dd, .ee, .aa, .bb, 0, 11⟩,
   ⟨.JJJ, .bb, .cc, .dd, .ee, .aa, 9, 13⟩, ⟨.JJJ, .aa, .bb, .cc, .dd, .ee, 2, 15⟩,
   ⟨.JJJ, .ee, .aa, .bb, .cc, .dd, 11, 15⟩, ⟨.JJJ, .dd, .ee, .aa, .bb, .cc, 4, 5⟩,
   ⟨.JJJ, .cc, .dd, .ee, .aa, .bb, 13, 7⟩, ⟨.JJJ, .bb, .cc, .dd, .ee, .aa, 6, 7⟩,
   ⟨.JJJ, .aa, .bb, .cc, .dd, .ee, 15, 8⟩, ⟨.JJJ, .ee, .aa, .bb, .cc, .dd, 8, 11⟩,
   ⟨.JJJ, .dd, .ee, .aa, .bb, .cc, 1, 14⟩, ⟨.JJJ, .cc, .dd, .ee, .aa, .bb, 10, 14⟩,
   ⟨.JJJ, .bb, .cc, .dd, .ee, .aa, 3, 12⟩, ⟨.JJJ, .aa, .bb, .cc, .dd, .ee, 12, 6⟩,
   ⟨.III, .ee, .aa, .bb, .cc, .dd, 6, 9⟩, ⟨.III, .dd, .ee, .aa, .bb, .cc, 11, 13⟩,
   ⟨.III, .cc, .dd, .ee, .aa, .bb, 3, 15⟩, ⟨.III, .bb, .cc, .dd, .ee, .aa, 7, 7⟩,
   ⟨.III, .aa, .bb, .cc, .dd, .ee, 0, 12⟩, ⟨.III, .ee, .aa, .bb, .cc, .dd, 13, 8⟩,
   ⟨.III, .dd, .ee, .aa, .bb, .cc, 5, 9⟩, ⟨.III, .cc, .dd, .ee, .aa, .bb, 10, 11⟩,
   ⟨.III, .bb, .cc, .dd, .ee, .aa, 14, 7⟩, ⟨.III, .aa, .bb, .cc, .dd, .ee, 15, 7⟩,
   ⟨.III, .ee, .aa, .bb, .cc, .dd, 8, 12⟩, ⟨.III, .dd, .ee, .aa, .bb, .cc, 12, 7⟩,
   ⟨.III, .cc, .dd, .ee, .aa, .bb, 4, 6⟩, ⟨.III, .bb, .cc, .dd, .ee, .aa, 9, 15⟩,
   ⟨.III, .aa, .bb, .cc, .dd, .ee, 1, 13⟩, ⟨.III, .ee, .aa, .bb, .cc, .dd, 2, 11⟩,
   ⟨.HHH, .dd, .ee, .aa, .bb, .cc, 15, 9⟩, ⟨.HHH, .cc, .dd, .ee, .aa, .bb, 5, 7⟩,
   ⟨.HHH, .bb, .cc, .dd, .ee, .aa, 1, 15⟩, ⟨.HHH, .aa, .bb, .cc, .dd, .ee, 3, 11⟩,
   ⟨.HHH, .ee, .aa, .bb, .cc, .dd, 7, 8⟩, ⟨.HHH, .dd, .ee, .aa, .bb, .cc, 14, 6⟩,
   ⟨.HHH, .cc, .dd, .ee, .aa, .bb, 6, 6⟩, ⟨.HHH, .bb, .cc, .dd, .ee, .aa, 9, 14⟩,
   ⟨.HHH, .aa, .bb, .cc, .dd, .ee, 11, 12⟩, ⟨.HHH, .ee, .aa, .bb, .cc, .dd, 8, 13⟩,
   ⟨.HHH, .dd, .ee, .aa, .bb, .cc, 12, 5⟩, ⟨.HHH, .cc, .dd, .ee, .aa, .bb, 2, 14⟩,
   ⟨.HHH, .bb, .cc, .dd, .ee, .aa, 10, 13⟩, ⟨.HHH, .aa, .bb, .cc, .dd, .ee, 0, 13⟩,
   ⟨.HHH, .ee, .aa, .bb, .cc, .dd, 4, 7⟩, ⟨.HHH, .dd, .ee, .aa, .bb, .cc, 13, 5⟩,
   ⟨.GGG, .cc, .dd, .ee, .aa, .bb, 8, 15⟩, ⟨.GGG, .bb, .cc, .dd, .ee, .aa, 6, 5⟩,
   ⟨.GGG, .aa, .bb, .cc, .dd, .ee, 4, 8⟩, ⟨.GGG, .ee, .aa, .bb, .cc, .dd, 1, 11⟩,
   ⟨.GGG, .dd, .ee, .aa, .bb, .cc, 3, 14⟩, ⟨.GGG, .cc, .dd, .ee, .aa, .bb, 11, 14⟩,
   ⟨.GGG, .bb, .cc, .dd, .ee, .aa, 15, 6⟩, ⟨.GGG, .aa, .bb, .cc, .dd, .ee, 0, 14⟩,
   ⟨.GGG, .ee, .aa, .bb, .cc, .dd, 5, 6⟩, ⟨.GGG, .dd, .ee, .aa, .bb, .cc, 12, 9⟩,
   ⟨.GGG, .cc, .dd, .ee, .aa, .bb, 2, 12⟩, ⟨.GGG, .bb, .cc, .dd, .ee, .aa, 13, 9⟩,
   ⟨.GGG, .aa, .bb, .cc, .dd, .ee, 9, 12⟩, ⟨.GGG, .ee, .aa, .bb, .cc, .dd, 7, 5⟩,
   ⟨.GGG, .dd, .ee, .aa, .bb, .cc, 10, 15⟩, ⟨.GGG, .cc, .dd, .ee, .aa, .bb, 14, 8⟩,
   ⟨.FFF, .bb, .cc, .dd, .ee, .aa, 12, 8⟩, ⟨.FFF, .aa, .bb, .cc, .dd, .ee, 15, 5⟩,
   ⟨.FFF, .ee, .aa, .bb, .cc, .dd, 10, 12⟩, ⟨.FFF, .dd, .ee, .aa, .bb, .cc, 4, 9⟩,
   ⟨.FFF, .cc, .dd, .ee, .aa, .bb, 1, 12⟩, ⟨.FFF, .bb, .cc, .dd, .ee, .aa, 5, 5⟩,
   ⟨.FFF, .aa, .bb, .cc, .dd, .ee, 8, 14⟩, ⟨.FFF, .ee, .aa, .bb, .cc, .dd, 7, 6⟩,
   ⟨.FFF, .dd, .ee, .aa, .bb, .cc, 6, 8⟩, ⟨.FFF, .cc, .dd, .ee, .aa, .bb, 2, 13⟩,
   ⟨.FFF, .bb, .cc, .dd, .ee, .aa, 13, 6⟩, ⟨.FFF, .aa, .bb, .cc, .dd, .ee, 14, 5⟩,
   ⟨.FFF, .ee, .aa, .bb, .cc, .dd, 0, 15⟩, ⟨.FFF, .dd, .ee, .aa, .bb, .cc, 3, 13⟩,
   ⟨.FFF, .cc, .dd, .ee, .aa, .bb, 9, 11⟩, ⟨.FFF, .bb, .cc, .dd, .ee, .aa, 11, 11⟩]

/-- core/silkworm/crypto/rmd160.c:112-121 (`rmd160_init`). -/
def init : List Word := [0x67452301, 0xefcdab89, 0x98badcfe, 0x10325476, 0xc3d2e1f0]

/-- core/silkworm/crypto/rmd160.c:125-321 (`rmd160_compress`): the new contents of `MDbuf`. -/
def compress (md X : List Word) : List Word :=
  let m (i : Nat) : Word := md.getD i 0
  let start : Regs := ⟨m 0, m 1, m 2, m 3, m 4⟩
  let l := leftLines.foldl (exec X) start
  let r := rightLines.foldl (exec X) start
  [r.dd + (l.cc + m 1), m 2 + l.dd + r.ee, m 3 + l.ee + r.aa, m 4 + l.aa + r.bb, m 0 + l.bb + r.cc]

/-- `X[i] ^= w`. -/
def xorAt (X : List Word) (i : Nat) (w : Word) : List Word := X.set i (X.getD i 0 ^^^ w)

/-- core/silkworm/crypto/rmd160.c:333-336: the loop over the bytes at `strptr`, from the byte number `i` on. -/
def putBytes : Nat → Bytes → List Word → List Word
  | _, [], X => X
  | i, b :: p, X => putBytes (i + 1) p (xorAt X (i >>> 2) (BitVec.ofNat 32 b.toNat <<< (8 * (i &&& 3))))

/-- core/silkworm/crypto/rmd160.c:325-353 (`rmd160_finish`). `p` is what follows `strptr`; reading beyond is undefined
behaviour. -/
def finish (md : List Word) (p : Bytes) (lswlen mswlen : Word) : Outcome Empty (List Word) :=
  let n := (lswlen &&& 63).toNat
  if p.length < n then .ub
  else
    let X := putBytes 0 (p.take n) (List.replicate 16 0)
    let X := xorAt X ((lswlen >>> 2) &&& 15).toNat ((1 : Word) <<< (8 * (lswlen &&& 3) + 7).toNat)
    let late := n > 55
    let md := if late then compress md X else md
    let X := if late then List.replicate 16 0 else X
    let X := X.set 14 (lswlen <<< 3)
    let X := X.set 15 ((lswlen >>> 29) ||| (mswlen <<< 3))
    .ok (compress md X)

/-- core/silkworm/common/endian.hpp:95-105 (`load_little_u32`), on a little-endian machine. -/
def loadLittle (p : Bytes) : Word :=
  BitVec.ofNat 32 ((p.getD 0 0).toNat + 2 ^ 8 * (p.getD 1 0).toNat + 2 ^ 16 * (p.getD 2 0).toNat + 2 ^ 24 * (p.getD 3 0).toNat)

/-- core/silkworm/crypto/rmd160.cpp:33-39: the loop over whole blocks; `count` is the number of iterations left. -/
def blockLoop : Nat → List Word → Bytes → List Word × Bytes
  | 0, md, p => (md, p)
  | count + 1, md, p =>
    blockLoop count (compress md ((List.range 16).map (fun i => loadLittle (p.drop (4 * i))))) (p.drop 64)

/-- core/silkworm/crypto/rmd160.cpp:25-49 (`calculate_ripemd_160`). `in.size()` is converted to `dword` (line 41). -/
def calculate (input : Bytes) : Outcome Empty Bytes :=
  let s := blockLoop (input.length / 64) init input
  (finish s.1 s.2 (BitVec.ofNat 32 input.length) 0).bind fun buf =>
  .ok ((List.range 5).flatMap (fun i =>
    [UInt8.ofNat (buf.getD i 0).toNat, UInt8.ofNat (buf.getD i 0 >>> 8).toNat, UInt8.ofNat (buf.getD i 0 >>> 16).toNat,
     UInt8.ofNat (buf.getD i 0 >>> 24).toNat]))

end Silkworm.Ripemd160
