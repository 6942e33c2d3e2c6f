import Verif.Base.Bytes

/-!
# Letters, sizes and splitting, independently of the code
-/

namespace Silkworm.Spec

/-- The same character, or a letter in either case. -/
def SameLetter (a b : UInt8) : Prop :=
  a = b ∨ ∃ i, i < 26 ∧ ((a.toNat = 65 + i ∧ b.toNat = 97 + i) ∨ (a.toNat = 97 + i ∧ b.toNat = 65 + i))

/-- Characters of ASCII only. -/
def Ascii (s : Bytes) : Prop := ∀ c ∈ s, c.toNat < 128

/-- A decimal digit. -/
def Digit (c : UInt8) : Prop := ∃ d, d < 10 ∧ c.toNat = 48 + d

/-- The number that decimal digits stand for. -/
def decimal : Bytes → Nat
  | [] => 0
  | c :: s => (c.toNat - 48) * 10 ^ s.length + decimal s

/-- Units, in all spellings, with their values. -/
def units : List (String × Nat) :=
  [("", 1), ("B", 1), ("b", 1), ("KB", 1024), ("Kb", 1024), ("kB", 1024), ("kb", 1024),
   ("MB", 1024 ^ 2), ("Mb", 1024 ^ 2), ("mB", 1024 ^ 2), ("mb", 1024 ^ 2),
   ("GB", 1024 ^ 3), ("Gb", 1024 ^ 3), ("gB", 1024 ^ 3), ("gb", 1024 ^ 3),
   ("TB", 1024 ^ 4), ("Tb", 1024 ^ 4), ("tB", 1024 ^ 4), ("tb", 1024 ^ 4)]

/-- The characters of a text. -/
def text (s : String) : Bytes := s.toList.map fun c => UInt8.ofNat c.toNat

/-- The text gives a size: digits `whole`, perhaps a point and one to three digits `fraction`, spaces and a unit worth
`unit` bytes. -/
def SizeText (s whole fraction : Bytes) (unit : Nat) : Prop :=
  ∃ (spaces : Nat) (name : String), (name, unit) ∈ units ∧ (∀ c ∈ whole, Digit c) ∧ (∀ c ∈ fraction, Digit c) ∧
    fraction.length ≤ 3 ∧
    s = whole ++ (if fraction = [] then [] else 46 :: fraction) ++ List.replicate spaces 32 ++ text name

/-- That many bytes, rounded down. -/
def sizeValue (whole fraction : Bytes) (unit : Nat) : Nat := decimal (whole ++ fraction) * unit / 10 ^ fraction.length

/-- Parts with a separator between them. -/
def joinWith (separator : Bytes) : List Bytes → Bytes
  | [] => []
  | [p] => p
  | p :: q :: ps => p ++ separator ++ joinWith separator (q :: ps)

/-- The text has the separator in it. -/
def Contains (separator s : Bytes) : Prop := ∃ x y, s = x ++ separator ++ y

end Silkworm.Spec
