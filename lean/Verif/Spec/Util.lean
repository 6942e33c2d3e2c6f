import Verif.Base.Bytes

/-!
# Hexadecimal numbers, independently of the code
-/

namespace Silkworm.Spec

/-- The 16 digits in both spellings, as characters. -/
def hexAlphabet : List (Char × Nat) :=
  [('0', 0), ('1', 1), ('2', 2), ('3', 3), ('4', 4), ('5', 5), ('6', 6), ('7', 7), ('8', 8), ('9', 9),
   ('a', 10), ('b', 11), ('c', 12), ('d', 13), ('e', 14), ('f', 15),
   ('A', 10), ('B', 11), ('C', 12), ('D', 13), ('E', 14), ('F', 15)]

/-- The value of a digit. -/
def hexDigit (ch : UInt8) : Option Nat := hexAlphabet.lookup (Char.ofNat ch.toNat)

/-- The number a sequence of hexadecimal digits stands for, if all of them are digits. -/
def hexNumber : List UInt8 → Option Nat
  | [] => some 0
  | ch :: rest =>
    match hexDigit ch, hexNumber rest with
    | some d, some n => some (d * 16 ^ rest.length + n)
    | _, _ => none

/-- A text is a string of digits, possibly behind "0x" or "0X". -/
def HexText (text digits : List UInt8) : Prop :=
  text = digits ∨ text = 0x30 :: 0x78 :: digits ∨ text = 0x30 :: 0x58 :: digits

end Silkworm.Spec
