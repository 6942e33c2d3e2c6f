import Verif.Db.Access

/-!
# Specification of extracted headers
-/

namespace Silkworm.Spec

/-- The value of a sign, RFC 4648 table 1. -/
def signValue (c : UInt8) : Option Nat :=
  if 65 ≤ c ∧ c ≤ 90 then some (c.toNat - 65)
  else if 97 ≤ c ∧ c ≤ 122 then some (c.toNat - 97 + 26)
  else if 48 ≤ c ∧ c ≤ 57 then some (c.toNat - 48 + 52)
  else if c = 43 then some 62
  else if c = 47 then some 63
  else none

/-- The number that signs stand for, six bits each. -/
def textNumber : List UInt8 → Option Nat
  | [] => some 0
  | c :: t => do some ((← signValue c) * 64 ^ t.length + (← textNumber t))

/-- The number that bytes stand for. -/
def bytesNumber : List UInt8 → Nat
  | [] => 0
  | b :: t => b.toNat * 256 ^ t.length + bytesNumber t

/-- Base 64 without padding: as many signs as needed for the bits, which are followed by zeros. -/
def IsBase64 (text bytes : List UInt8) : Prop :=
  text.length = (8 * bytes.length + 5) / 6 ∧ textNumber text = some (bytesNumber bytes * 2 ^ (6 * text.length - 8 * bytes.length))

end Silkworm.Spec
