/-!
# Specification of the part of CBOR that is used (RFC 8949)

Independent of the model of the encoder: items, and their encoding with the shortest arguments.
-/

namespace Silkworm.Spec

/-- Unsigned numbers, byte strings, arrays and null. -/
inductive CborItem where
  | uint (n : Nat)
  | bytes (b : List UInt8)
  | array (l : List CborItem)
  | null

/-- RFC 8949 section 3: the additional information and the argument of the shortest form. -/
def cborHead (major : UInt8) (n : Nat) : List UInt8 :=
  if n < 24 then [major <<< 5 ||| UInt8.ofNat n]
  else if n < 256 then [major <<< 5 ||| 24, UInt8.ofNat n]
  else if n < 65536 then [major <<< 5 ||| 25, UInt8.ofNat (n / 256), UInt8.ofNat n]
  else if n < 4294967296 then
    [major <<< 5 ||| 26, UInt8.ofNat (n / 16777216), UInt8.ofNat (n / 65536), UInt8.ofNat (n / 256), UInt8.ofNat n]
  else (major <<< 5 ||| 27) :: [56, 48, 40, 32, 24, 16, 8, 0].map fun s => UInt8.ofNat (n >>> s)

mutual
/-- The encoding of an item: major types 0, 2, 4 and 7. -/
def cbor : CborItem → List UInt8
  | .uint n => cborHead 0 n
  | .bytes b => cborHead 2 b.length ++ b
  | .array l => cborHead 4 l.length ++ cborItems l
  | .null => [0xf6]
/-- The encodings of the items of an array. -/
def cborItems : List CborItem → List UInt8
  | [] => []
  | x :: xs => cbor x ++ cborItems xs
end

mutual
/-- Arguments have at most 64 bits. -/
def cborFits : CborItem → Prop
  | .uint n => n < 2 ^ 64
  | .bytes b => b.length < 2 ^ 64
  | .array l => l.length < 2 ^ 64 ∧ cborFitsItems l
  | .null => True
def cborFitsItems : List CborItem → Prop
  | [] => True
  | x :: xs => cborFits x ∧ cborFitsItems xs
end

end Silkworm.Spec
