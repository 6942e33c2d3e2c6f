import Verif.Crypto.Primality
import Mathlib.AlgebraicGeometry.EllipticCurve.Affine.Point
import Mathlib.Algebra.QuadraticAlgebra.Basic
import Mathlib.NumberTheory.LegendreSymbol.Basic

/-!
# EIP-196 and EIP-197

The curve alt_bn128 over the field of `p` elements, its twist over the quadratic extension, the encodings of their points
and the three contracts, in terms of Mathlib's group of the points of a Weierstrass curve.
-/

namespace Silkworm.Spec.Bn

/-- The order of the field (EIP-196). -/
def p : Nat := 21888242871839275222246405745257275088696311157297823662689037894645226208583

/-- The order of the group (EIP-197, `q` there). -/
def r : Nat := 21888242871839275222246405745257275088548364400416034343698204186575808495617

instance prime_p : Fact p.Prime := ⟨Primality.prime_21888242871839275222246405745257275088696311157297823662689037894645226208583⟩

instance prime_r : Fact r.Prime := ⟨Primality.prime_21888242871839275222246405745257275088548364400416034343698204186575808495617⟩

/-- The field. -/
abbrev Fp := ZMod p

/-- -1 is no square, so that adjoining a root `i` of `i² = -1` gives a field. -/
instance no_root : Fact (∀ s : Fp, s ^ 2 ≠ -1 + 0 * s) := ⟨fun s h => by
  rw [zero_mul, add_zero] at h
  have hs : IsSquare (-1 : Fp) := ⟨s, by rw [← h, pow_two]⟩
  have := ZMod.exists_sq_eq_neg_one_iff.mp hs
  revert this
  decide +kernel⟩

/-- The quadratic extension: `⟨re, im⟩` is `re + im * i`. -/
abbrev Fp2 := QuadraticAlgebra Fp (-1) 0

noncomputable instance : DecidableEq Fp2 := Classical.decEq _

/-- The curve `y² = x³ + 3` (EIP-196). -/
def curve1 : WeierstrassCurve.Affine Fp := { a₁ := 0, a₂ := 0, a₃ := 0, a₄ := 0, a₆ := 3 }

/-- The curve `y² = x³ + 3 / (i + 9)` over the extension (EIP-197). -/
noncomputable def curve2 : WeierstrassCurve.Affine Fp2 :=
  { a₁ := 0, a₂ := 0, a₃ := 0, a₄ := 0, a₆ := 3 / (⟨0, 1⟩ + 9) }

abbrev Point1 := curve1.Point
abbrev Point2 := curve2.Point

/-- The number of big-endian bytes. -/
def number : List UInt8 → Nat
  | [] => 0
  | b :: bs => b.toNat * 256 ^ bs.length + number bs

/-- Thirty-two bytes are the number below `p` of the element of the field. -/
def EncodesField (b : List UInt8) (x : Fp) : Prop := b.length = 32 ∧ number b = x.val

/-- Sixty-four bytes are the element `re + im * i`: first `im`, then `re`. -/
def EncodesField2 (b : List UInt8) (x : Fp2) : Prop :=
  ∃ b1 b2, b = b1 ++ b2 ∧ EncodesField b1 x.im ∧ EncodesField b2 x.re

/-- The encoding of points: zeros for infinity, otherwise the two coordinates. -/
def Encodes1 (b : List UInt8) : Point1 → Prop
  | .zero => b = List.replicate 64 0
  | .some x y _ => ∃ b1 b2, b = b1 ++ b2 ∧ EncodesField b1 x ∧ EncodesField b2 y

/-- The encoding of points of the twist. -/
def Encodes2 (b : List UInt8) : Point2 → Prop
  | .zero => b = List.replicate 128 0
  | .some x y _ => ∃ b1 b2, b = b1 ++ b2 ∧ EncodesField2 b1 x ∧ EncodesField2 b2 y

/-- A point of the group G2 of EIP-197. -/
def InG2 (Q : Point2) : Prop := r • Q = 0

/-- The first `n` bytes of the input followed by infinitely many zeros (EIP-196). -/
def infinite (n : Nat) (input : List UInt8) : List UInt8 := (input ++ List.replicate n 0).take n

/-- The outcome of the addition: `none` is failure (EIP-196). -/
def IsAddition (input : List UInt8) (out : Option (List UInt8)) : Prop :=
  (∃ P Q, Encodes1 ((infinite 128 input).take 64) P ∧ Encodes1 ((infinite 128 input).drop 64) Q ∧
    ∃ b, out = some b ∧ Encodes1 b (P + Q)) ∨
  ((¬ ∃ P Q, Encodes1 ((infinite 128 input).take 64) P ∧ Encodes1 ((infinite 128 input).drop 64) Q) ∧ out = none)

/-- The outcome of the multiplication (EIP-196). -/
def IsMultiplication (input : List UInt8) (out : Option (List UInt8)) : Prop :=
  (∃ P, Encodes1 ((infinite 96 input).take 64) P ∧
    ∃ b, out = some b ∧ Encodes1 b (number ((infinite 96 input).drop 64) • P)) ∨
  ((¬ ∃ P, Encodes1 ((infinite 96 input).take 64) P) ∧ out = none)

/-- A bilinear map from G1 and G2 to a group. -/
structure Pairing where
  T : Type
  group : CommGroup T
  e : Point1 → Point2 → T
  add_left : ∀ P P' Q, InG2 Q → e (P + P') Q = e P Q * e P' Q
  add_right : ∀ P Q Q', InG2 Q → InG2 Q' → e P (Q + Q') = e P Q * e P Q'

attribute [instance] Pairing.group

/-- The input is the encodings of the pairs, one after another (EIP-197). -/
def EncodesPairs : List UInt8 → List (Point1 × Point2) → Prop
  | b, [] => b = []
  | b, (P, Q) :: rest => ∃ b1 b2 b3, b = b1 ++ b2 ++ b3 ∧ Encodes1 b1 P ∧ Encodes2 b2 Q ∧ InG2 Q ∧ EncodesPairs b3 rest

/-- The outcome of the check: one if the product of the pairings is one, otherwise zero, in thirty-two bytes; failure if
the input is not a sequence of pairs (EIP-197). -/
def IsCheck (pairing : Pairing) (input : List UInt8) (out : Option (List UInt8)) : Prop :=
  (∃ ps, EncodesPairs input ps ∧ ∃ b, out = some b ∧ b.length = 32 ∧
    ((ps.map fun x => pairing.e x.1 x.2).prod = 1 → number b = 1) ∧
    ((ps.map fun x => pairing.e x.1 x.2).prod ≠ 1 → number b = 0)) ∨
  ((¬ ∃ ps, EncodesPairs input ps) ∧ out = none)

end Silkworm.Spec.Bn
