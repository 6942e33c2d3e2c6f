import Verif.Crypto.Snark
import Verif.Spec.Snark

/-!
# What is assumed of libff

`Correct lib pairing`: objects of libff stand for points of the two curves and for elements of the target of a pairing,
and the operations do what they are named after. `rep12 a t` means that the final exponentiation takes `a` to `t`.
-/

namespace Silkworm.Snark

open Spec.Bn

structure Correct (lib : Libff) (pairing : Pairing) where
  rep1 : lib.G1 → Point1 → Prop
  rep2 : lib.G2 → Point2 → Prop
  rep12 : lib.F12 → pairing.T → Prop
  q_eq : lib.q = p
  order_eq : lib.order2 = r
  zero1 : rep1 lib.zero1 0
  wellFormed1 : ∀ x y, x < p → y < p → (lib.wellFormed1 (lib.mk1 x y) = true ↔ curve1.Equation (x : Fp) (y : Fp))
  mk1 : ∀ x y, x < p → y < p → ∀ h, rep1 (lib.mk1 x y) (.some (x : Fp) (y : Fp) h)
  isZero1 : ∀ a P, rep1 a P → (lib.isZero1 a = true ↔ P = 0)
  add1 : ∀ a b P Q, rep1 a P → rep1 b Q → rep1 (lib.add1 a b) (P + Q)
  mul1 : ∀ n a P, n < 2 ^ 256 → rep1 a P → rep1 (lib.mul1 n a) (n • P)
  affine1 : ∀ a x y h, rep1 a (.some x y h) → lib.affine1 a = (x.val, y.val)
  zero2 : rep2 lib.zero2 0
  wellFormed2 : ∀ x0 x1 y0 y1, x0 < p → x1 < p → y0 < p → y1 < p →
    (lib.wellFormed2 (lib.mk2 (x0, x1) (y0, y1)) = true ↔ curve2.Equation ⟨(x0 : Fp), (x1 : Fp)⟩ ⟨(y0 : Fp), (y1 : Fp)⟩)
  mk2 : ∀ x0 x1 y0 y1, x0 < p → x1 < p → y0 < p → y1 < p →
    ∀ h, rep2 (lib.mk2 (x0, x1) (y0, y1)) (.some ⟨(x0 : Fp), (x1 : Fp)⟩ ⟨(y0 : Fp), (y1 : Fp)⟩ h)
  isZero2 : ∀ a P, rep2 a P → (lib.isZero2 a = true ↔ P = 0)
  mul2 : ∀ a P, rep2 a P → rep2 (lib.mul2 lib.order2 a) (r • P)
  one12 : rep12 lib.one12 1
  mul12 : ∀ a b s t, rep12 a s → rep12 b t → rep12 (lib.mul12 a b) (s * t)
  miller : ∀ a b P Q, rep1 a P → rep2 b Q → P ≠ 0 → Q ≠ 0 → InG2 Q → rep12 (lib.miller a b) (pairing.e P Q)
  final : ∀ a t, rep12 a t → (lib.eq12 (lib.finalExp a) lib.one12 = true ↔ t = 1)

end Silkworm.Snark
