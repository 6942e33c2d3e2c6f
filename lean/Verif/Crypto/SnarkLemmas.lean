import Verif.Crypto.SnarkLibff
import Verif.Execution.PrecompiledLemmas

/-!
# Lemmas about the model of the curve contracts
-/

namespace Silkworm.Snark

open Spec.Bn

theorem number_eq (b : Bytes) : number b = beToNat b := by
  induction b with
  | nil => rfl
  | cons x xs ih => rw [number, beToNat_cons, ih]

theorem p_lt : p < 2 ^ 256 := by decide +kernel

/-! ## The curves are elliptic -/

theorem ne_zero_of_lt (n : Nat) (h0 : 0 < n) (h : n < p) : (n : Fp) ≠ 0 := by
  intro h1
  have h2 := ZMod.val_natCast_of_lt h
  rw [h1, ZMod.val_zero] at h2
  omega

theorem curve1_delta : curve1.Δ ≠ 0 := by
  have h := ne_zero_of_lt 3888 (by decide) (by decide +kernel)
  have e : curve1.Δ = -((3888 : ℕ) : Fp) := by
    simp only [WeierstrassCurve.Δ, WeierstrassCurve.b₂, WeierstrassCurve.b₄, WeierstrassCurve.b₆, WeierstrassCurve.b₈, curve1]
    push_cast
    ring
  rw [e]
  exact neg_ne_zero.mpr h

theorem fp2_natCast (n : Nat) : (n : Fp2) = ⟨(n : Fp), 0⟩ := by
  ext <;> simp

theorem fp2_ne_zero_of_lt (n : Nat) (h0 : 0 < n) (h : n < p) : (n : Fp2) ≠ 0 := by
  intro h1
  have := congrArg QuadraticAlgebra.re h1
  rw [fp2_natCast] at this
  exact ne_zero_of_lt n h0 h this

theorem curve2_a₆_ne : curve2.a₆ ≠ 0 := by
  have h3 : (3 : Fp2) ≠ 0 := by exact_mod_cast fp2_ne_zero_of_lt 3 (by decide) (by decide +kernel)
  refine div_ne_zero h3 ?_
  intro h
  have e9 : (9 : Fp2) = ⟨((9 : ℕ) : Fp), 0⟩ := by rw [← fp2_natCast]; norm_cast
  rw [e9] at h
  have := congrArg QuadraticAlgebra.im h
  simp at this

theorem curve2_delta : curve2.Δ ≠ 0 := by
  have h := fp2_ne_zero_of_lt 432 (by decide) (by decide +kernel)
  have e : curve2.Δ = -(((432 : ℕ) : Fp2) * curve2.a₆ ^ 2) := by
    have e1 : curve2.a₁ = 0 := rfl
    have e2 : curve2.a₂ = 0 := rfl
    have e3 : curve2.a₃ = 0 := rfl
    have e4 : curve2.a₄ = 0 := rfl
    simp only [WeierstrassCurve.Δ, WeierstrassCurve.b₂, WeierstrassCurve.b₄, WeierstrassCurve.b₆, WeierstrassCurve.b₈, e1, e2, e3, e4]
    push_cast
    ring
  rw [e]
  exact neg_ne_zero.mpr (mul_ne_zero h (pow_ne_zero 2 curve2_a₆_ne))

theorem nonsingular1 {x y : Fp} (h : curve1.Equation x y) : curve1.Nonsingular x y :=
  (WeierstrassCurve.Affine.equation_iff_nonsingular_of_Δ_ne_zero curve1_delta).mp h

theorem nonsingular2 {x y : Fp2} (h : curve2.Equation x y) : curve2.Nonsingular x y :=
  (WeierstrassCurve.Affine.equation_iff_nonsingular_of_Δ_ne_zero curve2_delta).mp h

/-- The origin is on neither curve, so that zeros can stand for infinity. -/
theorem origin1 : ¬ curve1.Equation 0 0 := by
  rw [WeierstrassCurve.Affine.equation_zero]
  exact_mod_cast ne_zero_of_lt 3 (by decide) (by decide +kernel)

theorem origin2 : ¬ curve2.Equation 0 0 := by
  rw [WeierstrassCurve.Affine.equation_zero]
  exact curve2_a₆_ne

/-! ## Encodings -/

theorem encodesField_iff (b : Bytes) (x : Fp) : EncodesField b x ↔ b.length = 32 ∧ beToNat b < p ∧ x = (beToNat b : Fp) := by
  rw [EncodesField, number_eq]
  constructor
  · rintro ⟨h1, h2⟩
    exact ⟨h1, h2 ▸ ZMod.val_lt x, by rw [h2, ZMod.natCast_val, ZMod.cast_id]⟩
  · rintro ⟨h1, h2, h3⟩
    exact ⟨h1, by rw [h3, ZMod.val_natCast_of_lt h2]⟩

theorem encodesField_length {b : Bytes} {x : Fp} (h : EncodesField b x) : b.length = 32 := h.1

theorem encodesField2_iff (b : Bytes) (x : Fp2) : EncodesField2 b x ↔
    b.length = 64 ∧ beToNat (b.drop 32) < p ∧ beToNat (b.take 32) < p ∧
      x = ⟨(beToNat (b.drop 32) : Fp), (beToNat (b.take 32) : Fp)⟩ := by
  constructor
  · rintro ⟨b1, b2, rfl, h1, h2⟩
    rw [encodesField_iff] at h1 h2
    rw [List.drop_left' h1.1, List.take_left' h1.1]
    refine ⟨by rw [List.length_append, h1.1, h2.1], h2.2.1, h1.2.1, ?_⟩
    rw [← h1.2.2, ← h2.2.2]
  · rintro ⟨h1, h2, h3, h4⟩
    refine ⟨b.take 32, b.drop 32, (List.take_append_drop 32 b).symm, ?_, ?_⟩ <;> rw [encodesField_iff]
    · exact ⟨by rw [List.length_take]; omega, h3, by rw [h4]⟩
    · exact ⟨by rw [List.length_drop]; omega, h2, by rw [h4]⟩

theorem encodes1_length {b : Bytes} {P : Point1} (h : Encodes1 b P) : b.length = 64 := by
  cases P with
  | zero => rw [show b = _ from h, List.length_replicate]
  | some x y hn =>
    obtain ⟨b1, b2, rfl, h1, h2⟩ := h
    rw [List.length_append, h1.1, h2.1]

theorem encodes2_length {b : Bytes} {P : Point2} (h : Encodes2 b P) : b.length = 128 := by
  cases P with
  | zero => rw [show b = _ from h, List.length_replicate]
  | some x y hn =>
    obtain ⟨b1, b2, rfl, h1, h2⟩ := h
    rw [encodesField2_iff] at h1 h2
    rw [List.length_append, h1.1, h2.1]

theorem encodes1_some_iff (b : Bytes) (x y : Fp) (h : curve1.Nonsingular x y) : Encodes1 b (.some x y h) ↔
    b.length = 64 ∧ beToNat (b.take 32) < p ∧ beToNat (b.drop 32) < p ∧
      x = (beToNat (b.take 32) : Fp) ∧ y = (beToNat (b.drop 32) : Fp) := by
  constructor
  · rintro ⟨b1, b2, rfl, h1, h2⟩
    rw [encodesField_iff] at h1 h2
    rw [List.drop_left' h1.1, List.take_left' h1.1]
    exact ⟨by rw [List.length_append, h1.1, h2.1], h1.2.1, h2.2.1, h1.2.2, h2.2.2⟩
  · rintro ⟨h1, h2, h3, h4, h5⟩
    refine ⟨b.take 32, b.drop 32, (List.take_append_drop 32 b).symm, ?_, ?_⟩ <;> rw [encodesField_iff]
    · exact ⟨by rw [List.length_take]; omega, h2, h4⟩
    · exact ⟨by rw [List.length_drop]; omega, h3, h5⟩

theorem encodes2_some_iff (b : Bytes) (x y : Fp2) (h : curve2.Nonsingular x y) : Encodes2 b (.some x y h) ↔
    b.length = 128 ∧ EncodesField2 (b.take 64) x ∧ EncodesField2 (b.drop 64) y := by
  constructor
  · rintro ⟨b1, b2, rfl, h1, h2⟩
    have l1 := ((encodesField2_iff _ _).mp h1).1
    have l2 := ((encodesField2_iff _ _).mp h2).1
    rw [List.drop_left' l1, List.take_left' l1]
    exact ⟨by rw [List.length_append, l1, l2], h1, h2⟩
  · rintro ⟨_, h2, h3⟩
    exact ⟨b.take 64, b.drop 64, (List.take_append_drop 64 b).symm, h2, h3⟩

theorem eq_zeros (b : Bytes) (h : beToNat b = 0) : b = List.replicate b.length 0 := by
  apply beToNat_inj (by rw [List.length_replicate])
  have := beToNat_replicate_zero b.length []
  rw [List.append_nil] at this
  rw [h, this, beToNat_nil]

theorem zeros_eq (n : Nat) : beToNat (List.replicate n 0) = 0 := by
  have := beToNat_replicate_zero n []
  rw [List.append_nil] at this
  rw [this, beToNat_nil]

/-! ## Decoding -/

theorem substr_ok (b : Bytes) (pos n : Nat) (h : pos ≤ b.length) : substr b pos n = .ok ((b.drop pos).take n) := by
  rw [substr, if_neg (by omega)]

theorem toScalar_ok (b : Bytes) (h : b.length = 32) : toScalar b = .ok (beToNat b) := by
  have hl := beToNat_lt b
  rw [h, show (256 : Nat) ^ 32 = 2 ^ 256 by decide] at hl
  rw [toScalar, if_neg (by omega)]

/-- What decoding a point gives. -/
def Decoded1 {lib : Libff} {pairing : Pairing} (c : Correct lib pairing) (b : Bytes) : Option lib.G1 → Prop
  | some a => ∃ P, c.rep1 a P ∧ Encodes1 b P
  | none => ¬ ∃ P, Encodes1 b P

theorem decodeG1_ok {lib : Libff} {pairing : Pairing} (c : Correct lib pairing) (b : Bytes) (h : b.length = 64) :
    ∃ o, decodeG1Element lib b = .ok o ∧ Decoded1 c b o := by
  have e1 : (b.drop 0).take 32 = b.take 32 := by rw [List.drop_zero]
  have e2 : (b.drop 32).take 32 = b.drop 32 := List.take_of_length_le (by rw [List.length_drop]; omega)
  unfold decodeG1Element
  rw [if_neg (by omega), substr_ok _ _ _ (by omega), e1]
  simp only [Outcome.bind]
  rw [toScalar_ok _ (by rw [List.length_take]; omega)]
  simp only [Outcome.bind, validElementOfFp, c.q_eq]
  by_cases hx : beToNat (b.take 32) < p
  · rw [if_neg (by simp [hx]), substr_ok _ _ _ (by omega), e2]
    simp only [Outcome.bind]
    rw [toScalar_ok _ (by rw [List.length_drop]; omega)]
    simp only [Outcome.bind]
    by_cases hy : beToNat (b.drop 32) < p
    · rw [if_neg (by simp [hy])]
      by_cases h0 : beToNat (b.take 32) = 0 ∧ beToNat (b.drop 32) = 0
      · rw [if_pos h0]
        refine ⟨_, rfl, 0, c.zero1, ?_⟩
        show b = List.replicate 64 0
        rw [← List.take_append_drop 32 b, eq_zeros _ h0.1, eq_zeros _ h0.2, List.length_take, List.length_drop,
          List.replicate_append_replicate]
        congr 1
        omega
      · rw [if_neg h0]
        have hw := c.wellFormed1 _ _ hx hy
        by_cases hc : curve1.Equation (beToNat (b.take 32) : Fp) (beToNat (b.drop 32) : Fp)
        · rw [if_neg (by rw [hw.mpr hc]; decide)]
          exact ⟨_, rfl, _, c.mk1 _ _ hx hy (nonsingular1 hc), (encodes1_some_iff _ _ _ _).mpr ⟨h, hx, hy, rfl, rfl⟩⟩
        · rw [if_pos (by rw [Bool.eq_false_iff.mpr (fun ht => hc (hw.mp ht))]; decide)]
          refine ⟨_, rfl, ?_⟩
          rintro ⟨P, hP⟩
          cases P with
          | zero =>
            apply h0
            rw [show b = _ from hP, List.take_replicate, List.drop_replicate, zeros_eq, zeros_eq]
            exact ⟨rfl, rfl⟩
          | some x y hn =>
            obtain ⟨_, _, _, hx', hy'⟩ := (encodes1_some_iff _ _ _ _).mp hP
            rw [← hx', ← hy'] at hc
            exact hc hn.left
    · rw [if_pos (by simp [hy])]
      refine ⟨_, rfl, ?_⟩
      rintro ⟨P, hP⟩
      cases P with
      | zero =>
        rw [show b = _ from hP, List.drop_replicate, zeros_eq] at hy
        exact hy (by decide +kernel)
      | some x y hn => exact hy ((encodes1_some_iff _ _ _ _).mp hP).2.2.1
  · rw [if_pos (by simp [hx])]
    refine ⟨_, rfl, ?_⟩
    rintro ⟨P, hP⟩
    cases P with
    | zero =>
      rw [show b = _ from hP, List.take_replicate, zeros_eq] at hx
      exact hx (by decide +kernel)
    | some x y hn => exact hx ((encodes1_some_iff _ _ _ _).mp hP).2.1

theorem decodeFp2_ok {lib : Libff} (hq : lib.q = p) (b : Bytes) (h : b.length = 64) :
    decodeFp2Element lib b = .ok (if beToNat (b.drop 32) < p ∧ beToNat (b.take 32) < p then
      some (beToNat (b.drop 32), beToNat (b.take 32)) else none) := by
  have e1 : (b.drop 0).take 32 = b.take 32 := by rw [List.drop_zero]
  have e2 : (b.drop 32).take 32 = b.drop 32 := List.take_of_length_le (by rw [List.length_drop]; omega)
  unfold decodeFp2Element
  rw [if_neg (by omega), substr_ok _ _ _ (by omega), e2]
  simp only [Outcome.bind]
  rw [toScalar_ok _ (by rw [List.length_drop]; omega)]
  simp only [Outcome.bind]
  rw [substr_ok _ _ _ (by omega), e1]
  simp only [Outcome.bind]
  rw [toScalar_ok _ (by rw [List.length_take]; omega)]
  simp only [Outcome.bind, validElementOfFp, hq]
  by_cases hx : beToNat (b.drop 32) < p <;> by_cases hy : beToNat (b.take 32) < p <;> simp [hx, hy]

/-- What decoding a point of the twist gives. -/
def Decoded2 {lib : Libff} {pairing : Pairing} (c : Correct lib pairing) (b : Bytes) : Option lib.G2 → Prop
  | some a => ∃ Q, c.rep2 a Q ∧ Encodes2 b Q ∧ InG2 Q
  | none => ¬ ∃ Q, Encodes2 b Q ∧ InG2 Q

theorem natCast_lt_zero {n : Nat} (h : n < p) (h0 : (n : Fp) = 0) : n = 0 := by
  have := ZMod.val_natCast_of_lt h
  rw [h0, ZMod.val_zero] at this
  omega

theorem inG2_zero : InG2 0 := by
  unfold InG2
  generalize r = n
  exact nsmul_zero n

theorem decodeG2_ok {lib : Libff} {pairing : Pairing} (c : Correct lib pairing) (b : Bytes) (h : b.length = 128) :
    ∃ o, decodeG2Element lib b = .ok o ∧ Decoded2 c b o := by
  have e1 : (b.drop 0).take 64 = b.take 64 := by rw [List.drop_zero]
  have e2 : (b.drop 64).take 64 = b.drop 64 := List.take_of_length_le (by rw [List.length_drop]; omega)
  have l1 : (b.take 64).length = 64 := by rw [List.length_take]; omega
  have l2 : (b.drop 64).length = 64 := by rw [List.length_drop]; omega
  have zero_or : ∀ Q, Encodes2 b Q → (Q = 0 ∧ b = List.replicate 128 0) ∨
      ∃ x y h, Q = .some x y h ∧ EncodesField2 (b.take 64) x ∧ EncodesField2 (b.drop 64) y := by
    intro Q hQ
    cases Q with
    | zero => exact Or.inl ⟨rfl, hQ⟩
    | some x y hn =>
      obtain ⟨_, h2, h3⟩ := (encodes2_some_iff _ _ _ _).mp hQ
      exact Or.inr ⟨x, y, hn, rfl, h2, h3⟩
  unfold decodeG2Element
  rw [if_neg (by omega), substr_ok _ _ _ (by omega), e1]
  simp only [Outcome.bind]
  rw [decodeFp2_ok c.q_eq _ l1]
  by_cases hx : beToNat ((b.take 64).drop 32) < p ∧ beToNat ((b.take 64).take 32) < p
  · rw [if_pos hx]
    simp only [Outcome.bind]
    rw [substr_ok _ _ _ (by omega), e2]
    simp only [Outcome.bind]
    rw [decodeFp2_ok c.q_eq _ l2]
    by_cases hy : beToNat ((b.drop 64).drop 32) < p ∧ beToNat ((b.drop 64).take 32) < p
    · rw [if_pos hy]
      simp only [Outcome.bind]
      by_cases h0 : (beToNat ((b.take 64).drop 32), beToNat ((b.take 64).take 32)) = (0, 0) ∧
          (beToNat ((b.drop 64).drop 32), beToNat ((b.drop 64).take 32)) = (0, 0)
      · rw [if_pos h0]
        refine ⟨_, rfl, 0, c.zero2, ?_, inG2_zero⟩
        show b = List.replicate 128 0
        obtain ⟨ha, hb⟩ := h0
        obtain ⟨ha1, ha2⟩ := Prod.mk.inj ha
        obtain ⟨hb1, hb2⟩ := Prod.mk.inj hb
        rw [← List.take_append_drop 64 b, ← List.take_append_drop 32 (b.take 64), ← List.take_append_drop 32 (b.drop 64),
          eq_zeros _ ha1, eq_zeros _ ha2, eq_zeros _ hb1, eq_zeros _ hb2]
        simp only [List.replicate_append_replicate, List.length_take, List.length_drop]
        congr 1
        omega
      · rw [if_neg h0]
        have hw := c.wellFormed2 _ _ _ _ hx.1 hx.2 hy.1 hy.2
        have not0 : b ≠ List.replicate 128 0 := by
          intro hb
          apply h0
          rw [hb]
          simp only [List.take_replicate, List.drop_replicate, zeros_eq, and_self]
        by_cases hc : curve2.Equation ⟨(beToNat ((b.take 64).drop 32) : Fp), (beToNat ((b.take 64).take 32) : Fp)⟩
            ⟨(beToNat ((b.drop 64).drop 32) : Fp), (beToNat ((b.drop 64).take 32) : Fp)⟩
        · rw [if_neg (by rw [hw.mpr hc]; decide)]
          have hr := c.mk2 _ _ _ _ hx.1 hx.2 hy.1 hy.2 (nonsingular2 hc)
          have hm := c.isZero2 _ _ (c.mul2 _ _ hr)
          have henc : Encodes2 b (.some _ _ (nonsingular2 hc)) := (encodes2_some_iff _ _ _ _).mpr
            ⟨h, (encodesField2_iff _ _).mpr ⟨l1, hx.1, hx.2, rfl⟩, (encodesField2_iff _ _).mpr ⟨l2, hy.1, hy.2, rfl⟩⟩
          by_cases hz : r • (WeierstrassCurve.Affine.Point.some _ _ (nonsingular2 hc) : Point2) = 0
          · rw [if_neg (by rw [hm.mpr hz]; decide)]
            exact ⟨_, rfl, _, hr, henc, hz⟩
          · rw [if_pos (by rw [Bool.eq_false_iff.mpr (fun ht => hz (hm.mp ht))]; decide)]
            refine ⟨_, rfl, ?_⟩
            rintro ⟨Q, hQ, hg⟩
            rcases zero_or Q hQ with ⟨_, h2⟩ | ⟨x, y, hn, rfl, h2, h3⟩
            · exact not0 h2
            · obtain ⟨_, _, _, hx'⟩ := (encodesField2_iff _ _).mp h2
              obtain ⟨_, _, _, hy'⟩ := (encodesField2_iff _ _).mp h3
              subst hx' hy'
              exact hz hg
        · rw [if_pos (by rw [Bool.eq_false_iff.mpr (fun ht => hc (hw.mp ht))]; decide)]
          refine ⟨_, rfl, ?_⟩
          rintro ⟨Q, hQ, _⟩
          rcases zero_or Q hQ with ⟨_, h2⟩ | ⟨x, y, hn, _, h2, h3⟩
          · exact not0 h2
          · obtain ⟨_, _, _, hx'⟩ := (encodesField2_iff _ _).mp h2
            obtain ⟨_, _, _, hy'⟩ := (encodesField2_iff _ _).mp h3
            rw [← hx', ← hy'] at hc
            exact hc hn.left
    · rw [if_neg hy]
      refine ⟨_, rfl, ?_⟩
      rintro ⟨Q, hQ, _⟩
      rcases zero_or Q hQ with ⟨_, h2⟩ | ⟨x, y, hn, _, h2, h3⟩
      · apply hy
        rw [h2]
        simp only [List.take_replicate, List.drop_replicate, zeros_eq]
        decide +kernel
      · obtain ⟨_, h4, h5, _⟩ := (encodesField2_iff _ _).mp h3
        exact hy ⟨h4, h5⟩
  · rw [if_neg hx]
    refine ⟨_, rfl, ?_⟩
    rintro ⟨Q, hQ, _⟩
    rcases zero_or Q hQ with ⟨_, h2⟩ | ⟨x, y, hn, _, h2, h3⟩
    · apply hx
      rw [h2]
      simp only [List.take_replicate, List.drop_replicate, zeros_eq]
      decide +kernel
    · obtain ⟨_, h4, h5, _⟩ := (encodesField2_iff _ _).mp h2
      exact hx ⟨h4, h5⟩

theorem encodeG1_ok {lib : Libff} {pairing : Pairing} (c : Correct lib pairing) {a : lib.G1} {P : Point1} (h : c.rep1 a P) :
    Encodes1 (encodeG1Element lib a) P := by
  unfold encodeG1Element
  have hz := c.isZero1 a P h
  cases P with
  | zero => rw [if_pos (hz.mpr rfl)]; rfl
  | some x y hn =>
    rw [if_neg (fun ht => WeierstrassCurve.Affine.Point.some_ne_zero hn (hz.mp ht)), c.affine1 a x y hn h]
    have l : ∀ z : Fp, z.val < 256 ^ 32 := fun z => Nat.lt_trans (ZMod.val_lt z) (by decide +kernel)
    have f : ∀ z : Fp, EncodesField (beFixed 32 z.val) z := fun z =>
      ⟨beFixed_length _ _, by rw [number_eq, beToNat_beFixed (l z)]⟩
    refine ⟨beFixed 32 x.val, beFixed 32 y.val, ?_, f x, f y⟩
    simp only [limbs, List.reverse_append, List.reverse_reverse]

/-! ## Encodings determine points and points encodings -/

theorem encodes1_unique {b : Bytes} {P Q : Point1} (hP : Encodes1 b P) (hQ : Encodes1 b Q) : P = Q := by
  have zero_some : ∀ x y h, b = List.replicate 64 0 → ¬ Encodes1 b (.some x y h) := by
    intro x y hn hb he
    obtain ⟨_, _, _, hx, hy⟩ := (encodes1_some_iff _ _ _ _).mp he
    rw [hb, List.take_replicate, zeros_eq, Nat.cast_zero] at hx
    rw [hb, List.drop_replicate, zeros_eq, Nat.cast_zero] at hy
    subst hx hy
    exact origin1 hn.left
  cases P with
  | zero =>
    cases Q with
    | zero => rfl
    | some x y h => exact absurd hQ (zero_some x y h hP)
  | some x y h =>
    cases Q with
    | zero => exact absurd hP (zero_some x y h hQ)
    | some x' y' h' =>
      obtain ⟨_, _, _, hx, hy⟩ := (encodes1_some_iff _ _ _ _).mp hP
      obtain ⟨_, _, _, hx', hy'⟩ := (encodes1_some_iff _ _ _ _).mp hQ
      subst hx hy hx' hy'
      rfl

theorem encodes2_unique {b : Bytes} {P Q : Point2} (hP : Encodes2 b P) (hQ : Encodes2 b Q) : P = Q := by
  have zero_some : ∀ x y h, b = List.replicate 128 0 → ¬ Encodes2 b (.some x y h) := by
    intro x y hn hb he
    obtain ⟨_, h2, h3⟩ := (encodes2_some_iff _ _ _ _).mp he
    obtain ⟨_, _, _, hx⟩ := (encodesField2_iff _ _).mp h2
    obtain ⟨_, _, _, hy⟩ := (encodesField2_iff _ _).mp h3
    subst hb
    simp only [List.take_replicate, List.drop_replicate, zeros_eq, Nat.cast_zero] at hx hy
    subst hx hy
    exact origin2 hn.left
  cases P with
  | zero =>
    cases Q with
    | zero => rfl
    | some x y h => exact absurd hQ (zero_some x y h hP)
  | some x y h =>
    cases Q with
    | zero => exact absurd hP (zero_some x y h hQ)
    | some x' y' h' =>
      obtain ⟨_, h2, h3⟩ := (encodes2_some_iff _ _ _ _).mp hP
      obtain ⟨_, _, _, hx⟩ := (encodesField2_iff _ _).mp h2
      obtain ⟨_, _, _, hy⟩ := (encodesField2_iff _ _).mp h3
      obtain ⟨_, h2', h3'⟩ := (encodes2_some_iff _ _ _ _).mp hQ
      obtain ⟨_, _, _, hx'⟩ := (encodesField2_iff _ _).mp h2'
      obtain ⟨_, _, _, hy'⟩ := (encodesField2_iff _ _).mp h3'
      subst hx hy hx' hy'
      rfl

theorem encodesPairs_unique {b : Bytes} {ps qs : List (Point1 × Point2)} (hp : EncodesPairs b ps) (hq : EncodesPairs b qs) :
    ps = qs := by
  induction ps generalizing b qs with
  | nil =>
    cases qs with
    | nil => rfl
    | cons y qs =>
      obtain ⟨b1, b2, b3, he, h1, _⟩ := hq
      have := encodes1_length h1
      rw [show b = [] from hp] at he
      have := congrArg List.length he
      simp only [List.length_append, List.length_nil] at this
      omega
  | cons x ps ih =>
    cases qs with
    | nil =>
      obtain ⟨b1, b2, b3, he, h1, _⟩ := hp
      have := encodes1_length h1
      rw [show b = [] from hq] at he
      have := congrArg List.length he
      simp only [List.length_append, List.length_nil] at this
      omega
    | cons y qs =>
      obtain ⟨b1, b2, b3, he, h1, h2, _, h3⟩ := hp
      obtain ⟨c1, c2, c3, hc, g1, g2, _, g3⟩ := hq
      rw [he] at hc
      obtain ⟨h12, rfl⟩ := List.append_inj hc
        (by rw [List.length_append, List.length_append, encodes1_length h1, encodes2_length h2, encodes1_length g1, encodes2_length g2])
      obtain ⟨rfl, rfl⟩ := List.append_inj h12 (by rw [encodes1_length h1, encodes1_length g1])
      rw [ih h3 g3, Prod.ext (encodes1_unique h1 g1) (encodes2_unique h2 g2)]

/-! ## The pairing check -/

theorem pairing_zero_left (pairing : Pairing) {Q : Point2} (h : InG2 Q) : pairing.e 0 Q = 1 := by
  have := pairing.add_left 0 0 Q h
  rw [add_zero] at this
  exact left_eq_mul.mp this

theorem pairing_zero_right (pairing : Pairing) (P : Point1) : pairing.e P 0 = 1 := by
  have := pairing.add_right P 0 0 inG2_zero inG2_zero
  rw [add_zero] at this
  exact left_eq_mul.mp this

/-- What the loop gives. -/
def Looped {lib : Libff} {pairing : Pairing} (c : Correct lib pairing) (rest : Bytes) (t : pairing.T) : Option lib.F12 → Prop
  | some a => ∃ ps, EncodesPairs rest ps ∧ c.rep12 a (t * (ps.map fun x => pairing.e x.1 x.2).prod)
  | none => ¬ ∃ ps, EncodesPairs rest ps

theorem encodesPairs_cons_iff (b : Bytes) (h : 192 ≤ b.length) (P : Point1) (Q : Point2) (ps : List (Point1 × Point2)) :
    EncodesPairs b ((P, Q) :: ps) ↔
      Encodes1 (b.take 64) P ∧ (Encodes2 ((b.drop 64).take 128) Q ∧ InG2 Q) ∧ EncodesPairs (b.drop 192) ps := by
  constructor
  · rintro ⟨b1, b2, b3, rfl, h1, h2, h3, h4⟩
    have l1 := encodes1_length h1
    have l2 := encodes2_length h2
    rw [List.append_assoc, List.take_left' l1, List.drop_left' l1, List.take_left' l2, ← List.append_assoc,
      List.drop_left' (by rw [List.length_append]; omega)]
    exact ⟨h1, ⟨h2, h3⟩, h4⟩
  · rintro ⟨h1, ⟨h2, h3⟩, h4⟩
    refine ⟨_, _, _, ?_, h1, h2, h3, h4⟩
    rw [List.append_assoc]
    have e : b.drop 192 = (b.drop 64).drop 128 := by rw [List.drop_drop]
    rw [e, List.take_append_drop, List.take_append_drop]

theorem snarkvLoop_ok {lib : Libff} {pairing : Pairing} (c : Correct lib pairing) (input : Bytes) (todo i : Nat) (a : lib.F12)
    (t : pairing.T) (hl : input.length = (i + todo) * 192) (ht : c.rep12 a t) :
    ∃ o, snarkvLoop lib input todo i a = .ok o ∧ Looped c (input.drop (i * 192)) t o := by
  induction todo generalizing i a t with
  | zero =>
    refine ⟨_, rfl, [], ?_, ?_⟩
    · show input.drop (i * 192) = []
      rw [List.drop_eq_nil_iff]
      omega
    · rw [List.map_nil, List.prod_nil, mul_one]
      exact ht
  | succ todo ih =>
    have hlen : (input.drop (i * 192)).length = (todo + 1) * 192 := by rw [List.length_drop]; omega
    have cons_of : ∀ ps, EncodesPairs (input.drop (i * 192)) ps → ∃ P Q ps', ps = (P, Q) :: ps' := by
      intro ps hps
      cases ps with
      | nil =>
        rw [show input.drop (i * 192) = [] from hps, List.length_nil] at hlen
        omega
      | cons x ps => exact ⟨x.1, x.2, ps, rfl⟩
    have hiff := encodesPairs_cons_iff (input.drop (i * 192)) (by omega)
    have e3 : (input.drop (i * 192)).drop 64 = input.drop (i * 192 + 64) := by rw [List.drop_drop]
    have e4 : (input.drop (i * 192)).drop 192 = input.drop ((i + 1) * 192) := by
      rw [List.drop_drop]
      congr 1
      omega
    rw [e3, e4] at hiff
    unfold snarkvLoop
    rw [substr_ok _ _ _ (by omega)]
    simp only [Outcome.bind]
    obtain ⟨o1, ho1, hd1⟩ := decodeG1_ok c ((input.drop (i * 192)).take 64) (by rw [List.length_take]; omega)
    rw [ho1]
    simp only [Outcome.bind]
    cases o1 with
    | none =>
      refine ⟨_, rfl, ?_⟩
      rintro ⟨ps, hps⟩
      obtain ⟨P, Q, ps', rfl⟩ := cons_of ps hps
      exact hd1 ⟨P, ((hiff P Q ps').mp hps).1⟩
    | some a1 =>
      obtain ⟨P, hr1, hP⟩ := hd1
      dsimp only
      rw [substr_ok _ _ _ (by omega)]
      simp only [Outcome.bind]
      obtain ⟨o2, ho2, hd2⟩ := decodeG2_ok c ((input.drop (i * 192 + 64)).take 128) (by rw [List.length_take, List.length_drop]; omega)
      rw [ho2]
      simp only [Outcome.bind]
      cases o2 with
      | none =>
        refine ⟨_, rfl, ?_⟩
        rintro ⟨ps, hps⟩
        obtain ⟨P, Q, ps', rfl⟩ := cons_of ps hps
        exact hd2 ⟨Q, ((hiff P Q ps').mp hps).2.1⟩
      | some b1 =>
        obtain ⟨Q, hr2, hQ⟩ := hd2
        dsimp only
        have step : ∀ a', c.rep12 a' (t * pairing.e P Q) →
            ∃ o, snarkvLoop lib input todo (i + 1) a' = .ok o ∧ Looped c (input.drop (i * 192)) t o := by
          intro a' ha'
          obtain ⟨o, ho, hlo⟩ := ih (i + 1) a' _ (by omega) ha'
          refine ⟨o, ho, ?_⟩
          cases o with
          | none =>
            rintro ⟨ps, hps⟩
            obtain ⟨P', Q', ps', rfl⟩ := cons_of ps hps
            exact hlo ⟨ps', ((hiff P' Q' ps').mp hps).2.2⟩
          | some f =>
            obtain ⟨ps, hps, hv⟩ := hlo
            refine ⟨(P, Q) :: ps, (hiff P Q ps).mpr ⟨hP, hQ, hps⟩, ?_⟩
            rw [List.map_cons, List.prod_cons, ← mul_assoc]
            exact hv
        have z1 := c.isZero1 _ _ hr1
        have z2 := c.isZero2 _ _ hr2
        by_cases hz : P = 0 ∨ Q = 0
        · have he : pairing.e P Q = 1 := by
            rcases hz with rfl | rfl
            · exact pairing_zero_left pairing hQ.2
            · exact pairing_zero_right pairing P
          rw [if_pos (by rw [Bool.or_eq_true]; exact hz.imp z1.mpr z2.mpr)]
          exact step a (by rw [he, mul_one]; exact ht)
        · rw [if_neg (by rw [Bool.or_eq_true]; exact fun h => hz (h.imp z1.mp z2.mp))]
          rw [not_or] at hz
          exact step _ (c.mul12 _ _ _ _ ht (c.miller _ _ _ _ hr1 hr2 hz.1 hz.2 hQ.2))

theorem encodesPairs_length {b : Bytes} {ps : List (Point1 × Point2)} (h : EncodesPairs b ps) : b.length = ps.length * 192 := by
  induction ps generalizing b with
  | nil => rw [show b = [] from h]; rfl
  | cons x ps ih =>
    obtain ⟨b1, b2, b3, rfl, h1, h2, _, h4⟩ := h
    rw [List.length_append, List.length_append, encodes1_length h1, encodes2_length h2, ih h4, List.length_cons]
    omega

theorem padTo_eq (n : Nat) (input : Bytes) : ∃ rest, (rightPad (.external input) n ⟨[], 15⟩ : Outcome Empty (Bytes × Buffer)) = .ok rest ∧
    n ≤ rest.1.length ∧ rest.1.take n = infinite n input := by
  obtain ⟨buffer, h⟩ := rightPad_ok (.external input) n ⟨[], 15⟩ trivial
  refine ⟨_, h, ?_, ?_⟩
  · show n ≤ (input ++ List.replicate (n - input.length) 0).length
    rw [List.length_append, List.length_replicate]
    omega
  · show (input ++ List.replicate (n - input.length) 0).take n = (input ++ List.replicate n 0).take n
    rw [List.take_append, List.take_append, List.take_replicate, List.take_replicate]
    congr 2
    omega

end Silkworm.Snark
