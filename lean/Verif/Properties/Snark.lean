import Verif.Crypto.SnarkLemmas
import Verif.Execution.Precompiled
import Mathlib.LinearAlgebra.TensorProduct.Basic

/-!
# C108: addition and multiplication on alt_bn128 are those of EIP-196. C109: the pairing check is that of EIP-197
-/

namespace Silkworm.Properties

open Spec.Bn Snark

/-! ## The specification determines the outcome -/

/-- Every point has exactly one encoding, and bytes encode at most one point. -/
theorem c108_encoding :
    (∀ P : Point1, ∃ b, Encodes1 b P ∧ ∀ b', Encodes1 b' P → b' = b) ∧
    (∀ b P Q, Encodes1 b P → Encodes1 b Q → P = Q) ∧ (∀ b P Q, Encodes2 b P → Encodes2 b Q → P = Q) := by
  refine ⟨fun P => ?_, fun _ _ _ h1 h2 => encodes1_unique h1 h2, fun _ _ _ h1 h2 => encodes2_unique h1 h2⟩
  cases P with
  | zero => exact ⟨_, rfl, fun _ h => h⟩
  | some x y h =>
    have l : ∀ z : Fp, z.val < 256 ^ 32 := fun z => Nat.lt_trans (ZMod.val_lt z) (by decide +kernel)
    have f : ∀ z : Fp, EncodesField (beFixed 32 z.val) z := fun z =>
      ⟨beFixed_length _ _, by rw [number_eq, beToNat_beFixed (l z)]⟩
    have g : ∀ b z, EncodesField b z → b = beFixed 32 z.val := by
      rintro b z ⟨h1, h2⟩
      apply beToNat_inj (by rw [h1, beFixed_length])
      rw [← number_eq, h2, beToNat_beFixed (l z)]
    refine ⟨_, ⟨_, _, rfl, f x, f y⟩, ?_⟩
    rintro _ ⟨b1, b2, rfl, h1, h2⟩
    rw [g _ _ h1, g _ _ h2]

theorem encoding1_unique {b b' : Bytes} {P : Point1} (h : Encodes1 b P) (h' : Encodes1 b' P) : b = b' := by
  obtain ⟨b0, _, hu⟩ := c108_encoding.1 P
  rw [hu b h, hu b' h']

theorem c108_determined (input : Bytes) (o o' : Option Bytes) :
    (IsAddition input o → IsAddition input o' → o = o') ∧ (IsMultiplication input o → IsMultiplication input o' → o = o') := by
  constructor
  · rintro (⟨P, Q, hP, hQ, b, rfl, hb⟩ | ⟨hn, rfl⟩) (⟨P', Q', hP', hQ', b', rfl, hb'⟩ | ⟨hn', rfl⟩)
    · rw [encodes1_unique hP hP', encodes1_unique hQ hQ'] at hb
      rw [encoding1_unique hb hb']
    · exact absurd ⟨P, Q, hP, hQ⟩ hn'
    · exact absurd ⟨P', Q', hP', hQ'⟩ hn
    · rfl
  · rintro (⟨P, hP, b, rfl, hb⟩ | ⟨hn, rfl⟩) (⟨P', hP', b', rfl, hb'⟩ | ⟨hn', rfl⟩)
    · rw [encodes1_unique hP hP'] at hb
      rw [encoding1_unique hb hb']
    · exact absurd ⟨P, hP⟩ hn'
    · exact absurd ⟨P', hP'⟩ hn
    · rfl

/-! ## C108 -/

/-- The contract at address 6 for any input: the sum of the two points, or failure. -/
theorem c108_add (lib : Libff) (pairing : Pairing) (c : Correct lib pairing) (input : Bytes) :
    ∃ out, bnAddRun lib input = .ok out ∧ IsAddition input out := by
  obtain ⟨rest, hr, hl, ht⟩ := padTo_eq 128 input
  have e1 : (rest.1.drop 0).take 64 = (infinite 128 input).take 64 := by
    rw [← ht, List.take_take, List.drop_zero]
    rfl
  have e2 : (rest.1.drop 64).take 64 = (infinite 128 input).drop 64 := by
    rw [← ht, List.drop_take]
  unfold bnAddRun
  rw [hr]
  simp only [Outcome.bind]
  rw [substr_ok _ _ _ (by omega)]
  simp only [Outcome.bind]
  obtain ⟨o1, ho1, hd1⟩ := decodeG1_ok c ((rest.1.drop 0).take 64) (by rw [List.length_take, List.length_drop]; omega)
  rw [ho1]
  simp only [Outcome.bind]
  rw [e1] at hd1
  cases o1 with
  | none => exact ⟨_, rfl, Or.inr ⟨fun ⟨P, _, hP, _⟩ => hd1 ⟨P, hP⟩, rfl⟩⟩
  | some a =>
    obtain ⟨P, ha, hP⟩ := hd1
    dsimp only
    rw [substr_ok _ _ _ (by omega)]
    simp only [Outcome.bind]
    obtain ⟨o2, ho2, hd2⟩ := decodeG1_ok c ((rest.1.drop 64).take 64) (by rw [List.length_take, List.length_drop]; omega)
    rw [ho2]
    simp only [Outcome.bind]
    rw [e2] at hd2
    cases o2 with
    | none => exact ⟨_, rfl, Or.inr ⟨fun ⟨_, Q, _, hQ⟩ => hd2 ⟨Q, hQ⟩, rfl⟩⟩
    | some b =>
      obtain ⟨Q, hb, hQ⟩ := hd2
      exact ⟨_, rfl, Or.inl ⟨P, Q, hP, hQ, _, rfl, encodeG1_ok c (c.add1 _ _ _ _ ha hb)⟩⟩

/-- The contract at address 7 for any input: the multiple of the point, also by numbers above the order, or failure. -/
theorem c108_mul (lib : Libff) (pairing : Pairing) (c : Correct lib pairing) (input : Bytes) :
    ∃ out, bnMulRun lib input = .ok out ∧ IsMultiplication input out := by
  obtain ⟨rest, hr, hl, ht⟩ := padTo_eq 96 input
  have e1 : (rest.1.drop 0).take 64 = (infinite 96 input).take 64 := by
    rw [← ht, List.take_take, List.drop_zero]
    rfl
  have e2 : (rest.1.drop 64).take 32 = (infinite 96 input).drop 64 := by
    rw [← ht, List.drop_take]
  unfold bnMulRun
  rw [hr]
  simp only [Outcome.bind]
  rw [substr_ok _ _ _ (by omega)]
  simp only [Outcome.bind]
  obtain ⟨o1, ho1, hd1⟩ := decodeG1_ok c ((rest.1.drop 0).take 64) (by rw [List.length_take, List.length_drop]; omega)
  rw [ho1]
  simp only [Outcome.bind]
  rw [e1] at hd1
  cases o1 with
  | none => exact ⟨_, rfl, Or.inr ⟨fun ⟨P, hP⟩ => hd1 ⟨P, hP⟩, rfl⟩⟩
  | some a =>
    obtain ⟨P, ha, hP⟩ := hd1
    dsimp only
    have l32 : ((rest.1.drop 64).take 32).length = 32 := by rw [List.length_take, List.length_drop]; omega
    rw [substr_ok _ _ _ (by omega)]
    simp only [Outcome.bind]
    rw [toScalar_ok _ l32]
    simp only [Outcome.bind]
    refine ⟨_, rfl, Or.inl ⟨P, hP, _, rfl, encodeG1_ok c ?_⟩⟩
    have hlt := beToNat_lt ((rest.1.drop 64).take 32)
    rw [l32, show (256 : Nat) ^ 32 = 2 ^ 256 by decide] at hlt
    rw [← e2, number_eq]
    exact c.mul1 _ _ _ hlt ha

/-- The contracts in the table. -/
theorem c108_contract (lib : Libff) (pairing : Pairing) (c : Correct lib pairing) (cr : Precompiled.Crypto)
    (h6 : ∀ m, bnAddRun lib m = .ok (cr.bnAdd m)) (h7 : ∀ m, bnMulRun lib m = .ok (cr.bnMul m)) (input : Bytes) :
    (∃ out, Precompiled.run cr 6 input = .ok out ∧ IsAddition input out) ∧
    (∃ out, Precompiled.run cr 7 input = .ok out ∧ IsMultiplication input out) := by
  obtain ⟨o, ho, ha⟩ := c108_add lib pairing c input
  obtain ⟨o', ho', hm⟩ := c108_mul lib pairing c input
  exact ⟨⟨o, by rw [Precompiled.run, ← h6, ho], ha⟩, ⟨o', by rw [Precompiled.run, ← h7, ho'], hm⟩⟩

/-! ## C109 -/

theorem c109_determined (pairing : Pairing) (input : Bytes) (o o' : Option Bytes) (h : IsCheck pairing input o)
    (h' : IsCheck pairing input o') : o = o' := by
  rcases h with ⟨ps, hps, b, rfl, hl, h1, h0⟩ | ⟨hn, rfl⟩ <;> rcases h' with ⟨ps', hps', b', rfl, hl', h1', h0'⟩ | ⟨hn', rfl⟩
  · rw [← encodesPairs_unique hps hps'] at h1' h0'
    congr 1
    apply beToNat_inj (by rw [hl, hl'])
    rw [← number_eq, ← number_eq]
    by_cases hp : (ps.map fun x => pairing.e x.1 x.2).prod = 1
    · rw [h1 hp, h1' hp]
    · rw [h0 hp, h0' hp]
  · exact absurd ⟨ps, hps⟩ hn'
  · exact absurd ⟨ps', hps'⟩ hn
  · rfl

/-- The contract at address 8 for any input: whether the product of the pairings is one, or failure. -/
theorem c109_check (lib : Libff) (pairing : Pairing) (c : Correct lib pairing) (input : Bytes) :
    ∃ out, snarkvRun lib input = .ok out ∧ IsCheck pairing input out := by
  unfold snarkvRun
  by_cases hm : input.length % 192 = 0
  · rw [if_neg (by omega)]
    obtain ⟨o, ho, hlo⟩ := snarkvLoop_ok c input (input.length / 192) 0 lib.one12 1 (by omega) c.one12
    rw [ho]
    simp only [Outcome.bind]
    rw [Nat.zero_mul, List.drop_zero] at hlo
    cases o with
    | none => exact ⟨_, rfl, Or.inr ⟨hlo, rfl⟩⟩
    | some a =>
      obtain ⟨ps, hps, hv⟩ := hlo
      rw [one_mul] at hv
      have hf := c.final _ _ hv
      refine ⟨_, rfl, Or.inl ⟨ps, hps, _, rfl, ?_, ?_, ?_⟩⟩
      · split <;> rfl
      · intro h1
        rw [if_pos (hf.mpr h1)]
        decide
      · intro h1
        rw [if_neg (fun ht => h1 (hf.mp ht))]
        decide
  · rw [if_pos hm]
    refine ⟨_, rfl, Or.inr ⟨?_, rfl⟩⟩
    rintro ⟨ps, hps⟩
    have := encodesPairs_length hps
    omega

/-- The contract in the table. -/
theorem c109_contract (lib : Libff) (pairing : Pairing) (c : Correct lib pairing) (cr : Precompiled.Crypto)
    (h8 : ∀ m, snarkvRun lib m = .ok (cr.pairing m)) (input : Bytes) :
    ∃ out, Precompiled.run cr 8 input = .ok out ∧ IsCheck pairing input out := by
  obtain ⟨o, ho, ha⟩ := c109_check lib pairing c input
  exact ⟨o, by rw [Precompiled.run, ← h8, ho], ha⟩

/-- A use of the check: the pairs of `P` with `Q` and of `-P` with `Q` pass for any points. -/
theorem c109_inverse (lib : Libff) (pairing : Pairing) (c : Correct lib pairing) (P : Point1) (Q : Point2) (hg : InG2 Q)
    (b1 b2 b3 : Bytes) (h1 : Encodes1 b1 P) (h2 : Encodes2 b2 Q) (h3 : Encodes1 b3 (-P)) :
    snarkvRun lib (b1 ++ b2 ++ (b3 ++ b2)) = .ok (some (List.replicate 31 0 ++ [1])) := by
  obtain ⟨o, ho, hc⟩ := c109_check lib pairing c (b1 ++ b2 ++ (b3 ++ b2))
  rw [ho]
  refine congrArg Outcome.ok ?_
  refine c109_determined pairing _ _ _ hc (Or.inl ⟨[(P, Q), (-P, Q)],
    ⟨b1, b2, b3 ++ b2, rfl, h1, h2, hg, b3, b2, [], by rw [List.append_nil], h3, h2, hg, rfl⟩, _, rfl, rfl, ?_, ?_⟩)
  · intro _
    decide
  · intro hp
    refine absurd ?_ hp
    simp only [List.map_cons, List.map_nil, List.prod_cons, List.prod_nil, mul_one]
    rw [← pairing.add_left _ _ _ hg, add_neg_cancel]
    exact pairing_zero_left pairing hg

/-! ## The assumptions can be met -/

/-- The tensor product as a pairing. -/
noncomputable def tensorPairing : Pairing where
  T := Multiplicative (TensorProduct ℤ Point1 Point2)
  group := inferInstance
  e P Q := Multiplicative.ofAdd (TensorProduct.tmul ℤ P Q)
  add_left P P' Q _ := by rw [TensorProduct.add_tmul, ofAdd_add]
  add_right P Q Q' _ _ := by rw [TensorProduct.tmul_add, ofAdd_add]

open Classical in
/-- A library that computes with the points themselves; `none` is a point that is not on the curve. -/
noncomputable def reference : Libff where
  G1 := Option Point1
  G2 := Option Point2
  F12 := tensorPairing.T
  q := p
  zero1 := some 0
  mk1 x y := if h : curve1.Nonsingular (x : Fp) (y : Fp) then some (.some _ _ h) else none
  wellFormed1 a := a.isSome
  isZero1 a := a == some 0
  add1 a b := match a, b with
    | some P, some Q => some (P + Q)
    | _, _ => none
  mul1 n a := a.map (n • ·)
  affine1 a := match a with
    | some (.some x y _) => (x.val, y.val)
    | _ => (0, 1)
  zero2 := some 0
  mk2 x y := if h : curve2.Nonsingular ⟨(x.1 : Fp), (x.2 : Fp)⟩ ⟨(y.1 : Fp), (y.2 : Fp)⟩ then some (.some _ _ h) else none
  wellFormed2 a := a.isSome
  isZero2 a := a == some 0
  order2 := r
  mul2 n a := a.map (n • ·)
  one12 := 1
  mul12 a b := a * b
  eq12 a b := decide (a = b)
  miller a b := match a, b with
    | some P, some Q => tensorPairing.e P Q
    | _, _ => 1
  finalExp a := a

open Classical in
/-- It does what is assumed. -/
noncomputable def referenceCorrect : Correct reference tensorPairing where
  rep1 a P := a = some P
  rep2 a P := a = some P
  rep12 a t := a = t
  q_eq := rfl
  order_eq := rfl
  zero1 := rfl
  wellFormed1 x y _ _ := by
    show Option.isSome (dite _ _ _) = true ↔ _
    by_cases h : curve1.Nonsingular (x : Fp) (y : Fp)
    · rw [dif_pos h]; exact ⟨fun _ => h.left, fun _ => rfl⟩
    · rw [dif_neg h]; exact ⟨fun h' => (Bool.false_ne_true h').elim, fun h' => absurd (nonsingular1 h') h⟩
  mk1 x y _ _ h := dif_pos h
  isZero1 a P h := by subst h; show (some P == some 0) = true ↔ _; rw [beq_iff_eq, Option.some.injEq]
  add1 a b P Q ha hb := by subst ha hb; rfl
  mul1 n a P _ h := by subst h; rfl
  affine1 a x y h ha := by subst ha; rfl
  zero2 := rfl
  wellFormed2 x0 x1 y0 y1 _ _ _ _ := by
    show Option.isSome (dite _ _ _) = true ↔ _
    by_cases h : curve2.Nonsingular ⟨(x0 : Fp), (x1 : Fp)⟩ ⟨(y0 : Fp), (y1 : Fp)⟩
    · rw [dif_pos h]; exact ⟨fun _ => h.left, fun _ => rfl⟩
    · rw [dif_neg h]; exact ⟨fun h' => (Bool.false_ne_true h').elim, fun h' => absurd (nonsingular2 h') h⟩
  mk2 x0 x1 y0 y1 _ _ _ _ h := dif_pos h
  isZero2 a P h := by subst h; show (some P == some 0) = true ↔ _; rw [beq_iff_eq, Option.some.injEq]
  mul2 a P h := by subst h; rfl
  one12 := rfl
  mul12 a b s t ha hb := by subst ha hb; rfl
  miller a b P Q ha hb _ _ _ := by subst ha hb; rfl
  final a t h := by subst h; exact decide_eq_true_iff

/-! ## Examples -/

theorem generator_on_curve : curve1.Nonsingular 1 2 := by
  apply nonsingular1
  rw [WeierstrassCurve.Affine.equation_iff]
  simp only [curve1]
  norm_num

/-- The point (1, 2). -/
def generator1 : Point1 := .some 1 2 generator_on_curve

def doubleX : Nat := 0x030644e72e131a029b85045b68181585d97816a916871ca8d3c208c16d87cfd3
def doubleY : Nat := 0x15ed738c0e0a7c92e7845f96b2ae9c0a68a6a449e3538fc7ff3ebf7a5a18a2c4

theorem encodes_generator : Encodes1 (beFixed 32 1 ++ beFixed 32 2) generator1 := by
  rw [generator1, encodes1_some_iff, List.take_left' (beFixed_length 32 1), List.drop_left' (beFixed_length 32 1),
    beToNat_beFixed (by decide), beToNat_beFixed (by decide)]
  exact ⟨by simp, by decide +kernel, by decide +kernel, by norm_num, by norm_num⟩

theorem eq_of_dvd {m : Nat} (h : p ∣ m) : (m : Fp) = 0 := (ZMod.natCast_eq_zero_iff m p).mpr h

theorem double_encodes : Encodes1 (beFixed 32 doubleX ++ beFixed 32 doubleY) (generator1 + generator1) := by
  have hy : (2 : Fp) ≠ curve1.negY 1 2 := by
    intro h
    simp only [WeierstrassCurve.Affine.negY, curve1] at h
    have h4 : ((4 : ℕ) : Fp) = 0 := by
      push_cast
      linear_combination h
    exact ne_zero_of_lt 4 (by decide) (by decide +kernel) h4
  have h4 : (4 : Fp) ≠ 0 := by exact_mod_cast ne_zero_of_lt 4 (by decide) (by decide +kernel)
  have hx1 : ((doubleX * 16 + 23 : ℕ) : Fp) = 0 := eq_of_dvd (by decide +kernel)
  have hs : curve1.slope 1 1 2 2 * 4 = 3 := by
    rw [WeierstrassCurve.Affine.slope_of_Y_ne rfl hy]
    simp only [WeierstrassCurve.Affine.negY, curve1]
    rw [show (3 * 1 ^ 2 + 2 * 0 * 1 + 0 - 0 * 2 : Fp) / (2 - (-2 - 0 * 1 - 0)) = 3 / 4 by norm_num, div_mul_cancel₀ _ h4]
  rw [generator1, WeierstrassCurve.Affine.Point.add_self_of_Y_ne hy, encodes1_some_iff,
    List.take_left' (beFixed_length 32 doubleX), List.drop_left' (beFixed_length 32 doubleX), beToNat_beFixed (by decide +kernel),
    beToNat_beFixed (by decide +kernel)]
  have c4 : ∀ a b : Fp, a * 4 = b * 4 → a = b := fun a b h => mul_right_cancel₀ h4 h
  generalize curve1.slope 1 1 2 2 = s at hs
  have hX : curve1.addX 1 1 s = (doubleX : Fp) := by
    simp only [WeierstrassCurve.Affine.addX, curve1]
    apply c4
    apply c4
    push_cast at hx1
    linear_combination (4 * s + 3) * hs - hx1
  have hY0 : ((doubleY * 4 + 3 * doubleX + 5 : ℕ) : Fp) = 0 := eq_of_dvd (by decide +kernel)
  refine ⟨by simp, by decide +kernel, by decide +kernel, hX, ?_⟩
  rw [WeierstrassCurve.Affine.addY, WeierstrassCurve.Affine.negAddY, hX]
  simp only [WeierstrassCurve.Affine.negY, curve1]
  apply c4
  push_cast at hY0
  linear_combination (-(doubleX : Fp) + 1) * hs - hY0

theorem infinite_exact (n : Nat) (input : Bytes) (h : input.length = n) : infinite n input = input := by
  rw [infinite, List.take_left' h]

/-- Twice the generator. -/
example : bnAddRun reference (beFixed 32 1 ++ beFixed 32 2 ++ (beFixed 32 1 ++ beFixed 32 2)) =
    .ok (some (beFixed 32 doubleX ++ beFixed 32 doubleY)) := by
  obtain ⟨o, ho, ha⟩ := c108_add reference _ referenceCorrect (beFixed 32 1 ++ beFixed 32 2 ++ (beFixed 32 1 ++ beFixed 32 2))
  rw [ho]
  refine congrArg Outcome.ok ?_
  refine (c108_determined _ _ _).1 ha (Or.inl ⟨generator1, generator1, ?_, ?_, _, rfl, double_encodes⟩)
  · rw [infinite_exact _ _ (by simp), List.take_left' (by simp)]
    exact encodes_generator
  · rw [infinite_exact _ _ (by simp), List.drop_left' (by simp)]
    exact encodes_generator

/-- The input may be shorter: one point is added to infinity. -/
example : bnAddRun reference (beFixed 32 1 ++ beFixed 32 2) = .ok (some (beFixed 32 1 ++ beFixed 32 2)) := by
  obtain ⟨o, ho, ha⟩ := c108_add reference _ referenceCorrect (beFixed 32 1 ++ beFixed 32 2)
  rw [ho]
  refine congrArg Outcome.ok ?_
  refine (c108_determined _ _ _).1 ha (Or.inl ⟨generator1, 0, ?_, ?_, _, rfl, ?_⟩)
  · rw [show (infinite 128 (beFixed 32 1 ++ beFixed 32 2)).take 64 = beFixed 32 1 ++ beFixed 32 2 by decide +kernel]
    exact encodes_generator
  · show (infinite 128 (beFixed 32 1 ++ beFixed 32 2)).drop 64 = List.replicate 64 0
    decide +kernel
  · rw [add_zero]
    exact encodes_generator

/-- The point (1, 3) is not on the curve. -/
example : bnAddRun reference (beFixed 32 1 ++ beFixed 32 3) = .ok none := by
  obtain ⟨o, ho, ha⟩ := c108_add reference _ referenceCorrect (beFixed 32 1 ++ beFixed 32 3)
  rw [ho]
  refine congrArg Outcome.ok ?_
  refine (c108_determined _ _ _).1 ha (Or.inr ⟨?_, rfl⟩)
  rw [show (infinite 128 (beFixed 32 1 ++ beFixed 32 3)).take 64 = beFixed 32 1 ++ beFixed 32 3 by decide +kernel]
  rintro ⟨P, _, hP, _⟩
  cases P with
  | zero =>
    revert hP
    show ¬ (beFixed 32 1 ++ beFixed 32 3 = List.replicate 64 0)
    decide +kernel
  | some x y h =>
    obtain ⟨_, _, _, hx, hy⟩ := (encodes1_some_iff _ _ _ _).mp hP
    rw [List.take_left' (beFixed_length 32 1), beToNat_beFixed (by decide)] at hx
    rw [List.drop_left' (beFixed_length 32 1), beToNat_beFixed (by decide)] at hy
    subst hx hy
    have he := h.left
    rw [WeierstrassCurve.Affine.equation_iff] at he
    simp only [curve1] at he
    have h5 : ((5 : ℕ) : Fp) = 0 := by
      push_cast at he ⊢
      linear_combination he
    exact ne_zero_of_lt 5 (by decide) (by decide +kernel) h5

/-- Twice the generator, by multiplication. -/
example : bnMulRun reference (beFixed 32 1 ++ beFixed 32 2 ++ beFixed 32 2) =
    .ok (some (beFixed 32 doubleX ++ beFixed 32 doubleY)) := by
  obtain ⟨o, ho, ha⟩ := c108_mul reference _ referenceCorrect (beFixed 32 1 ++ beFixed 32 2 ++ beFixed 32 2)
  rw [ho]
  refine congrArg Outcome.ok ?_
  refine (c108_determined _ _ _).2 ha (Or.inl ⟨generator1, ?_, _, rfl, ?_⟩)
  · rw [infinite_exact _ _ (by simp), List.take_left' (by simp)]
    exact encodes_generator
  · rw [infinite_exact _ _ (by simp), List.drop_left' (by simp), number_eq, beToNat_beFixed (by decide), two_nsmul]
    exact double_encodes

def g2x0 : Nat := 10857046999023057135944570762232829481370756359578518086990519993285655852781
def g2x1 : Nat := 11559732032986387107991004021392285783925812861821192530917403151452391805634
def g2y0 : Nat := 8495653923123431417604973247489272438418190587263600148770280649306958101930
def g2y1 : Nat := 4082367875863433681332203403145435568316851327593401208105741076214120093531

/-- The generator of G2 that EIP-197 gives is on the second curve. -/
example : curve2.Equation ⟨(g2x0 : Fp), (g2x1 : Fp)⟩ ⟨(g2y0 : Fp), (g2y1 : Fp)⟩ := by
  have h9 : (⟨0, 1⟩ + 9 : Fp2) ≠ 0 := by
    intro h
    apply curve2_a₆_ne
    show (3 : Fp2) / (⟨0, 1⟩ + 9) = 0
    rw [h, div_zero]
  have e9 : (9 : Fp2) = ⟨((9 : ℕ) : Fp), 0⟩ := by rw [← fp2_natCast]; norm_cast
  have e3 : (3 : Fp2) = ⟨((3 : ℕ) : Fp), 0⟩ := by rw [← fp2_natCast]; norm_cast
  -- the two coefficients of (y² - x³) (i + 9) = 3, as multiples of p
  have hre : ((9 * g2y0 ^ 2 + 27 * g2x0 * g2x1 ^ 2 + 3 * g2x0 ^ 2 * g2x1 : ℕ) : Fp) =
      ((9 * g2y1 ^ 2 + 9 * g2x0 ^ 3 + 2 * g2y0 * g2y1 + g2x1 ^ 3 + 3 : ℕ) : Fp) :=
    (ZMod.natCast_eq_natCast_iff' _ _ _).mpr (by decide +kernel)
  have him : ((g2y0 ^ 2 + 3 * g2x0 * g2x1 ^ 2 + 18 * g2y0 * g2y1 + 9 * g2x1 ^ 3 : ℕ) : Fp) =
      ((g2y1 ^ 2 + g2x0 ^ 3 + 27 * g2x0 ^ 2 * g2x1 : ℕ) : Fp) :=
    (ZMod.natCast_eq_natCast_iff' _ _ _).mpr (by decide +kernel)
  rw [WeierstrassCurve.Affine.equation_iff]
  have e1 : curve2.a₁ = 0 := rfl
  have e2 : curve2.a₂ = 0 := rfl
  have e3' : curve2.a₃ = 0 := rfl
  have e4 : curve2.a₄ = 0 := rfl
  have e6 : curve2.a₆ * (⟨0, 1⟩ + 9) = 3 := div_mul_cancel₀ _ h9
  rw [e1, e2, e3', e4]
  apply mul_right_cancel₀ h9
  rw [add_mul _ curve2.a₆, e6, e9, e3]
  push_cast at hre him
  generalize (g2x0 : Fp) = x0 at *
  generalize (g2x1 : Fp) = x1 at *
  generalize (g2y0 : Fp) = y0 at *
  generalize (g2y1 : Fp) = y1 at *
  ext
  · simp [pow_succ]
    linear_combination hre
  · simp [pow_succ]
    linear_combination him

/-- Nothing to check. -/
example : snarkvRun reference [] = .ok (some (List.replicate 31 0 ++ [1])) := by
  obtain ⟨o, ho, hc⟩ := c109_check reference _ referenceCorrect []
  rw [ho]
  refine congrArg Outcome.ok ?_
  exact c109_determined _ _ _ _ hc (Or.inl ⟨[], rfl, _, rfl, rfl, fun _ => by decide, fun h => absurd rfl h⟩)

/-- The generator and infinity. -/
example : snarkvRun reference (beFixed 32 1 ++ beFixed 32 2 ++ List.replicate 128 0) = .ok (some (List.replicate 31 0 ++ [1])) := by
  obtain ⟨o, ho, hc⟩ := c109_check reference _ referenceCorrect (beFixed 32 1 ++ beFixed 32 2 ++ List.replicate 128 0)
  rw [ho]
  refine congrArg Outcome.ok ?_
  refine c109_determined _ _ _ _ hc (Or.inl ⟨[(generator1, 0)],
    ⟨_, _, [], by rw [List.append_nil], encodes_generator, rfl, inG2_zero, rfl⟩, _, rfl, rfl, fun _ => by decide, fun h => ?_⟩)
  refine absurd ?_ h
  simp only [List.map_cons, List.map_nil, List.prod_cons, List.prod_nil, mul_one]
  exact pairing_zero_right _ _

/-- A length that is no multiple of 192. -/
example : snarkvRun reference [1] = .ok none := by
  obtain ⟨o, ho, hc⟩ := c109_check reference _ referenceCorrect [1]
  rw [ho]
  refine congrArg Outcome.ok ?_
  refine c109_determined _ _ _ _ hc (Or.inr ⟨?_, rfl⟩)
  rintro ⟨ps, hps⟩
  have := encodesPairs_length hps
  simp only [List.length_cons, List.length_nil] at this
  omega

end Silkworm.Properties
