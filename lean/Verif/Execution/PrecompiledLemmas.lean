import Verif.Execution.Precompiled
import Verif.Common.UtilLemmas
import Verif.Spec.Precompiled
import Mathlib.Tactic.Ring

/-!
# Helper lemmas about precompiled contracts
-/

namespace Silkworm.Precompiled

open Spec.Precompiled (bytesAt numberAt baseLength exponentLength modulusLength adjustedExponentLength complexity198
  complexity2565 modexpGas saturate highestBit)

theorem number_eq (b : Bytes) : Spec.Precompiled.number b = beToNat b := by
  induction b with
  | nil => rfl
  | cons x xs ih => rw [beToNat_cons, Spec.Precompiled.number, ih]

theorem bytesAt_length (input : Bytes) (off len : Nat) : (bytesAt input off len).length = len := by
  unfold bytesAt; simp

theorem bytesAt_eq {input p : Bytes} (hp : ∀ i, p.getD i 0 = input.getD i 0) {off len : Nat} (h : off + len ≤ p.length) :
    bytesAt input off len = (p.drop off).take len := by
  unfold bytesAt
  apply List.ext_getElem
  · rw [List.length_map, List.length_range, List.length_take, List.length_drop]; omega
  · intro i h1 h2
    have h3 : i < len := by simpa using h1
    rw [List.getElem_map, List.getElem_range, List.getElem_take, List.getElem_drop, ← hp]
    rw [List.getD_eq_getElem?_getD, List.getElem?_eq_getElem (by omega)]
    rfl

/-- Padding with zeros does not change what is read. -/
theorem getD_pad (b : Bytes) (k i : Nat) : (b ++ List.replicate k 0).getD i 0 = b.getD i 0 := by
  rw [List.getD_eq_getElem?_getD, List.getD_eq_getElem?_getD, List.getElem?_append]
  by_cases h : i < b.length
  · rw [if_pos h]
  · rw [if_neg h, List.getElem?_eq_none (l := b) (by omega), List.getElem?_replicate]
    by_cases h2 : i - b.length < k
    · rw [if_pos h2]; rfl
    · rw [if_neg h2]

theorem numberAt_eq {input p : Bytes} (hp : ∀ i, p.getD i 0 = input.getD i 0) {off len : Nat} (h : off + len ≤ p.length) :
    numberAt input off len = beToNat ((p.drop off).take len) := by
  unfold numberAt; rw [number_eq, bytesAt_eq hp h]

theorem beToNat_zeros (k : Nat) : beToNat (List.replicate k 0) = 0 := by
  have := beToNat_replicate_zero k []
  simpa using this

theorem bytesAt_beyond {input : Bytes} {off : Nat} (h : input.length ≤ off) (len : Nat) :
    bytesAt input off len = List.replicate len 0 := by
  unfold bytesAt
  apply List.ext_getElem
  · simp
  · intro i h1 h2
    rw [List.getElem_map, List.getElem_range, List.getElem_replicate, List.getD_eq_getElem?_getD,
      List.getElem?_eq_none (by omega)]
    rfl

theorem numberAt_lt (input : Bytes) (off len : Nat) : numberAt input off len < 256 ^ len := by
  unfold numberAt
  rw [number_eq]
  have := beToNat_lt (bytesAt input off len)
  rwa [bytesAt_length] at this

/-- The input of the arithmetic contracts, padded. -/
def padTo (n : Nat) (input : Bytes) : Bytes := input ++ List.replicate (n - input.length) 0

theorem padTo_length (n : Nat) (input : Bytes) : (padTo n input).length = max input.length n := by
  unfold padTo; rw [List.length_append, List.length_replicate]; omega

theorem padTo_getD (n : Nat) (input : Bytes) (i : Nat) : (padTo n input).getD i 0 = input.getD i 0 := getD_pad _ _ _

theorem rightPad_external (b : Bytes) (n : Nat) (buffer : Buffer) :
    ∃ buffer', rightPad (.external b) n buffer = .ok (padTo n b, buffer') ∧
      (b.length < n → buffer'.bytes = padTo n b ∧ n ≤ buffer'.capacity) := by
  obtain ⟨buffer', h⟩ := rightPad_ok (.external b) n buffer trivial
  refine ⟨buffer', h, fun hb => ?_⟩
  have hs : ¬ ((PadView.external b).size ≥ n) := by show ¬ (b.length ≥ n); omega
  unfold rightPad at h
  rw [if_neg hs] at h
  have key : ∀ (x : Buffer × Bool),
      (do
        let src ← (PadView.external b).readAfter x.1 x.2
        Outcome.ok ((((x.1.memmove 0 src).resize (PadView.external b).size).1.resize n).1.bytes,
          (((x.1.memmove 0 src).resize (PadView.external b).size).1.resize n).1)) =
        (Outcome.ok (padTo n b, buffer') : Outcome Empty (Bytes × Buffer)) →
      buffer'.bytes = padTo n b ∧ n ≤ buffer'.capacity := by
    intro x hx
    have hread : (PadView.external b).readAfter x.1 x.2 = .ok b := by
      rcases x with ⟨x, m⟩; cases m <;> rfl
    rw [hread] at hx
    obtain ⟨e1, e2⟩ := Prod.mk.inj (Outcome.ok.inj hx)
    refine ⟨by rw [← e2]; exact e1, ?_⟩
    rw [← e2]
    exact Nat.le_max_right _ _
  exact key _ h

theorem beToNat_left_zeros (k : Nat) (b : Bytes) : beToNat (List.replicate k 0 ++ b) = beToNat b :=
  beToNat_replicate_zero k b

theorem expHead_eq (input : Bytes) (baseLen expLen : Nat) (buffer : Buffer) :
    expHead ((padTo 96 input).drop 96) baseLen expLen buffer =
      .ok (numberAt input (96 + baseLen) (min expLen 32)) := by
  unfold expHead
  have hl : ((padTo 96 input).drop 96).length = input.length - 96 := by
    rw [List.length_drop, padTo_length]; omega
  by_cases hb : ((padTo 96 input).drop 96).length > baseLen
  · rw [if_pos hb]
    rw [hl] at hb
    have hp : padTo 96 input = input := by
      unfold padTo; rw [show 96 - input.length = 0 by omega]; simp
    rw [hp, List.drop_drop]
    set rest := input.drop (96 + baseLen) with hrest
    have hrl : rest.length = input.length - (96 + baseLen) := by rw [hrest, List.length_drop]
    obtain ⟨buf, h1, h2⟩ := rightPad_external rest 32 buffer
    rw [h1]
    have hnum : ∀ n, n ≤ 32 → beToNat ((padTo 32 rest).take n) = numberAt input (96 + baseLen) n := by
      intro n hn
      have e : bytesAt input (96 + baseLen) n = bytesAt rest 0 n := by
        unfold bytesAt
        refine List.map_congr_left (fun i _ => ?_)
        rw [hrest, List.getD_eq_getElem?_getD, List.getD_eq_getElem?_getD, List.getElem?_drop]
        congr 2; omega
      unfold numberAt
      rw [number_eq, e, bytesAt_eq (p := padTo 32 rest) (padTo_getD 32 rest) (by rw [padTo_length]; omega)]
      rfl
    show (if expLen < 32 then _ else _) = _
    by_cases he : expLen < 32
    · rw [if_pos he]
      have hm : min expLen 32 = expLen := by omega
      rw [hm]
      have key : ∀ view : PadView, view.InBounds buf → ((∃ b, view = .external b) ∨ 32 ≤ buf.capacity) →
          view.read buf = (padTo 32 rest).take expLen →
          ((leftPad view 32 buf).bind fun y => Outcome.ok (beToNat (y.1.take 32))) =
            .ok (numberAt input (96 + baseLen) expLen) := by
        intro view hv hc hr
        obtain ⟨b', e⟩ := leftPad_ok view 32 buf hv hc
        rw [e]
        show Outcome.ok _ = _
        rw [hr]
        have hlen : ((padTo 32 rest).take expLen).length = expLen := by
          rw [List.length_take, padTo_length]; omega
        rw [hlen, List.take_of_length_le (by rw [List.length_append, List.length_replicate, hlen]; omega),
          beToNat_left_zeros, hnum _ (by omega)]
      by_cases hr : rest.length ≥ 32
      · simp only [if_pos hr]
        exact key _ trivial (Or.inl ⟨_, rfl⟩) rfl
      · simp only [if_neg hr]
        obtain ⟨e1, e2⟩ := h2 (by omega)
        refine key _ ?_ (Or.inr e2) ?_
        · show 0 + expLen ≤ buf.bytes.length
          rw [e1, padTo_length]; omega
        · show (buf.bytes.drop 0).take expLen = _
          rw [e1]; rfl
    · rw [if_neg he]
      have hm : min expLen 32 = 32 := by omega
      rw [hm]
      show Outcome.ok _ = _
      rw [hnum 32 (by omega)]
  · rw [if_neg hb, hl] at *
    unfold numberAt
    rw [number_eq, bytesAt_beyond (by omega), beToNat_zeros]

theorem bitLen_eq {head : Nat} (h : head < 2 ^ 256) :
    256 - clz 256 head = if head = 0 then 0 else Nat.log2 head + 1 := by
  unfold clz
  by_cases h0 : head = 0
  · rw [if_pos h0, if_pos h0]
  · rw [if_neg h0, if_neg h0]
    have : Nat.log2 head < 256 := (Nat.log2_lt h0).mpr h
    omega

theorem mul256_eq {a b : Nat} (h : a * b < 2 ^ 256) : mul256 a b = a * b := Nat.mod_eq_of_lt h
theorem add256_eq {a b : Nat} (h : a + b < 2 ^ 256) : add256 a b = a + b := Nat.mod_eq_of_lt h
theorem sub256_eq {a b : Nat} (ha : a < 2 ^ 256) (h : b ≤ a) : sub256 a b = a - b := by
  unfold sub256
  generalize 2 ^ 256 = m at *
  rw [Nat.mod_eq_of_lt (show b < m by omega), show a + m - b = a - b + m by omega, Nat.add_mod_right,
    Nat.mod_eq_of_lt (by omega)]

theorem adjusted_eq {input : Bytes} (he : exponentLength input < 2 ^ 64) :
    adjustedExponentLen (exponentLength input) (numberAt input (96 + baseLength input) (min (exponentLength input) 32)) =
      max (adjustedExponentLength input) 1 := by
  unfold adjustedExponentLen adjustedExponentLength highestBit
  dsimp only
  set head := numberAt input (96 + baseLength input) (min (exponentLength input) 32) with hh
  have hlt : head < 2 ^ 256 := by
    refine Nat.lt_of_lt_of_le (numberAt_lt _ _ _) ?_
    rw [pow256]
    exact Nat.pow_le_pow_right (by omega) (by omega)
  have hlog : Nat.log2 head < 256 := by
    by_cases h0 : head = 0
    · rw [h0]; decide
    · exact (Nat.log2_lt h0).mpr hlt
  rw [bitLen_eq hlt]
  clear_value head
  generalize exponentLength input = e at *
  have key : ∀ len, len = (if e > 32 then 8 * (e - 32) else 0) →
      (if (if head = 0 then 0 else head.log2 + 1) > 1 then add256 len ((if head = 0 then 0 else head.log2 + 1) - 1)
        else len) = len + head.log2 := by
    intro len hl
    have hb : len + 256 < 2 ^ 256 := by
      have : len ≤ 8 * 2 ^ 64 := by rw [hl]; split <;> omega
      omega
    by_cases h0 : head = 0
    · rw [if_pos h0, if_neg (by omega), h0]
      show len = len + 0
      rfl
    · rw [if_neg h0]
      by_cases h1 : head.log2 + 1 > 1
      · rw [if_pos h1, add256_eq (by omega)]; omega
      · rw [if_neg h1]; omega
  have hmul : (if e > 32 then mul256 8 (sub256 e 32) else 0) = (if e > 32 then 8 * (e - 32) else 0) := by
    by_cases h : e > 32
    · rw [if_pos h, if_pos h, sub256_eq (by omega) (by omega), mul256_eq (by omega)]
    · rw [if_neg h, if_neg h]
  rw [hmul, key _ rfl]
  by_cases h : e > 32
  · rw [if_pos h, if_neg (show ¬ e ≤ 32 by omega), if_neg (by omega)]
    omega
  · rw [if_neg h, if_pos (show e ≤ 32 by omega), Nat.zero_add]
    by_cases h1 : head.log2 < 1
    · rw [if_pos h1]; omega
    · rw [if_neg h1]; omega

theorem complexity198_eq {x : Nat} (hx : x < 2 ^ 64) :
    multComplexityEip198 x = complexity198 x ∧ complexity198 x < 2 ^ 129 := by
  have hsq : x * x < 2 ^ 128 := by
    have : x * x ≤ (2 ^ 64 - 1) * (2 ^ 64 - 1) := Nat.mul_le_mul (by omega) (by omega)
    omega
  have hpow : x ^ 2 = x * x := by ring
  unfold multComplexityEip198 complexity198
  rw [hpow]
  dsimp only
  rw [mul256_eq (a := x) (b := x) (by omega), mul256_eq (a := 96) (b := x) (by omega),
    mul256_eq (a := 480) (b := x) (by omega)]
  generalize hq : x * x = q at *
  have h1 : x > 64 → 64 * x ≤ q := by intro h; rw [← hq]; exact Nat.mul_le_mul (by omega) (Nat.le_refl _)
  by_cases a : x ≤ 64
  · rw [if_pos a, if_pos a]; omega
  · rw [if_neg a, if_neg a]
    by_cases b : x ≤ 1024
    · rw [if_pos b, if_pos b, add256_eq (by omega), sub256_eq (by omega) (by omega)]
      omega
    · rw [if_neg b, if_neg b, add256_eq (by omega), sub256_eq (by omega) (by omega)]
      omega

theorem complexity2565_eq {x : Nat} (hx : x < 2 ^ 64) :
    multComplexityEip2565 x = complexity2565 x ∧ complexity2565 x < 2 ^ 129 := by
  unfold multComplexityEip2565 complexity2565
  dsimp only
  rw [add256_eq (by omega)]
  have hpow : ((x + 7) / 8) ^ 2 = ((x + 7) / 8) * ((x + 7) / 8) := by ring
  have hb : ((x + 7) / 8) * ((x + 7) / 8) < 2 ^ 128 := by
    have : ((x + 7) / 8) * ((x + 7) / 8) ≤ (2 ^ 64 - 1) * (2 ^ 64 - 1) := Nat.mul_le_mul (by omega) (by omega)
    omega
  rw [hpow, mul256_eq (by omega)]
  exact ⟨rfl, by omega⟩

theorem cost_eq {c e d m : Nat} (hc : c < 2 ^ 129) (he : e < 2 ^ 100) (hm : m < 2 ^ 64) :
    (if mul256 c e / d ≥ 2 ^ 64 then 2 ^ 64 - 1 else max m (mul256 c e / d)) = saturate (max m (c * e / d)) := by
  have hp : c * e < 2 ^ 256 := by
    have : c * e ≤ (2 ^ 129 - 1) * (2 ^ 100 - 1) := Nat.mul_le_mul (by omega) (by omega)
    omega
  rw [mul256_eq hp]
  unfold saturate
  generalize c * e / d = g
  by_cases h : g ≥ 2 ^ 64
  · rw [if_pos h]; omega
  · rw [if_neg h]; omega

theorem adjusted_lt {input : Bytes} (he : exponentLength input < 2 ^ 64) : max (adjustedExponentLength input) 1 < 2 ^ 100 := by
  unfold adjustedExponentLength highestBit
  dsimp only
  have hlog : Nat.log2 (numberAt input (96 + baseLength input) (min (exponentLength input) 32)) < 256 := by
    set head := numberAt input (96 + baseLength input) (min (exponentLength input) 32)
    have hlt : head < 2 ^ 256 := by
      refine Nat.lt_of_lt_of_le (numberAt_lt _ _ _) ?_
      rw [pow256]
      exact Nat.pow_le_pow_right (by omega) (by omega)
    by_cases h0 : head = 0
    · rw [h0]; decide
    · exact (Nat.log2_lt h0).mpr hlt
  generalize Nat.log2 _ = l at *
  generalize exponentLength input = e at *
  split <;> omega

/-- Evaluation of the gas function up to the cost formula. -/
theorem expmodGas_eval (input : Bytes) (rev : Nat) :
    expmodGas input rev =
      if baseLength input = 0 ∧ modulusLength input = 0 then .ok (if rev < Revision.berlin then 0 else 200)
      else if baseLength input ≥ 2 ^ 64 ∨ exponentLength input ≥ 2 ^ 64 ∨ modulusLength input ≥ 2 ^ 64 then
        .ok (2 ^ 64 - 1)
      else
        .ok (expmodCost rev (if rev < Revision.berlin then 0 else 200) (baseLength input) (modulusLength input)
          (adjustedExponentLen (exponentLength input)
            (numberAt input (96 + baseLength input) (min (exponentLength input) 32)))) := by
  unfold expmodGas
  obtain ⟨buf, h, _⟩ := rightPad_external input 96 ⟨[], 15⟩
  rw [h]
  have hlen : (padTo 96 input).length ≥ 96 := by rw [padTo_length]; omega
  have e1 : beToNat ((padTo 96 input).take 32) = baseLength input :=
    (numberAt_eq (padTo_getD 96 input) (off := 0) (len := 32) (by omega)).symm
  have e2 : beToNat (((padTo 96 input).drop 32).take 32) = exponentLength input :=
    (numberAt_eq (padTo_getD 96 input) (off := 32) (len := 32) (by omega)).symm
  have e3 : beToNat (((padTo 96 input).drop 64).take 32) = modulusLength input :=
    (numberAt_eq (padTo_getD 96 input) (off := 64) (len := 32) (by omega)).symm
  show (if _ then _ else if _ then _ else _) = _
  dsimp only
  rw [e1, e2, e3, expHead_eq]
  rfl

theorem ge_saturate {n : Nat} (h : 2 ^ 64 ≤ n) : saturate n = 2 ^ 64 - 1 := by unfold saturate; omega

theorem le_complexity198 {x : Nat} (h : 2 ^ 64 ≤ x) : 2 ^ 100 ≤ complexity198 x := by
  unfold complexity198
  rw [if_neg (by omega), if_neg (by omega)]
  have : 2 ^ 64 * 2 ^ 64 ≤ x * x := Nat.mul_le_mul h h
  have hpow : x ^ 2 = x * x := by ring
  rw [hpow]
  generalize x * x = q at *
  omega

theorem le_complexity2565 {x : Nat} (h : 2 ^ 64 ≤ x) : 2 ^ 100 ≤ complexity2565 x := by
  unfold complexity2565
  have h1 : 2 ^ 61 ≤ (x + 7) / 8 := by omega
  have : 2 ^ 61 * 2 ^ 61 ≤ ((x + 7) / 8) * ((x + 7) / 8) := Nat.mul_le_mul h1 h1
  have hpow : ((x + 7) / 8) ^ 2 = ((x + 7) / 8) * ((x + 7) / 8) := by ring
  rw [hpow]
  generalize ((x + 7) / 8) * ((x + 7) / 8) = q at *
  omega

theorem le_adjusted {input : Bytes} (h : 2 ^ 64 ≤ exponentLength input) : 2 ^ 66 ≤ adjustedExponentLength input := by
  unfold adjustedExponentLength
  dsimp only
  generalize highestBit _ = l
  rw [if_neg (by omega)]
  omega

/-- The gas of a modular exponentiation, when the exponent is not declared to be 2^64 bytes long or more, or from Berlin
on. -/
theorem expmodGas_eq (input : Bytes) (rev : Nat) (h : Revision.berlin ≤ rev ∨ exponentLength input < 2 ^ 64) :
    expmodGas input rev = .ok (saturate (modexpGas (decide (Revision.berlin ≤ rev)) input)) := by
  rw [expmodGas_eval]
  unfold modexpGas
  dsimp only
  have hmax : max (modulusLength input) (baseLength input) = max (baseLength input) (modulusLength input) := Nat.max_comm _ _
  have hone : 1 ≤ max (adjustedExponentLength input) 1 := Nat.le_max_right _ _
  by_cases hz : baseLength input = 0 ∧ modulusLength input = 0
  · rw [if_pos hz, hz.1, hz.2]
    by_cases hr : rev < Revision.berlin
    · rw [if_pos hr, if_neg (by simpa using hr)]
      have : complexity198 (max 0 0) = 0 := by decide
      rw [this]
      simp [saturate]
    · rw [if_neg hr, if_pos (by simpa using hr)]
      have : complexity2565 (max 0 0) = 0 := by decide
      rw [this]
      simp [saturate]
  · rw [if_neg hz]
    by_cases hbig : baseLength input ≥ 2 ^ 64 ∨ exponentLength input ≥ 2 ^ 64 ∨ modulusLength input ≥ 2 ^ 64
    · rw [if_pos hbig]
      refine congrArg Outcome.ok (ge_saturate ?_).symm
      by_cases hm : 2 ^ 64 ≤ max (baseLength input) (modulusLength input)
      · generalize max (baseLength input) (modulusLength input) = x at *
        generalize max (adjustedExponentLength input) 1 = e at *
        by_cases hr : Revision.berlin ≤ rev
        · rw [if_pos (by simpa using hr)]
          have h1 := le_complexity2565 hm
          have h2 : complexity2565 x * 1 ≤ complexity2565 x * e := Nat.mul_le_mul (Nat.le_refl _) hone
          omega
        · rw [if_neg (by simpa using hr)]
          have h1 := le_complexity198 hm
          have h2 : complexity198 x * 1 ≤ complexity198 x * e := Nat.mul_le_mul (Nat.le_refl _) hone
          omega
      · have he : exponentLength input ≥ 2 ^ 64 := by omega
        have hr : Revision.berlin ≤ rev := by rcases h with h | h <;> omega
        rw [if_pos (by simpa using hr)]
        have h1 := le_adjusted he
        have h2 : 2 ^ 66 ≤ max (adjustedExponentLength input) 1 := Nat.le_trans h1 (Nat.le_max_left _ _)
        have h3 : 1 ≤ complexity2565 (max (baseLength input) (modulusLength input)) := by
          unfold complexity2565
          have : 1 ≤ (max (baseLength input) (modulusLength input) + 7) / 8 := by omega
          exact Nat.one_le_pow _ _ (by omega)
        have h4 := Nat.mul_le_mul h3 h2
        generalize complexity2565 (max (baseLength input) (modulusLength input)) * max (adjustedExponentLength input) 1 = g at *
        omega
    · rw [if_neg hbig]
      have he : exponentLength input < 2 ^ 64 := by omega
      have hx : max (baseLength input) (modulusLength input) < 2 ^ 64 := by omega
      refine congrArg Outcome.ok ?_
      rw [adjusted_eq he]
      unfold expmodCost
      dsimp only
      rw [hmax]
      have ha := adjusted_lt he
      by_cases hr : rev < Revision.berlin
      · rw [if_pos hr, if_pos hr, if_neg (show ¬ (decide (Revision.berlin ≤ rev) = true) by simpa using hr)]
        obtain ⟨c1, c2⟩ := complexity198_eq hx
        rw [c1]
        have := cost_eq (d := 20) (m := 0) c2 ha (by omega)
        rw [this, Nat.zero_max]
      · rw [if_neg hr, if_neg hr, if_pos (show decide (Revision.berlin ≤ rev) = true by simpa using hr)]
        obtain ⟨c1, c2⟩ := complexity2565_eq hx
        rw [c1]
        exact cost_eq (d := 3) (m := 200) c2 ha (by omega)

/-! ## Modular exponentiation -/

theorem bytesAt_drop (input : Bytes) (n off len : Nat) : bytesAt input (n + off) len = bytesAt (input.drop n) off len := by
  unfold bytesAt
  refine List.map_congr_left (fun i _ => ?_)
  rw [List.getD_eq_getElem?_getD, List.getD_eq_getElem?_getD, List.getElem?_drop, Nat.add_assoc]

theorem okbind {α β : Type} (a : α) (f : α → Outcome Empty β) : (Outcome.ok a).bind f = f a := rfl

theorem importBytes_eq {n : Nat} {b : Bytes} (h : n ≤ b.length) : importBytes n b = .ok (beToNat (b.take n), b.drop n) := by
  unfold importBytes; rw [if_neg (by omega)]

theorem exportBytes_eq {n r : Nat} (h : r < 256 ^ n) :
    ∃ out, exportBytes n r = .ok out ∧ out.length = n ∧ beToNat out = r := by
  unfold exportBytes
  have hb := byteLen_le h
  rw [if_neg (by omega)]
  refine ⟨_, rfl, ?_, ?_⟩
  · simp; omega
  · rw [List.reverse_append, List.reverse_reverse, List.reverse_replicate, beToNat_replicate_zero,
      beToNat_beFixed (lt_pow_byteLen r)]

/-- The low eight bytes of a length. -/
theorem low8 {input : Bytes} {off : Nat} (h : numberAt input off 32 < 2 ^ 64) (ho : off + 32 ≤ 96) :
    beToNat (((padTo 96 input).drop (off + 24)).take 8) = numberAt input off 32 := by
  have hlen : (padTo 96 input).length ≥ 96 := by rw [padTo_length]; omega
  rw [numberAt_eq (padTo_getD 96 input) (off := off) (len := 32) (by omega)] at h ⊢
  have e : ((padTo 96 input).drop off).take 32 =
      ((padTo 96 input).drop off).take 24 ++ ((padTo 96 input).drop (off + 24)).take 8 := by
    rw [show (32 : Nat) = 24 + 8 from rfl, List.take_add, List.drop_drop]
  rw [e, beToNat_append] at h ⊢
  have hl : (((padTo 96 input).drop (off + 24)).take 8).length = 8 := by
    rw [List.length_take, List.length_drop]; omega
  rw [hl] at h ⊢
  have hz : beToNat (((padTo 96 input).drop off).take 24) = 0 := by
    generalize beToNat (((padTo 96 input).drop off).take 24) = a at *
    generalize beToNat (((padTo 96 input).drop (off + 24)).take 8) = b at *
    have : (256 : Nat) ^ 8 = 2 ^ 64 := by decide
    rw [this] at h
    rcases Nat.eq_zero_or_pos a with h0 | h0
    · exact h0
    · have := Nat.mul_le_mul h0 (Nat.le_refl (2 ^ 64)); omega
  rw [hz]; simp

theorem numberAt_zero (input : Bytes) (off : Nat) : numberAt input off 0 = 0 := rfl

theorem expmodCompute_eq (p : Bytes) (b e m : Nat) (h : b + e + m ≤ p.length) :
    ∃ out, expmodCompute p b e m = .ok (some out) ∧ out.length = m ∧
      beToNat out = if beToNat ((p.drop (b + e)).take m) = 0 then 0
        else beToNat (p.take b) ^ beToNat ((p.drop b).take e) % beToNat ((p.drop (b + e)).take m) := by
  unfold expmodCompute
  rw [importBytes_eq (by omega), okbind]
  dsimp only
  rw [importBytes_eq (by rw [List.length_drop]; omega), okbind]
  dsimp only
  rw [importBytes_eq (by rw [List.length_drop, List.length_drop]; omega), okbind]
  dsimp only
  rw [List.drop_drop]
  have hlt : beToNat ((p.drop (b + e)).take m) < 256 ^ m := by
    have := beToNat_lt ((p.drop (b + e)).take m)
    rwa [List.length_take, List.length_drop, Nat.min_eq_left (by omega)] at this
  generalize beToNat ((p.drop (b + e)).take m) = x at *
  by_cases hz : x = 0
  · rw [if_pos hz]
    refine ⟨_, rfl, List.length_replicate, ?_⟩
    rw [if_pos hz, beToNat_zeros]
  · rw [if_neg hz]
    obtain ⟨out, o1, o2, o3⟩ := exportBytes_eq (n := m) (Nat.lt_trans (Nat.mod_lt _ (Nat.pos_of_ne_zero hz)) hlt)
    rw [o1, okbind]
    refine ⟨out, rfl, o2, ?_⟩
    rw [if_neg hz, o3]

theorem expmodRun_eq (input : Bytes) (hm : modulusLength input < 2 ^ 64)
    (hs : modulusLength input ≠ 0 → baseLength input + exponentLength input + modulusLength input < 2 ^ 64) :
    ∃ out, expmodRun input = .ok (some out) ∧ Spec.Precompiled.IsModexp input out := by
  unfold expmodRun
  obtain ⟨buf, h, h2⟩ := rightPad_external input 96 ⟨[], 15⟩
  rw [h]
  have e3 : beToNat (((padTo 96 input).drop 88).take 8) = modulusLength input := low8 (off := 64) hm (by omega)
  rw [okbind]
  dsimp only
  rw [e3]
  by_cases h0 : modulusLength input = 0
  · rw [if_pos h0]
    refine ⟨[], rfl, by rw [h0]; rfl, ?_⟩
    have : Spec.Precompiled.modulus input = 0 := by
      unfold Spec.Precompiled.modulus; rw [h0, numberAt_zero]
    rw [if_pos this]; rfl
  · rw [if_neg h0]
    have hsum := hs h0
    have e1 : beToNat (((padTo 96 input).drop 24).take 8) = baseLength input :=
      low8 (off := 0) (show baseLength input < 2 ^ 64 by omega) (by omega)
    have e2 : beToNat (((padTo 96 input).drop 56).take 8) = exponentLength input :=
      low8 (off := 32) (show exponentLength input < 2 ^ 64 by omega) (by omega)
    rw [e1, e2]
    rw [Nat.mod_eq_of_lt hsum]
    -- what is read after padding
    have hview : ∃ buf', rightPad (if input.length ≥ 96 then PadView.external (input.drop 96) else .inside 96 0)
        (baseLength input + exponentLength input + modulusLength input) buf =
        .ok (padTo (baseLength input + exponentLength input + modulusLength input) (input.drop 96), buf') := by
      by_cases hl : input.length ≥ 96
      · rw [if_pos hl]
        obtain ⟨b', hb', _⟩ := rightPad_external (input.drop 96) (baseLength input + exponentLength input + modulusLength input) buf
        exact ⟨b', hb'⟩
      · rw [if_neg hl]
        obtain ⟨g1, _⟩ := h2 (by omega)
        obtain ⟨b', hb'⟩ := rightPad_ok (.inside 96 0) (baseLength input + exponentLength input + modulusLength input) buf
          (by show 96 + 0 ≤ buf.bytes.length; rw [g1, padTo_length]; omega)
        refine ⟨b', ?_⟩
        rw [hb']
        have : (PadView.inside 96 0).read buf = [] := by simp [PadView.read]
        rw [this, List.drop_of_length_le (by omega)]
        rfl
    obtain ⟨buf', hr⟩ := hview
    rw [hr]
    set p := padTo (baseLength input + exponentLength input + modulusLength input) (input.drop 96) with hp
    have hplen : baseLength input + exponentLength input + modulusLength input ≤ p.length := by
      rw [hp, padTo_length]; omega
    have hnum : ∀ off len, off + len ≤ p.length → beToNat ((p.drop off).take len) = numberAt input (96 + off) len := by
      intro off len hl
      unfold numberAt
      rw [number_eq, bytesAt_drop, bytesAt_eq (p := p) (padTo_getD _ _) hl]
    clear_value p
    rw [okbind]
    obtain ⟨out, o1, o2, o3⟩ := expmodCompute_eq p _ _ _ hplen
    refine ⟨out, o1, o2, ?_⟩
    rw [number_eq, o3, hnum _ _ hplen, hnum _ _ (by omega)]
    have b1 := hnum 0 (baseLength input) (by omega)
    have e : 96 + (baseLength input + exponentLength input) = 96 + baseLength input + exponentLength input := by omega
    rw [e]
    show (if _ then _ else beToNat ((p.drop 0).take _) ^ _ % _) = _
    rw [b1]
    rfl

end Silkworm.Precompiled
