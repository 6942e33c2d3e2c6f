import Verif.Crypto.Keccak
import Verif.Spec.Keccak
import Verif.Base.BytesLemmas

namespace Silkworm.Keccak

open Spec.Keccak (offset round iota chi pi rho theta column number)

theorem constants_eq : (List.range 24).map Spec.Keccak.roundConstant = roundConstants := by decide +kernel

/-- The state of the code as the state of the specification. -/
def view (st : List Word) : Spec.Keccak.State := fun x y => st.getD (5 * y.val + x.val) 0

theorem fin5 (x : Fin 5) : x = 0 ∨ x = 1 ∨ x = 2 ∨ x = 3 ∨ x = 4 := by revert x; decide

theorem rotl64_eq (x : Word) (s : Nat) (h0 : 0 < s) (h : s < 64) : rotl64 x s = x.rotateLeft s := by
  unfold rotl64
  have : ((2 ^ 32 - s) % 2 ^ 32 &&& 63) = 64 - s := by
    rw [show 63 = 2 ^ 6 - 1 from rfl, Nat.and_two_pow_sub_one_eq_mod]; omega
  rw [this, BitVec.rotateLeft_def, Nat.mod_eq_of_lt h]

theorem rotateLeft_zero (x : Word) : x.rotateLeft 0 = x := by
  rw [BitVec.rotateLeft_def]
  simp only [Nat.zero_mod, BitVec.shiftLeft_zero, Nat.sub_zero]
  rw [BitVec.ushiftRight_eq_zero (Nat.le_refl 64), BitVec.or_zero]

theorem off00 : offset 0 0 = 0 := by decide +kernel
theorem off10 : offset 1 0 = 1 := by decide +kernel
theorem off20 : offset 2 0 = 62 := by decide +kernel
theorem off30 : offset 3 0 = 28 := by decide +kernel
theorem off40 : offset 4 0 = 27 := by decide +kernel
theorem off01 : offset 0 1 = 36 := by decide +kernel
theorem off11 : offset 1 1 = 44 := by decide +kernel
theorem off21 : offset 2 1 = 6 := by decide +kernel
theorem off31 : offset 3 1 = 55 := by decide +kernel
theorem off41 : offset 4 1 = 20 := by decide +kernel
theorem off02 : offset 0 2 = 3 := by decide +kernel
theorem off12 : offset 1 2 = 10 := by decide +kernel
theorem off22 : offset 2 2 = 43 := by decide +kernel
theorem off32 : offset 3 2 = 25 := by decide +kernel
theorem off42 : offset 4 2 = 39 := by decide +kernel
theorem off03 : offset 0 3 = 41 := by decide +kernel
theorem off13 : offset 1 3 = 45 := by decide +kernel
theorem off23 : offset 2 3 = 15 := by decide +kernel
theorem off33 : offset 3 3 = 21 := by decide +kernel
theorem off43 : offset 4 3 = 8 := by decide +kernel
theorem off04 : offset 0 4 = 18 := by decide +kernel
theorem off14 : offset 1 4 = 2 := by decide +kernel
theorem off24 : offset 2 4 = 61 := by decide +kernel
theorem off34 : offset 3 4 = 56 := by decide +kernel
theorem off44 : offset 4 4 = 14 := by decide +kernel

theorem view00 (s : Lanes) : view (storeLanes s) 0 0 = s.ba := rfl
theorem view10 (s : Lanes) : view (storeLanes s) 1 0 = s.be := rfl
theorem view20 (s : Lanes) : view (storeLanes s) 2 0 = s.bi := rfl
theorem view30 (s : Lanes) : view (storeLanes s) 3 0 = s.bo := rfl
theorem view40 (s : Lanes) : view (storeLanes s) 4 0 = s.bu := rfl
theorem view01 (s : Lanes) : view (storeLanes s) 0 1 = s.ga := rfl
theorem view11 (s : Lanes) : view (storeLanes s) 1 1 = s.ge := rfl
theorem view21 (s : Lanes) : view (storeLanes s) 2 1 = s.gi := rfl
theorem view31 (s : Lanes) : view (storeLanes s) 3 1 = s.go := rfl
theorem view41 (s : Lanes) : view (storeLanes s) 4 1 = s.gu := rfl
theorem view02 (s : Lanes) : view (storeLanes s) 0 2 = s.ka := rfl
theorem view12 (s : Lanes) : view (storeLanes s) 1 2 = s.ke := rfl
theorem view22 (s : Lanes) : view (storeLanes s) 2 2 = s.ki := rfl
theorem view32 (s : Lanes) : view (storeLanes s) 3 2 = s.ko := rfl
theorem view42 (s : Lanes) : view (storeLanes s) 4 2 = s.ku := rfl
theorem view03 (s : Lanes) : view (storeLanes s) 0 3 = s.ma := rfl
theorem view13 (s : Lanes) : view (storeLanes s) 1 3 = s.me := rfl
theorem view23 (s : Lanes) : view (storeLanes s) 2 3 = s.mi := rfl
theorem view33 (s : Lanes) : view (storeLanes s) 3 3 = s.mo := rfl
theorem view43 (s : Lanes) : view (storeLanes s) 4 3 = s.mu := rfl
theorem view04 (s : Lanes) : view (storeLanes s) 0 4 = s.sa := rfl
theorem view14 (s : Lanes) : view (storeLanes s) 1 4 = s.se := rfl
theorem view24 (s : Lanes) : view (storeLanes s) 2 4 = s.si := rfl
theorem view34 (s : Lanes) : view (storeLanes s) 3 4 = s.so := rfl
theorem view44 (s : Lanes) : view (storeLanes s) 4 4 = s.su := rfl

theorem roundEven_eq (rc : Word) (s : Lanes) : view (storeLanes (roundEven rc s)) = round rc (view (storeLanes s)) := by
  funext x y
  rcases fin5 x with rfl | rfl | rfl | rfl | rfl <;> rcases fin5 y with rfl | rfl | rfl | rfl | rfl <;>
  simp [roundEven, round, iota, chi, pi, rho, theta, column, rotl64_eq, rotateLeft_zero, off00, off10, off20, off30, off40,
    off01, off11, off21, off31, off41,
    off02, off12, off22, off32, off42,
    off03, off13, off23, off33, off43,
    off04, off14, off24, off34, off44,
    view00, view10, view20, view30, view40,
    view01, view11, view21, view31, view41,
    view02, view12, view22, view32, view42,
    view03, view13, view23, view33, view43,
    view04, view14, view24, view34, view44]

theorem roundOdd_eq (rc : Word) (s : Lanes) : view (storeLanes (roundOdd rc s)) = round rc (view (storeLanes s)) := by
  funext x y
  rcases fin5 x with rfl | rfl | rfl | rfl | rfl <;> rcases fin5 y with rfl | rfl | rfl | rfl | rfl <;>
  simp [roundOdd, round, iota, chi, pi, rho, theta, column, rotl64_eq, rotateLeft_zero, off00, off10, off20, off30, off40,
    off01, off11, off21, off31, off41,
    off02, off12, off22, off32, off42,
    off03, off13, off23, off33, off43,
    off04, off14, off24, off34, off44,
    view00, view10, view20, view30, view40,
    view01, view11, view21, view31, view41,
    view02, view12, view22, view32, view42,
    view03, view13, view23, view33, view43,
    view04, view14, view24, view34, view44]

theorem constant_eq (i : Nat) (h : i < 24) : roundConstants.getD i 0 = Spec.Keccak.roundConstant i := by
  rw [← constants_eq, List.getD_eq_getElem?_getD, List.getElem?_map, List.getElem?_range h]; rfl

theorem view_load (st : List Word) : view (storeLanes (loadLanes st)) = view st := by
  funext x y
  rcases fin5 x with rfl | rfl | rfl | rfl | rfl <;> rcases fin5 y with rfl | rfl | rfl | rfl | rfl <;> rfl

theorem loop_eq (s : Lanes) : ∀ n ≤ 12,
    view (storeLanes ((List.range n).foldl
      (fun s i => roundOdd (roundConstants.getD (2 * i + 1) 0) (roundEven (roundConstants.getD (2 * i) 0) s)) s)) =
    (List.range (2 * n)).foldl (fun a i => round (Spec.Keccak.roundConstant i) a) (view (storeLanes s))
  | 0, _ => rfl
  | n + 1, h => by
    rw [List.range_succ, List.foldl_append, List.foldl_cons, List.foldl_nil, roundOdd_eq, roundEven_eq, loop_eq s n (by omega),
      constant_eq _ (by omega), constant_eq _ (by omega), Nat.mul_succ, List.range_succ, List.range_succ, List.foldl_append,
      List.foldl_append]
    rfl

theorem permutation_eq (st : List Word) : view (keccakf1600 st) = Spec.Keccak.permutation (view st) := by
  unfold keccakf1600 roundLoop Spec.Keccak.permutation
  rw [loop_eq _ 12 (Nat.le_refl _), view_load]

theorem keccakf1600_length (st : List Word) : (keccakf1600 st).length = 25 := rfl

/-! The numbers of strings of bytes -/

theorem number_append : ∀ a b : Bytes, number (a ++ b) = number a + 256 ^ a.length * number b
  | [], b => by simp [number]
  | x :: a, b => by
    simp only [List.cons_append, number, number_append a b, List.length_cons, Nat.pow_succ]
    rw [Nat.mul_add, ← Nat.mul_assoc, Nat.mul_comm (256 ^ a.length) 256, Nat.add_assoc]

theorem number_lt : ∀ a : Bytes, number a < 256 ^ a.length
  | [] => by simp [number]
  | x :: a => by
    have h1 := number_lt a
    have h2 : x.toNat < 256 := x.toNat_lt
    simp only [number, List.length_cons, Nat.pow_succ]
    omega

theorem number_zeros : ∀ n, number (List.replicate n 0) = 0
  | 0 => rfl
  | n + 1 => by simp [List.replicate_succ, number, number_zeros n]

theorem beToNat_reverse : ∀ b : Bytes, beToNat b.reverse = number b
  | [] => rfl
  | x :: b => by
    have h := beToNat_reverse b
    unfold beToNat at h ⊢
    rw [List.reverse_cons, List.foldl_append, h, List.foldl_cons, List.foldl_nil, number]; omega

theorem loadLe64_eq (b : Bytes) : loadLe64 b = BitVec.ofNat 64 (number (b.take 8)) := by
  unfold loadLe64; rw [beToNat_reverse]

/-! The words of the state -/

theorem xorAt_length (st : List Word) (i : Nat) (w : Word) : (xorAt st i w).length = st.length := by simp [xorAt]

theorem xorAt_getD (st : List Word) (i : Nat) (w : Word) (hi : i < st.length) (j : Nat) :
    (xorAt st i w).getD j 0 = if j = i then st.getD j 0 ^^^ w else st.getD j 0 := by
  unfold xorAt
  simp only [List.getD_eq_getElem?_getD, List.getElem?_set]
  by_cases h : j = i
  · subst h; simp [hi]
  · simp [h, Ne.symm h]

theorem xorBlock_eq (st : List Word) (input : Bytes) (hs : st.length = 25) : ∀ words ≤ 25,
    (xorBlock words st input).1.length = 25 ∧ (xorBlock words st input).2 = input.drop (8 * words) ∧
    ∀ j, (xorBlock words st input).1.getD j 0 =
      if j < words then st.getD j 0 ^^^ BitVec.ofNat 64 (number ((input.drop (8 * j)).take 8)) else st.getD j 0
  | 0, _ => by simp [xorBlock, hs]
  | n + 1, h => by
    obtain ⟨h1, h2, h3⟩ := xorBlock_eq st input hs n (by omega)
    have e : xorBlock (n + 1) st input = (xorAt (xorBlock n st input).1 n (loadLe64 (xorBlock n st input).2),
        (xorBlock n st input).2.drop 8) := by
      unfold xorBlock
      rw [List.range_succ, List.foldl_append]; rfl
    rw [e]
    refine ⟨by rw [xorAt_length, h1], by simp only [h2, List.drop_drop, Nat.mul_succ], fun j => ?_⟩
    simp only
    rw [xorAt_getD _ _ _ (by omega), h3, h2, loadLe64_eq]
    by_cases hj : j = n
    · subst hj; simp
    · simp only [hj, if_false]
      by_cases hj' : j < n
      · simp [hj', show j < n + 1 by omega]
      · simp [hj', show ¬ j < n + 1 by omega]

/-- The part of the loop after the last whole block. -/
theorem absorbTail_eq (bs : Nat) : ∀ (fuel : Nat) (st : List Word) (pos : Nat) (input : Bytes), st.length = 25 →
    input.length < bs → input.length < fuel → pos + input.length / 8 < 25 →
    ∃ st', absorbLoop bs fuel st pos input = (st', pos + input.length / 8, input.drop (8 * (input.length / 8))) ∧
      st'.length = 25 ∧ ∀ j, st'.getD j 0 =
        if pos ≤ j ∧ j < pos + input.length / 8 then st.getD j 0 ^^^ BitVec.ofNat 64 (number ((input.drop (8 * (j - pos))).take 8))
        else st.getD j 0
  | 0, _, _, _, _, _, h, _ => absurd h (Nat.not_lt_zero _)
  | fuel + 1, st, pos, input, hs, hb, hf, hp => by
    unfold absorbLoop
    by_cases h0 : input.length = 0
    · have : input = [] := List.length_eq_zero_iff.mp h0
      subst this
      refine ⟨st, by simp, hs, fun j => ?_⟩
      rw [if_neg]; simp
    rw [if_neg h0, if_neg (by omega)]
    by_cases h8 : input.length ≥ 8
    · rw [if_pos h8]
      have hd : (input.drop 8).length = input.length - 8 := by simp
      obtain ⟨st', e, hl, hw⟩ := absorbTail_eq bs fuel (xorAt st pos (loadLe64 input)) (pos + 1) (input.drop 8)
        (by rw [xorAt_length, hs]) (by omega) (by omega) (by omega)
      have h88 : (input.length - 8) / 8 + 1 = input.length / 8 := by omega
      refine ⟨st', ?_, hl, fun j => ?_⟩
      · rw [e, hd, List.drop_drop]
        have : 8 + 8 * ((input.length - 8) / 8) = 8 * (input.length / 8) := by omega
        rw [this, ← h88]
        simp [Nat.add_assoc, Nat.add_comm]
      · rw [hw, xorAt_getD _ _ _ (by omega), hd, loadLe64_eq, List.drop_drop]
        by_cases hj : j = pos
        · subst hj
          rw [if_neg (by omega), if_pos rfl, if_pos (by omega), Nat.sub_self]; simp
        · rw [if_neg hj]
          by_cases hc : pos ≤ j ∧ j < pos + input.length / 8
          · rw [if_pos hc, if_pos (by omega)]
            have : 8 + 8 * (j - (pos + 1)) = 8 * (j - pos) := by omega
            rw [this]
          · rw [if_neg hc, if_neg (by omega)]
    · rw [if_neg h8]
      have : input.length / 8 = 0 := by omega
      refine ⟨st, by simp [this], hs, fun j => ?_⟩
      rw [if_neg (by omega)]

/-! The padded block -/

theorem word_split (D : Bytes) (c : UInt8) (w j : Nat) (hD : D.length + 1 = 8 * w) (hj : j < w) :
    number (((D ++ [c]).drop (8 * j)).take 8) =
      number ((D.drop (8 * j)).take 8) + (if j = w - 1 then 256 ^ 7 * c.toNat else 0) := by
  rw [List.drop_append_of_le_length (by omega)]
  by_cases h : j = w - 1
  · have hl : (D.drop (8 * j)).length = 7 := by rw [List.length_drop]; omega
    rw [if_pos h, List.take_of_length_le (by simp [hl]), List.take_of_length_le (by omega), number_append, hl]
    simp [number]
  · rw [if_neg h, List.take_append_of_le_length (by rw [List.length_drop]; omega)]
    rfl

/-- What the code adds to the words of the state after the last whole block, without the last bit. -/
def marked (bs : Nat) (input : Bytes) : Bytes := input ++ [0x01] ++ List.replicate (bs - 1 - input.length) 0

theorem word_marked (input : Bytes) (w j : Nat) (hl : input.length < 8 * w) :
    number (((marked (8 * w) input).drop (8 * j)).take 8) =
      if j < input.length / 8 then number ((input.drop (8 * j)).take 8)
      else if j = input.length / 8 then number (input.drop (8 * (input.length / 8)) ++ [0x01] ++
        List.replicate (7 - (input.drop (8 * (input.length / 8))).length) 0)
      else 0 := by
  unfold marked
  rw [List.append_assoc]
  by_cases h1 : j < input.length / 8
  · rw [if_pos h1, List.drop_append_of_le_length (by omega), List.take_append_of_le_length (by rw [List.length_drop]; omega)]
  rw [if_neg h1]
  by_cases h2 : j = input.length / 8
  · rw [if_pos h2, h2, List.drop_append_of_le_length (by omega)]
    have hk : (input.drop (8 * (input.length / 8))).length = input.length % 8 := by rw [List.length_drop]; omega
    generalize input.drop (8 * (input.length / 8)) = rest at hk ⊢
    rw [← List.append_assoc, List.take_append, List.take_of_length_le (by simp; omega), List.take_replicate, List.length_append,
      List.length_singleton, Nat.min_eq_left (by omega), Nat.sub_add_eq, Nat.sub_right_comm]
  · rw [if_neg h2]
    have : ∃ n, (input ++ ([0x01] ++ List.replicate (8 * w - 1 - input.length) 0)).drop (8 * j) = List.replicate n (0 : UInt8) := by
      refine ⟨8 * w - 1 - input.length - (8 * j - input.length - 1), ?_⟩
      rw [List.drop_append, List.drop_of_length_le (by omega), List.nil_append, List.drop_append,
        List.drop_of_length_le (by simp; omega), List.nil_append, List.drop_replicate]
      rfl
    obtain ⟨n, hn⟩ := this
    rw [hn, List.take_replicate, number_zeros]

theorem xor0 (x : Word) : x ^^^ (0 : Word) = x := BitVec.xor_zero

theorem xor_top {n : Nat} (h : n < 2 ^ 63) : BitVec.ofNat 64 (n + 2 ^ 63) = BitVec.ofNat 64 n ^^^ 0x8000000000000000 := by
  apply BitVec.eq_of_toNat_eq
  rw [BitVec.toNat_xor, BitVec.toNat_ofNat, BitVec.toNat_ofNat, Nat.mod_eq_of_lt (by omega), Nat.mod_eq_of_lt (by omega)]
  have e : (0x8000000000000000 : BitVec 64).toNat = 2 ^ 63 := rfl
  rw [e]
  have h2 := Nat.two_pow_add_eq_or_of_lt h 1
  rw [Nat.mul_one, Nat.add_comm] at h2
  rw [h2]
  apply Nat.eq_of_testBit_eq
  intro i
  rw [Nat.testBit_or, Nat.testBit_xor, Nat.testBit_two_pow]
  by_cases hi : 63 = i
  · subst hi
    rw [Nat.testBit_lt_two_pow h]; rfl
  · simp [hi]

theorem word_padded (input : Bytes) (w j : Nat) (hl : input.length < 8 * w) (hj : j < w) :
    BitVec.ofNat 64 (number (((Spec.Keccak.pad (8 * w) input).drop (8 * j)).take 8)) =
      BitVec.ofNat 64 (number (((marked (8 * w) input).drop (8 * j)).take 8)) ^^^
        (if j = w - 1 then 0x8000000000000000 else 0) := by
  have key : ∃ D : Bytes, ∃ c d : UInt8, D.length + 1 = 8 * w ∧ marked (8 * w) input = D ++ [c] ∧
      Spec.Keccak.pad (8 * w) input = D ++ [d] ∧ c.toNat < 2 ∧ d.toNat = c.toNat + 128 := by
    unfold Spec.Keccak.pad marked
    rw [Nat.mod_eq_of_lt hl]
    by_cases h : input.length = 8 * w - 1
    · refine ⟨input, 1, 0x81, by omega, ?_, by rw [if_pos h], by decide, by decide⟩
      rw [h, Nat.sub_self, List.replicate_zero, List.append_nil]
    · refine ⟨input ++ [0x01] ++ List.replicate (8 * w - 2 - input.length) 0, 0, 0x80, ?_, ?_, by rw [if_neg h], by decide, by decide⟩
      · simp; omega
      · rw [show 8 * w - 1 - input.length = 8 * w - 2 - input.length + 1 by omega, List.replicate_succ', List.append_assoc _ _ [0]]
  obtain ⟨D, c, d, hD, e1, e2, hc, hd⟩ := key
  rw [e1, e2, word_split D c w j hD hj, word_split D d w j hD hj, hd]
  by_cases h : j = w - 1
  · simp only [if_pos h]
    have hn := number_lt ((D.drop (8 * j)).take 8)
    have h7 : ((D.drop (8 * j)).take 8).length = 7 := by rw [List.length_take, List.length_drop]; omega
    rw [h7] at hn
    generalize number ((D.drop (8 * j)).take 8) = n at hn ⊢
    have e : n + 256 ^ 7 * (c.toNat + 128) = n + 256 ^ 7 * c.toNat + 2 ^ 63 := by omega
    rw [e, xor_top (by omega)]
  · simp only [if_neg h, Nat.add_zero]
    rw [xor0]

theorem pad_length (input : Bytes) (r : Nat) (hl : input.length < r) : (Spec.Keccak.pad r input).length = r := by
  unfold Spec.Keccak.pad
  rw [Nat.mod_eq_of_lt hl]
  by_cases h : input.length = r - 1
  · rw [if_pos h]; simp; omega
  · rw [if_neg h]; simp; omega

theorem word_beyond (b : Bytes) (w j : Nat) (hl : b.length = 8 * w) (hj : ¬ j < w) : number ((b.drop (8 * j)).take 8) = 0 := by
  rw [List.drop_of_length_le (by omega)]; rfl

/-! The sponge -/

/-- The state at the end of `keccak`, with the bits of the block as parameter `w` of eight bytes. -/
def finish (w fuel : Nat) (st : List Word) (input : Bytes) : List Word :=
  let r := absorbLoop (8 * w) fuel st 0 input
  let last := (r.2.2 ++ [0x01] ++ List.replicate (7 - r.2.2.length) 0)
  let st := xorAt r.1 r.2.1 (loadLe64 last)
  let st := xorAt st (w - 1) 0x8000000000000000
  keccakf1600 st

theorem view_ext {a b : List Word} (f : Nat → Word) (h : ∀ j < 25, a.getD j 0 = b.getD j 0 ^^^ f j) :
    view a = fun x y => view b x y ^^^ f (5 * y.val + x.val) := by
  funext x y
  exact h _ (by omega)

theorem finish_last (w fuel : Nat) (hw : w ≤ 25) (st : List Word) (input : Bytes) (hs : st.length = 25)
    (hl : input.length < 8 * w) (hf : input.length < fuel) :
    view (finish w fuel st input) = Spec.Keccak.absorb (view st) (Spec.Keccak.pad (8 * w) input) := by
  obtain ⟨st', e, hl', hw'⟩ := absorbTail_eq (8 * w) fuel st 0 input hs hl hf (by omega)
  unfold finish Spec.Keccak.absorb
  rw [e, permutation_eq]
  congr 1
  simp only
  refine view_ext (b := st) (fun j => BitVec.ofNat 64 (number (((Spec.Keccak.pad (8 * w) input).drop (8 * j)).take 8)))
    fun j hj => ?_
  rw [xorAt_getD _ _ _ (by rw [xorAt_length]; omega), xorAt_getD _ _ _ (by omega), hw']
  simp only [Nat.zero_add, Nat.zero_le, true_and, Nat.sub_zero]
  have ht : (input.drop (8 * (input.length / 8)) ++ [0x01] ++
      List.replicate (7 - (input.drop (8 * (input.length / 8))).length) 0).length ≤ 8 := by
    simp only [List.length_append, List.length_drop, List.length_singleton, List.length_replicate]; omega
  rw [loadLe64_eq, List.take_of_length_le ht]
  by_cases hjw : j < w
  · rw [word_padded input w j hl hjw, word_marked input w j hl]
    by_cases h1 : j < input.length / 8
    · rw [if_pos h1, if_pos h1, if_neg (show ¬ j = input.length / 8 by omega)]
      by_cases h3 : j = w - 1
      · simp only [if_pos h3, BitVec.xor_assoc]
      · simp only [if_neg h3, xor0]
    · rw [if_neg h1, if_neg h1]
      by_cases h2 : j = input.length / 8
      · simp only [if_pos h2]
        by_cases h3 : j = w - 1
        · simp only [if_pos h3, BitVec.xor_assoc]
        · simp only [if_neg h3, xor0]
      · simp only [if_neg h2]
        by_cases h3 : j = w - 1
        · simp only [if_pos h3]; simp
        · simp only [if_neg h3]; simp
  · rw [if_neg (by omega), if_neg (by omega), if_neg (by omega), word_beyond _ w j (pad_length _ _ hl) hjw]
    simp

theorem blocks_cons {x y : Bytes} {r : Nat} (hr : 0 < r) (hx : x.length = r) :
    Spec.Keccak.blocks r (x ++ y) = x :: Spec.Keccak.blocks r y := by
  unfold Spec.Keccak.blocks
  rw [List.length_append, hx, Nat.add_div_left _ hr, List.range_succ_eq_map, List.map_cons, List.map_map]
  congr 1
  · rw [Nat.mul_zero, List.drop_zero, ← hx, List.take_left]
  · apply List.map_congr_left
    intro i _
    simp only [Function.comp, Nat.succ_eq_add_one, Nat.mul_succ]
    rw [Nat.add_comm, ← List.drop_drop, ← hx, List.drop_left]

theorem pad_cons {x y : Bytes} {r : Nat} (hx : x.length = r) : Spec.Keccak.pad r (x ++ y) = x ++ Spec.Keccak.pad r y := by
  unfold Spec.Keccak.pad
  rw [List.length_append, hx, Nat.add_mod_left]
  split <;> simp

theorem finish_eq (w : Nat) (h0 : 0 < w) (hw : w ≤ 25) : ∀ (fuel : Nat) (st : List Word) (input : Bytes), st.length = 25 →
    input.length < fuel → view (finish w fuel st input) =
      (Spec.Keccak.blocks (8 * w) (Spec.Keccak.pad (8 * w) input)).foldl Spec.Keccak.absorb (view st)
  | 0, _, _, _, hf => absurd hf (Nat.not_lt_zero _)
  | fuel + 1, st, input, hs, hf => by
    by_cases hl : input.length < 8 * w
    · rw [finish_last w (fuel + 1) hw st input hs hl hf]
      have := blocks_cons (y := []) (show 0 < 8 * w by omega) (pad_length input (8 * w) hl)
      rw [List.append_nil] at this
      rw [this]
      have h2 : Spec.Keccak.blocks (8 * w) [] = [] := by simp [Spec.Keccak.blocks]
      rw [h2, List.foldl_cons, List.foldl_nil]
    · obtain ⟨h1, h2, h3⟩ := xorBlock_eq st input hs w hw
      have e : finish w (fuel + 1) st input = finish w fuel (keccakf1600 (xorBlock w st input).1) (input.drop (8 * w)) := by
        have e' : absorbLoop (8 * w) (fuel + 1) st 0 input =
            absorbLoop (8 * w) fuel (keccakf1600 (xorBlock w st input).1) 0 (input.drop (8 * w)) := by
          conv => lhs; unfold absorbLoop
          rw [if_neg (by omega), if_pos (by omega), Nat.mul_div_cancel_left _ (by decide)]
          simp only [h2]
        unfold finish
        rw [e']
      have hx : (input.take (8 * w)).length = 8 * w := by rw [List.length_take]; omega
      rw [e, finish_eq w h0 hw fuel _ _ (keccakf1600_length _) (by rw [List.length_drop]; omega)]
      conv => rhs; rw [← List.take_append_drop (8 * w) input]
      rw [pad_cons hx, blocks_cons (by omega) hx, List.foldl_cons]
      congr 1
      unfold Spec.Keccak.absorb
      rw [permutation_eq]
      congr 1
      refine view_ext (b := st) (fun j => BitVec.ofNat 64 (number (((input.take (8 * w)).drop (8 * j)).take 8))) fun j hj => ?_
      rw [h3]
      by_cases hjw : j < w
      · rw [if_pos hjw, List.drop_take, List.take_take, Nat.min_eq_left (by omega)]
      · rw [if_neg hjw, word_beyond _ w j hx hjw]; simp

theorem bytesOf_eq (w : Word) : bytesOf w = (List.range 8).map (Spec.Keccak.byte w) := by
  unfold bytesOf Spec.Keccak.byte
  simp [beFixed, List.range_succ, Nat.div_div_eq_div_mul]

theorem stateByte_eq (st : List Word) (n i : Nat) (hn : n < 25) (hi : i < 8) :
    Spec.Keccak.stateByte (view st) (8 * n + i) = Spec.Keccak.byte (st.getD n 0) i := by
  unfold Spec.Keccak.stateByte view
  have h1 : (8 * n + i) / 8 = n := by omega
  have h2 : (8 * n + i) / 40 = n / 5 := by omega
  have h3 : (8 * n + i) % 8 = i := by omega
  rw [h1, h2, h3]
  simp only [Fin.val_ofNat]
  have h4 : 5 * (n / 5 % 5) + n % 5 = n := by omega
  rw [h4]

theorem output_eq (st : List Word) (hs : st.length = 25) : ∀ n ≤ 25,
    (st.take n).flatMap bytesOf = (List.range (8 * n)).map (Spec.Keccak.stateByte (view st))
  | 0, _ => rfl
  | n + 1, h => by
    have e : List.range (8 * (n + 1)) = List.range (8 * n) ++ (List.range 8).map (8 * n + ·) := by
      rw [Nat.mul_succ, List.range_add]
    have ht : st.take (n + 1) = st.take n ++ [st.getD n 0] := by
      rw [List.take_succ_eq_append_getElem (by omega), List.getD_eq_getElem?_getD, List.getElem?_eq_getElem (by omega)]; rfl
    rw [e, List.map_append, ← output_eq st hs n (by omega), ht, List.flatMap_append]
    congr 1
    rw [List.flatMap_singleton, bytesOf_eq, List.map_map]
    apply List.map_congr_left
    intro i hi
    exact (stateByte_eq st n i (by omega) (List.mem_range.mp hi)).symm

theorem view_zero : view (List.replicate 25 0) = fun _ _ => 0 := by
  funext x y
  rcases fin5 x with rfl | rfl | rfl | rfl | rfl <;> rcases fin5 y with rfl | rfl | rfl | rfl | rfl <;> rfl

theorem keccakWords_eq (bits w n : Nat) (hb : (1600 - bits * 2) / 8 = 8 * w) (hn : bits / 8 / 8 = n) (h0 : 0 < w) (hw : w ≤ 25)
    (hn' : n ≤ 25) (m : Bytes) : (keccakWords bits m).flatMap bytesOf = Spec.Keccak.sponge (8 * w) (8 * n) m := by
  have e : keccakWords bits m = (finish w (m.length + 1) (List.replicate 25 0) m).take n := by
    unfold keccakWords finish
    simp only [hb, hn, Nat.mul_div_cancel_left w (show 0 < 8 by decide)]
  rw [e, output_eq _ (by unfold finish; exact keccakf1600_length _) n hn',
    finish_eq w h0 hw _ _ _ (List.length_replicate ..) (Nat.lt_succ_self _), view_zero]
  rfl

theorem keccak256_eq (m : Bytes) : keccak256 m = Spec.Keccak.keccak256 m :=
  keccakWords_eq 256 17 4 rfl rfl (by decide) (by decide) (by decide) m

theorem keccak512_eq (m : Bytes) : keccak512 m = Spec.Keccak.keccak512 m :=
  keccakWords_eq 512 9 8 rfl rfl (by decide) (by decide) (by decide) m

end Silkworm.Keccak
