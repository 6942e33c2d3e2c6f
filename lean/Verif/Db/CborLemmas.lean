import Verif.Types.Cbor
import Verif.Spec.Cbor
import Verif.Base.BytesLemmas

/-! The encoder writes CBOR; CBOR items are prefix-free. -/

namespace Silkworm.Cbor

open Silkworm.Spec

theorem ofNat_mod (n : Nat) : UInt8.ofNat (n % 256) = UInt8.ofNat n := by
  apply UInt8.toNat_inj.mp
  simp

/-- First byte: major type and additional information. -/
theorem first_byte {m : UInt8} (hm : m ∈ [0, 2, 4]) {i : Nat} (hi : i < 32) :
    UInt8.ofNat (m.toNat * 32 + i) = m <<< 5 ||| UInt8.ofNat i := by
  have : ∀ m ∈ ([0, 2, 4] : List UInt8), ∀ i : Fin 32, UInt8.ofNat (m.toNat * 32 + i.val) = m <<< 5 ||| UInt8.ofNat i.val := by
    decide +kernel
  exact this m hm ⟨i, hi⟩

theorem head_spec {m : UInt8} (hm : m ∈ [0, 2, 4]) (n : Nat) : head m.toNat n = cborHead m n := by
  unfold head cborHead
  by_cases h1 : n < 24
  · rw [if_pos h1, if_pos h1, first_byte hm (by omega)]
  rw [if_neg h1, if_neg h1]
  by_cases h2 : n < 2 ^ 8
  · rw [if_pos h2, if_pos (show n < 256 by omega), first_byte hm (by omega)]
    simp only [beFixed, List.nil_append, ofNat_mod]
    rfl
  rw [if_neg h2, if_neg (show ¬ n < 256 by omega)]
  by_cases h3 : n < 2 ^ 16
  · rw [if_pos h3, if_pos (show n < 65536 by omega), first_byte hm (by omega)]
    simp only [beFixed, List.nil_append, ofNat_mod]
    rfl
  rw [if_neg h3, if_neg (show ¬ n < 65536 by omega)]
  by_cases h4 : n < 2 ^ 32
  · rw [if_pos h4, if_pos (show n < 4294967296 by omega), first_byte hm (by omega)]
    simp only [beFixed, List.nil_append, ofNat_mod, Nat.div_div_eq_div_mul]
    rfl
  rw [if_neg h4, if_neg (show ¬ n < 4294967296 by omega), first_byte hm (by omega)]
  simp only [beFixed, List.nil_append, ofNat_mod, Nat.div_div_eq_div_mul, List.map_cons, List.map_nil, Nat.shiftRight_eq_div_pow]
  simp

theorem head_split {m n m' n' : Nat} (hm : m < 7) (hm' : m' < 7) (hn : n < 2 ^ 64) (hn' : n' < 2 ^ 64) (r s : Bytes)
    (h : head m n ++ r = head m' n' ++ s) : m = m' ∧ n = n' ∧ r = s := by
  have byte : ∀ {m i m' i' : Nat}, m < 7 → m' < 7 → i < 32 → i' < 32 → UInt8.ofNat (m * 32 + i) = UInt8.ofNat (m' * 32 + i') →
      m = m' ∧ i = i' := by
    intro m i m' i' h1 h2 h3 h4 he
    have := congrArg UInt8.toNat he
    simp only [UInt8.toNat_ofNat'] at this
    omega
  have tail : ∀ {k : Nat} {r s : Bytes}, n < 256 ^ k → n' < 256 ^ k → beFixed k n ++ r = beFixed k n' ++ s → n = n' ∧ r = s := by
    intro k r s h1 h2 he
    obtain ⟨h3, h4⟩ := List.append_inj he (by rw [beFixed_length, beFixed_length])
    exact ⟨beFixed_inj h1 h2 h3, h4⟩
  unfold head at h
  repeat' split at h
  all_goals
    simp only [List.cons_append, List.cons.injEq, List.nil_append] at h
    obtain ⟨h1, h2⟩ := h
    obtain ⟨h3, h4⟩ := byte hm hm' (by omega) (by omega) h1
    first
    | exact absurd h4 (by omega)
    | exact ⟨h3, h4, h2⟩
    | exact ⟨h3, tail (by omega) (by omega) h2⟩

/-- Null differs from the beginning of any other item. -/
theorem head_ne_null {m n : Nat} (hm : m < 7) (r s : Bytes) : head m n ++ r ≠ [0xf6] ++ s := by
  have byte : ∀ i, i < 32 → UInt8.ofNat (m * 32 + i) ≠ 0xf6 := by
    intro i hi he
    have := congrArg UInt8.toNat he
    simp only [UInt8.toNat_ofNat'] at this
    have h2 : (0xf6 : UInt8).toNat = 246 := rfl
    omega
  intro h
  unfold head at h
  repeat' split at h
  all_goals
    simp only [List.cons_append, List.cons.injEq, List.nil_append] at h
    exact byte _ (by omega) h.1

theorem head0 (n : Nat) : cborHead 0 n = head 0 n := (head_spec (m := 0) (by decide) n).symm
theorem head2 (n : Nat) : cborHead 2 n = head 2 n := (head_spec (m := 2) (by decide) n).symm
theorem head4 (n : Nat) : cborHead 4 n = head 4 n := (head_spec (m := 4) (by decide) n).symm

mutual
theorem cbor_prefix_free : ∀ (a b : CborItem) (s t : Bytes), cborFits a → cborFits b → cbor a ++ s = cbor b ++ t → a = b ∧ s = t
  | .uint x, .uint y, s, t, ha, hb, e => by
    simp only [cborFits, cbor, head0] at ha hb e
    obtain ⟨_, h1, h2⟩ := head_split (by omega) (by omega) ha hb _ _ e
    exact ⟨by rw [h1], h2⟩
  | .bytes x, .bytes y, s, t, ha, hb, e => by
    simp only [cborFits, cbor, head2, List.append_assoc] at ha hb e
    obtain ⟨_, h1, h2⟩ := head_split (by omega) (by omega) ha hb _ _ e
    obtain ⟨h3, h4⟩ := List.append_inj h2 h1
    exact ⟨by rw [h3], h4⟩
  | .array x, .array y, s, t, ha, hb, e => by
    simp only [cborFits, cbor, head4, List.append_assoc] at ha hb e
    obtain ⟨_, h1, h2⟩ := head_split (by omega) (by omega) ha.1 hb.1 _ _ e
    obtain ⟨h3, h4⟩ := cborItems_inj x y s t ha.2 hb.2 h1 h2
    exact ⟨by rw [h3], h4⟩
  | .null, .null, s, t, _, _, e => by
    simp only [cbor, List.cons_append, List.nil_append, List.cons.injEq, true_and] at e
    exact ⟨rfl, e⟩
  | .uint x, .bytes y, s, t, ha, hb, e => by
    simp only [cborFits, cbor, head0, head2, List.append_assoc] at ha hb e
    exact absurd (head_split (by omega) (by omega) ha hb _ _ e).1 (by decide)
  | .uint x, .array y, s, t, ha, hb, e => by
    simp only [cborFits, cbor, head0, head4, List.append_assoc] at ha hb e
    exact absurd (head_split (by omega) (by omega) ha hb.1 _ _ e).1 (by decide)
  | .bytes x, .uint y, s, t, ha, hb, e => by
    simp only [cborFits, cbor, head0, head2, List.append_assoc] at ha hb e
    exact absurd (head_split (by omega) (by omega) ha hb _ _ e).1 (by decide)
  | .bytes x, .array y, s, t, ha, hb, e => by
    simp only [cborFits, cbor, head2, head4, List.append_assoc] at ha hb e
    exact absurd (head_split (by omega) (by omega) ha hb.1 _ _ e).1 (by decide)
  | .array x, .uint y, s, t, ha, hb, e => by
    simp only [cborFits, cbor, head0, head4, List.append_assoc] at ha hb e
    exact absurd (head_split (by omega) (by omega) ha.1 hb _ _ e).1 (by decide)
  | .array x, .bytes y, s, t, ha, hb, e => by
    simp only [cborFits, cbor, head2, head4, List.append_assoc] at ha hb e
    exact absurd (head_split (by omega) (by omega) ha.1 hb _ _ e).1 (by decide)
  | .null, .uint y, s, t, _, _, e => by
    simp only [cbor, head0] at e
    exact absurd e.symm (head_ne_null (by omega) _ _)
  | .null, .bytes y, s, t, _, _, e => by
    simp only [cbor, head2, List.append_assoc] at e
    exact absurd e.symm (head_ne_null (by omega) _ _)
  | .null, .array y, s, t, _, _, e => by
    simp only [cbor, head4, List.append_assoc] at e
    exact absurd e.symm (head_ne_null (by omega) _ _)
  | .uint x, .null, s, t, _, _, e => by
    simp only [cbor, head0] at e
    exact absurd e (head_ne_null (by omega) _ _)
  | .bytes x, .null, s, t, _, _, e => by
    simp only [cbor, head2, List.append_assoc] at e
    exact absurd e (head_ne_null (by omega) _ _)
  | .array x, .null, s, t, _, _, e => by
    simp only [cbor, head4, List.append_assoc] at e
    exact absurd e (head_ne_null (by omega) _ _)
theorem cborItems_inj : ∀ (l m : List CborItem) (s t : Bytes), cborFitsItems l → cborFitsItems m → l.length = m.length →
    cborItems l ++ s = cborItems m ++ t → l = m ∧ s = t
  | [], [], s, t, _, _, _, e => ⟨rfl, e⟩
  | [], x :: xs, _, _, _, _, h, _ => by simp at h
  | x :: xs, [], _, _, _, _, h, _ => by simp at h
  | x :: xs, y :: ys, s, t, ha, hb, h, e => by
    simp only [cborItems, cborFitsItems, List.append_assoc] at e ha hb
    obtain ⟨h1, h2⟩ := cbor_prefix_free x y _ _ ha.1 hb.1 e
    obtain ⟨h3, h4⟩ := cborItems_inj xs ys s t ha.2 hb.2 (by simpa using h) h2
    exact ⟨by rw [h1, h3], h4⟩
end

theorem cborItems_map {α : Type} (f : α → CborItem) (g : α → Bytes) (h : ∀ x, g x = cbor (f x)) (l : List α) :
    cborItems (l.map f) = l.flatMap g := by
  induction l with
  | nil => rfl
  | cons x xs ih => rw [List.map_cons, cborItems, ih, List.flatMap_cons, h]

theorem cborFitsItems_iff {l : List CborItem} : cborFitsItems l ↔ ∀ x ∈ l, cborFits x := by
  induction l with
  | nil => simp [cborFitsItems]
  | cons x xs ih => rw [cborFitsItems, ih]; simp

end Silkworm.Cbor
