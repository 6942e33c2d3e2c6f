import Verif.Rlp.CodecLemmas

/-! The specification's RLP is prefix-free and injective. -/

namespace Silkworm.Spec

open Silkworm Silkworm.Rlp

theorem rlp_list_eq {l : List Item} (h : (rlpItems l).length < 2 ^ 64) :
    rlp (.list l) = encodeHeader ⟨true, (rlpItems l).length⟩ ++ rlpItems l := by
  rw [encodeHeader_spec h, rlp]; rfl

theorem rlp_str_eq {b : Bytes} (h : b.length < 2 ^ 64) : rlp (.str b) = encodeBytes b := by
  rw [encodeBytes_spec h, rlp]

theorem decodeHeader_rlp_list {l : List Item} {s : Bytes} (h : (rlpItems l).length < 2 ^ 64) :
    decodeHeader (rlp (.list l) ++ s) = .ok (⟨true, (rlpItems l).length⟩, rlpItems l ++ s) := by
  rw [rlp_list_eq h, List.append_assoc, decodeHeader_encode h (by simp) (by intro h; cases h)]

theorem str_ne_list {b : Bytes} {l : List Item} {s t : Bytes} (hb : b.length < 2 ^ 64)
    (hl : (rlpItems l).length < 2 ^ 64) : rlp (.str b) ++ s ≠ rlp (.list l) ++ t := by
  intro e
  have h1 := decodeBytes_roundTrip hb s
  rw [← rlp_str_eq hb, e] at h1
  unfold decodeBytes at h1
  rw [decodeHeader_rlp_list hl] at h1
  simp at h1

theorem rlp_ne_nil : ∀ i : Item, rlp i ≠ []
  | .str b => by
    rw [rlp]
    unfold rlpStr lenPrefix
    match b with
    | [] => simp
    | [x] => simp only; split <;> simp
    | x :: y :: zs => simp
  | .list l => by
    rw [rlp]
    unfold lenPrefix
    split <;> simp

mutual
theorem rlp_prefix_free : ∀ (a b : Item) (s t : Bytes), fits a → fits b → rlp a ++ s = rlp b ++ t → a = b ∧ s = t
  | .str x, .str y, s, t, ha, hb, e => by
    simp only [fits] at ha hb
    have h1 := decodeBytes_roundTrip ha s
    have h2 := decodeBytes_roundTrip hb t
    rw [← rlp_str_eq ha, e, rlp_str_eq hb, h2] at h1
    simp at h1
    exact ⟨by rw [h1.1], h1.2.symm⟩
  | .str x, .list l, s, t, ha, hb, e => by
    simp only [fits] at ha hb
    exact absurd e (str_ne_list ha hb.1)
  | .list l, .str x, s, t, ha, hb, e => by
    simp only [fits] at ha hb
    exact absurd e.symm (str_ne_list hb ha.1)
  | .list l, .list m, s, t, ha, hb, e => by
    simp only [fits] at ha hb
    have h1 := decodeHeader_rlp_list (s := s) ha.1
    rw [e, decodeHeader_rlp_list hb.1] at h1
    simp only [Outcome.ok.injEq, Prod.mk.injEq, Header.mk.injEq, true_and] at h1
    obtain ⟨h2, h3⟩ := h1
    obtain ⟨h4, h5⟩ := List.append_inj h3 h2
    exact ⟨by rw [rlpItems_inj l m ha.2 hb.2 h4.symm], h5.symm⟩
theorem rlpItems_inj : ∀ (l m : List Item), fitsItems l → fitsItems m → rlpItems l = rlpItems m → l = m
  | [], [], _, _, _ => rfl
  | [], x :: xs, _, _, e => by
    simp only [rlpItems] at e
    have := rlp_ne_nil x
    simp_all
  | x :: xs, [], _, _, e => by
    simp only [rlpItems] at e
    have := rlp_ne_nil x
    simp_all
  | x :: xs, y :: ys, ha, hb, e => by
    simp only [rlpItems, fitsItems] at e ha hb
    obtain ⟨h1, h2⟩ := rlp_prefix_free x y _ _ ha.1 hb.1 e
    rw [h1, rlpItems_inj xs ys ha.2 hb.2 h2]
end

theorem rlp_inj {a b : Item} (ha : fits a) (hb : fits b) (e : rlp a = rlp b) : a = b :=
  (rlp_prefix_free a b [] [] ha hb (by simp [e])).1

theorem fits_num {n : Nat} (h : n < 256 ^ 32) : fits (num n) := by
  simp only [num, fits, spec_be_length]
  have := byteLen_le h
  omega

theorem num_inj {m n : Nat} (h : num m = num n) : m = n := by
  simp only [num, Item.str.injEq] at h
  exact spec_be_inj h

end Silkworm.Spec
