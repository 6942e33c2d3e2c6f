import Verif.Rlp.Model
import Verif.Spec.Rlp
import Verif.Base.BytesLemmas

/-! Helper lemmas about the RLP model. -/

namespace Silkworm.Rlp

open Silkworm

theorem bigEndian_eq {k n : Nat} (h : n < 256 ^ k) : bigEndian k n = beFixed (byteLen n) n := by
  unfold bigEndian
  rw [clz_div h, beFixed_drop (byteLen_le h)]

theorem bigEndian_length {k n : Nat} (h : n < 256 ^ k) : (bigEndian k n).length = byteLen n := by
  rw [bigEndian_eq h, beFixed_length]

theorem bigEndian_ne_nil {k n : Nat} (h : n < 256 ^ k) (h0 : n ≠ 0) : bigEndian k n ≠ [] := by
  intro e
  have := bigEndian_length h
  rw [e] at this
  exact h0 (byteLen_eq_zero.mp this.symm)

theorem beToNat_bigEndian {k n : Nat} (h : n < 256 ^ k) : beToNat (bigEndian k n) = n := by
  rw [bigEndian_eq h, beToNat_beFixed (lt_pow_byteLen n)]

theorem byteLen_div {n : Nat} (h : n ≠ 0) : byteLen n = byteLen (n / 256) + 1 := by
  by_cases h1 : n / 256 = 0
  · rw [h1]
    have : byteLen n = 0 + 1 := byteLen_unique (by omega) (by omega)
    rw [this]; rfl
  · have h2 := pow_byteLen_le h1
    have h3 := lt_pow_byteLen (n / 256)
    have h4 : byteLen (n / 256) ≠ 0 := fun e => h1 (byteLen_eq_zero.mp e)
    apply byteLen_unique
    · have e : byteLen (n / 256) = (byteLen (n / 256) - 1) + 1 := by omega
      rw [e, Nat.pow_succ]
      omega
    · rw [Nat.pow_succ]
      omega

theorem spec_be_eq (n : Nat) : Spec.be n = beFixed (byteLen n) n := by
  induction n using Nat.strongRecOn with
  | _ n ih =>
    rw [Spec.be]
    by_cases h : n = 0
    · simp [h, byteLen, beFixed]
    · rw [dif_neg h, ih (n / 256) (by omega), byteLen_div h, beFixed]

theorem bigEndian_spec {k n : Nat} (h : n < 256 ^ k) : bigEndian k n = Spec.be n := by
  rw [bigEndian_eq h, spec_be_eq]

theorem spec_be_length (n : Nat) : (Spec.be n).length = byteLen n := by
  rw [spec_be_eq, beFixed_length]

theorem spec_be_inj {m n : Nat} (h : Spec.be m = Spec.be n) : m = n := by
  have hl : byteLen m = byteLen n := by rw [← spec_be_length, ← spec_be_length, h]
  rw [spec_be_eq, spec_be_eq, hl] at h
  exact beFixed_inj (hl ▸ lt_pow_byteLen m) (lt_pow_byteLen n) h

theorem pow64 : (2 : Nat) ^ 64 = 256 ^ 8 := rfl

/-- Base of the length prefix. -/
theorem encodeHeader_spec {h : Header} (hp : h.payloadLength < 2 ^ 64) :
    encodeHeader h = Spec.lenPrefix (if h.list then 192 else 128) h.payloadLength := by
  unfold encodeHeader Spec.lenPrefix
  rw [pow64] at hp
  rw [bigEndian_spec hp]
  split
  · rfl
  · cases h.list <;> rfl

theorem lengthOfLength_spec {h : Header} (hp : h.payloadLength < 2 ^ 64) :
    lengthOfLength h.payloadLength = (encodeHeader h).length := by
  unfold encodeHeader lengthOfLength
  split
  · rfl
  · rename_i h56
    rw [pow64] at hp
    have h1 := clz_div (k := 8) hp
    have h2 := byteLen_le (k := 8) hp
    simp only [List.length_cons, bigEndian_length (k := 8) hp]
    have h1' : clz 64 h.payloadLength / 8 = 8 - byteLen h.payloadLength := h1
    omega

theorem encodeBytes_spec {s : Bytes} (h : s.length < 2 ^ 64) : encodeBytes s = Spec.rlpStr s := by
  unfold encodeBytes Spec.rlpStr needsHeader
  match s with
  | [] => simp [encodeHeader_spec]
  | [x] =>
    by_cases hx : 0x80 ≤ x
    · have : ¬ x < 128 := by rw [UInt8.not_lt]; exact hx
      simp [hx, this, encodeHeader_spec]
    · have : x < 128 := by rw [← UInt8.not_le]; exact hx
      simp [hx, this]
  | x :: y :: zs =>
    have := encodeHeader_spec (h := ⟨false, (x :: y :: zs).length⟩) h
    simp only [if_true, this]
    rfl

theorem encodeUint_spec {k n : Nat} (hk : k < 56) (h : n < 256 ^ k) : encodeUint k n = Spec.rlp (Spec.num n) := by
  unfold encodeUint Spec.num Spec.rlp
  split
  · rename_i h0
    subst h0
    simp [Spec.be, Spec.rlpStr, Spec.lenPrefix]
  · rename_i h0
    split
    · rename_i h1
      have hb : Spec.be n = [UInt8.ofNat n] := by
        rw [Spec.be, dif_neg h0, Nat.div_eq_of_lt (by omega), Nat.mod_eq_of_lt (by omega)]
        simp [Spec.be]
      have hx : UInt8.ofNat n < 128 := by
        rw [UInt8.lt_iff_toNat_lt, uint8_ofNat_toNat n (by omega)]
        exact h1
      rw [hb]
      simp [Spec.rlpStr, hx]
    · rename_i h1
      have hl := bigEndian_length h
      have hl2 := byteLen_le h
      have hs := bigEndian_spec h
      rw [← hs]
      simp only
      generalize hb : bigEndian k n = b at *
      match b with
      | [] => exact absurd hb (bigEndian_ne_nil h h0)
      | [x] =>
        have hv := beToNat_bigEndian h
        rw [hb, beToNat_cons] at hv
        simp at hv
        have hx : ¬ x < 128 := by
          rw [UInt8.lt_iff_toNat_lt, hv]
          exact h1
        simp [Spec.rlpStr, hx, Spec.lenPrefix]
      | x :: y :: zs =>
        have : (x :: y :: zs).length < 56 := by omega
        simp only [Spec.rlpStr, Spec.lenPrefix, this, if_true, List.singleton_append]

theorem encodeArray_spec {s : Bytes} (h1 : s.length ≠ 1) (h2 : s.length < 56) : encodeArray s = Spec.rlpStr s := by
  unfold encodeArray Spec.rlpStr
  match s with
  | [] => rfl
  | [x] => simp at h1
  | x :: y :: zs =>
    simp only [Spec.lenPrefix, h2, if_true, List.singleton_append]

theorem lengthBytes_eq {s : Bytes} (h : s.length < 2 ^ 64) : lengthBytes s = (encodeBytes s).length := by
  unfold lengthBytes encodeBytes
  rw [List.length_append]
  split
  · rw [lengthOfLength_spec (h := ⟨false, s.length⟩) h]; omega
  · simp

theorem lengthUint_eq {k n : Nat} (h : n < 256 ^ k) : lengthUint k n = (encodeUint k n).length := by
  unfold lengthUint encodeUint
  split
  · split
    · rfl
    · rfl
  · rename_i h1
    have h0 : n ≠ 0 := by omega
    rw [if_neg h0]
    simp only [List.length_cons, bigEndian_length h]
    have := clz_div h
    have := byteLen_le h
    omega

theorem payloadLength_acc {α : Type} (len : α → Nat) (v : List α) (a : Nat) :
    v.foldl (fun acc x => acc + len x) a = a + payloadLength len v := by
  unfold payloadLength
  induction v generalizing a with
  | nil => simp
  | cons x xs ih =>
    simp only [List.foldl_cons]
    rw [ih, ih (0 + len x)]
    omega

@[simp] theorem payloadLength_nil {α : Type} (len : α → Nat) : payloadLength len [] = 0 := rfl

theorem payloadLength_cons {α : Type} (len : α → Nat) (x : α) (xs : List α) :
    payloadLength len (x :: xs) = len x + payloadLength len xs := by
  have := payloadLength_acc len xs (len x)
  simpa [payloadLength] using this

theorem payloadLength_eq {α : Type} (len : α → Nat) (enc : α → Bytes) (v : List α)
    (h : ∀ x ∈ v, len x = (enc x).length) : payloadLength len v = (v.map enc).flatten.length := by
  induction v with
  | nil => rfl
  | cons x xs ih =>
    rw [payloadLength_cons, List.map_cons, List.flatten_cons, List.length_append,
      h x (by simp), ih (fun y hy => h y (by simp [hy]))]

theorem lengthVector_eq {α : Type} (len : α → Nat) (enc : α → Bytes) (v : List α)
    (h : ∀ x ∈ v, len x = (enc x).length) (hp : payloadLength len v < 2 ^ 64) :
    lengthVector len v = (encodeVector len enc v).length := by
  unfold lengthVector encodeVector
  rw [List.length_append, lengthOfLength_spec (h := ⟨true, payloadLength len v⟩) hp, payloadLength_eq len enc v h]

/-! ### Header decoding -/

theorem readUint_ok {k : Nat} {be : Bytes} (hl : be.length ≤ k) (hz : ∀ x xs, be = x :: xs → x ≠ 0) :
    readUint k be = .ok (beToNat be) := by
  unfold readUint
  rw [if_neg (by omega)]
  match be with
  | [] => rfl
  | x :: xs =>
    have hx := hz x xs rfl
    simp [hx, beToNat_replicate_zero]

theorem readUint_bigEndian {k n : Nat} (h : n < 256 ^ k) : readUint k (bigEndian k n) = .ok n := by
  rw [readUint_ok]
  · rw [beToNat_bigEndian h]
  · rw [bigEndian_length h]; exact byteLen_le h
  · intro x xs e
    rw [bigEndian_eq h] at e
    exact beFixed_head_ne_zero e

theorem readUint_inv {k n : Nat} {be : Bytes} (h : readUint k be = .ok n) :
    be.length ≤ k ∧ n < 256 ^ k ∧ bigEndian k n = be := by
  unfold readUint at h
  split at h
  · cases h
  · rename_i hl
    have hl : be.length ≤ k := by omega
    match be with
    | [] =>
      simp only [Outcome.ok.injEq] at h
      subst h
      have hp : 0 < 256 ^ k := Nat.pow_pos (by decide)
      refine ⟨hl, hp, ?_⟩
      rw [bigEndian_eq hp]; rfl
    | x :: xs =>
      simp only at h
      split at h
      · cases h
      · rename_i hx
        simp only [Outcome.ok.injEq, beToNat_replicate_zero] at h
        subst h
        have hx : x ≠ 0 := by simpa using hx
        have hlt := beToNat_lt (x :: xs)
        have hlt2 : beToNat (x :: xs) < 256 ^ k :=
          Nat.lt_of_lt_of_le hlt (Nat.pow_le_pow_right (by decide) hl)
        refine ⟨hl, hlt2, ?_⟩
        rw [bigEndian_eq hlt2, byteLen_beToNat hx]
        exact beFixed_beToNat (x :: xs)

theorem readUint_ne_ub (k : Nat) (be : Bytes) (b : Bool) : readUint k be b ≠ .ub := by
  unfold readUint
  split
  · simp
  · split
    · simp
    · split <;> simp

theorem removePrefix_ok {ε : Type} {v : Bytes} {n : Nat} (h : n ≤ v.length) :
    (removePrefix v n : Outcome ε Bytes) = .ok (v.drop n) := by
  unfold removePrefix; rw [if_pos h]

theorem copyBytes_ok {ε : Type} {v : Bytes} {n : Nat} (h : n ≤ v.length) :
    (copyBytes v n : Outcome ε Bytes) = .ok (v.take n) := by
  unfold copyBytes; rw [if_pos h]

theorem decodeLongLength_encode {list : Bool} {n : Nat} {rest : Bytes} (h1 : ¬ n < 56) (h2 : n < 2 ^ 64) :
    decodeLongLength (bigEndian 8 n ++ rest) list (bigEndian 8 n).length = .ok (⟨list, n⟩, rest) := by
  rw [pow64] at h2
  unfold decodeLongLength
  rw [if_neg (by simp)]
  simp only [List.take_left']
  rw [readUint_bigEndian h2, removePrefix_ok (by simp)]
  simp [h1]

theorem decodeHeader_single {b : UInt8} {rest : Bytes} (h : b < 0x80) :
    decodeHeader (b :: rest) = .ok (⟨false, 1⟩, b :: rest) := by
  unfold decodeHeader decodeHeaderPrefix
  simp [h]

theorem decodeHeader_encode {h : Header} {rest : Bytes} (h64 : h.payloadLength < 2 ^ 64)
    (hlen : h.payloadLength ≤ rest.length)
    (h1 : h.list = false → h.payloadLength = 1 → ∀ c cs, rest = c :: cs → 0x80 ≤ c) :
    decodeHeader (encodeHeader h ++ rest) = .ok (h, rest) := by
  obtain ⟨list, n⟩ := h
  simp only at h64 hlen h1
  have key : decodeHeaderPrefix (encodeHeader ⟨list, n⟩ ++ rest) = .ok (⟨list, n⟩, rest) := by
    by_cases h56 : n < 56
    · simp only [encodeHeader, h56, if_true]
      cases list with
      | false =>
        have e : (UInt8.ofNat (0x80 + n)).toNat = 0x80 + n := uint8_ofNat_toNat _ (by omega)
        have c1 : ¬ UInt8.ofNat (0x80 + n) < 0x80 := by
          rw [UInt8.lt_iff_toNat_lt, e]; simp
        have c2 : UInt8.ofNat (0x80 + n) < 0xB8 := by
          rw [UInt8.lt_iff_toNat_lt, e]; simp; omega
        simp only [decodeHeaderPrefix, Bool.false_eq_true, if_false, List.singleton_append, c1, c2, if_true, e]
        by_cases hn1 : n = 1
        · subst hn1
          simp only [Nat.add_sub_cancel_left, if_true]
          match rest, hlen, h1 with
          | c :: cs, _, h1 =>
            have := h1 rfl rfl c cs rfl
            simp [UInt8.not_lt.mpr this]
        · have : 0x80 + n - 0x80 = n := by omega
          simp [this, hn1]
      | true =>
        have e : (UInt8.ofNat (0xC0 + n)).toNat = 0xC0 + n := uint8_ofNat_toNat _ (by omega)
        have c1 : ¬ UInt8.ofNat (0xC0 + n) < 0x80 := by
          rw [UInt8.lt_iff_toNat_lt, e]; simp; omega
        have c2 : ¬ UInt8.ofNat (0xC0 + n) < 0xB8 := by
          rw [UInt8.lt_iff_toNat_lt, e]; simp; omega
        have c3 : ¬ UInt8.ofNat (0xC0 + n) < 0xC0 := by
          rw [UInt8.lt_iff_toNat_lt, e]; simp
        have c4 : UInt8.ofNat (0xC0 + n) < 0xF8 := by
          rw [UInt8.lt_iff_toNat_lt, e]; simp; omega
        simp only [decodeHeaderPrefix, if_true, List.singleton_append, c1, c2, c3, c4, if_false, e]
        simp
    · have hbl : (bigEndian 8 n).length = byteLen n := bigEndian_length (by rw [← pow64]; exact h64)
      have hb8 : byteLen n ≤ 8 := byteLen_le (by rw [← pow64]; exact h64)
      have hb1 : byteLen n ≠ 0 := fun e => by have := byteLen_eq_zero.mp e; omega
      simp only [encodeHeader, h56, if_false]
      have hlong := fun l => decodeLongLength_encode (list := l) (rest := rest) h56 h64
      rw [hbl] at hlong
      rw [hbl]
      cases list with
      | false =>
        have e : (UInt8.ofNat (0xB7 + byteLen n)).toNat = 0xB7 + byteLen n := uint8_ofNat_toNat _ (by omega)
        have c1 : ¬ UInt8.ofNat (0xB7 + byteLen n) < 0x80 := by
          rw [UInt8.lt_iff_toNat_lt, e]; simp; omega
        have c2 : ¬ UInt8.ofNat (0xB7 + byteLen n) < 0xB8 := by
          rw [UInt8.lt_iff_toNat_lt, e]; simp; omega
        have c3 : UInt8.ofNat (0xB7 + byteLen n) < 0xC0 := by
          rw [UInt8.lt_iff_toNat_lt, e]; simp; omega
        simp only [decodeHeaderPrefix, Bool.false_eq_true, if_false, List.cons_append, c1, c2, c3, if_true, e]
        rw [Nat.add_sub_cancel_left]
        exact hlong false
      | true =>
        have e : (UInt8.ofNat (0xF7 + byteLen n)).toNat = 0xF7 + byteLen n := uint8_ofNat_toNat _ (by omega)
        have c1 : ¬ UInt8.ofNat (0xF7 + byteLen n) < 0x80 := by
          rw [UInt8.lt_iff_toNat_lt, e]; simp; omega
        have c2 : ¬ UInt8.ofNat (0xF7 + byteLen n) < 0xB8 := by
          rw [UInt8.lt_iff_toNat_lt, e]; simp; omega
        have c3 : ¬ UInt8.ofNat (0xF7 + byteLen n) < 0xC0 := by
          rw [UInt8.lt_iff_toNat_lt, e]; simp; omega
        have c4 : ¬ UInt8.ofNat (0xF7 + byteLen n) < 0xF8 := by
          rw [UInt8.lt_iff_toNat_lt, e]; simp; omega
        simp only [decodeHeaderPrefix, if_true, if_false, List.cons_append, c1, c2, c3, c4, e]
        rw [Nat.add_sub_cancel_left]
        exact hlong true
  unfold decodeHeader
  rw [key]
  simp only [Outcome.ok_bind]
  rw [if_neg (by omega)]

theorem decodeLongLength_inv {from_ rest : Bytes} {list : Bool} {lol : Nat} {h : Header} 
    (e : decodeLongLength from_ list lol = .ok (h, rest)) :
    h.list = list ∧ ¬ h.payloadLength < 56 ∧ h.payloadLength < 2 ^ 64 ∧
      (bigEndian 8 h.payloadLength).length = lol ∧ from_ = bigEndian 8 h.payloadLength ++ rest := by
  unfold decodeLongLength at e
  split at e
  · cases e
  · rename_i hl
    obtain ⟨len, e1, e⟩ := Outcome.bind_eq_ok.mp e
    obtain ⟨r, e2, e⟩ := Outcome.bind_eq_ok.mp e
    split at e
    · cases e
    · rename_i h56
      cases e
      rw [removePrefix_ok (by omega)] at e2
      cases e2
      obtain ⟨g1, g2, g3⟩ := readUint_inv e1
      refine ⟨rfl, h56, ?_, ?_, ?_⟩
      · rw [pow64]; exact g2
      · simp only; rw [g3]; simp; omega
      · simp only; rw [g3]; simp

/-- What a successful `decode_header` tells about its input. -/
theorem decodeHeader_inv {from_ rest : Bytes} {h : Header} (e : decodeHeader from_ = .ok (h, rest)) :
    h.payloadLength ≤ rest.length ∧ h.payloadLength < 2 ^ 64 ∧
    ((h = ⟨false, 1⟩ ∧ rest = from_ ∧ ∃ b bs, from_ = b :: bs ∧ b < 0x80) ∨
     (from_ = encodeHeader h ++ rest ∧
       (h.list = false → h.payloadLength = 1 → ∃ c cs, rest = c :: cs ∧ 0x80 ≤ c))) := by
  unfold decodeHeader at e
  obtain ⟨⟨h', r'⟩, e1, e2⟩ := Outcome.bind_eq_ok.mp e
  simp only at e2
  split at e2
  · cases e2
  · rename_i hlen
    cases e2
    refine ⟨by omega, ?_⟩
    unfold decodeHeaderPrefix at e1
    match from_ with
    | [] => cases e1
    | b :: bs =>
      have hb := uint8_lt b
      simp only at e1
      split at e1
      · rename_i hb80
        cases e1
        refine ⟨by decide, Or.inl ⟨rfl, rfl, b, bs, rfl, hb80⟩⟩
      · rename_i hb80
        rw [UInt8.lt_iff_toNat_lt] at hb80
        simp at hb80
        split at e1
        · rename_i hbB8
          rw [UInt8.lt_iff_toNat_lt] at hbB8
          simp at hbB8
          split at e1
          · rename_i hl1
            rcases bs with _ | ⟨c, cs⟩
            · cases e1
            · simp only at e1
              split at e1
              · cases e1
              · rename_i hc
                cases e1
                refine ⟨by simp, Or.inr ⟨?_, ?_⟩⟩
                · have : b = 0x81 := uint8_ext (by simp; omega)
                  subst this; rfl
                · intro _ _; exact ⟨c, cs, rfl, UInt8.not_lt.mp hc⟩
          · rename_i hl1
            cases e1
            refine ⟨by simp only; omega, Or.inr ⟨?_, ?_⟩⟩
            · unfold encodeHeader
              simp only
              rw [if_pos (by omega)]
              have : 0x80 + (b.toNat - 0x80) = b.toNat := by omega
              simp [this]
            · intro _ h1; exact absurd h1 hl1
        · rename_i hbB8
          rw [UInt8.lt_iff_toNat_lt] at hbB8
          simp at hbB8
          split at e1
          · rename_i hbC0
            rw [UInt8.lt_iff_toNat_lt] at hbC0
            simp at hbC0
            obtain ⟨g1, g2, g3, g4, g5⟩ := decodeLongLength_inv e1
            refine ⟨g3, Or.inr ⟨?_, ?_⟩⟩
            · unfold encodeHeader
              simp only [g2, g1, if_false, g4]
              rw [g5]
              have : 0xB7 + (b.toNat - 0xB7) = b.toNat := by omega
              simp [this]
            · intro _ h1; omega
          · rename_i hbC0
            rw [UInt8.lt_iff_toNat_lt] at hbC0
            simp at hbC0
            split at e1
            · rename_i hbF8
              rw [UInt8.lt_iff_toNat_lt] at hbF8
              simp at hbF8
              cases e1
              refine ⟨by simp only; omega, Or.inr ⟨?_, ?_⟩⟩
              · unfold encodeHeader
                simp only
                rw [if_pos (by omega)]
                have : 0xC0 + (b.toNat - 0xC0) = b.toNat := by omega
                simp [this]
              · intro hf; cases hf
            · rename_i hbF8
              rw [UInt8.lt_iff_toNat_lt] at hbF8
              simp at hbF8
              obtain ⟨g1, g2, g3, g4, g5⟩ := decodeLongLength_inv e1
              refine ⟨g3, Or.inr ⟨?_, ?_⟩⟩
              · unfold encodeHeader
                simp only [g2, g1, if_true, if_false, g4]
                rw [g5]
                have : 0xF7 + (b.toNat - 0xF7) = b.toNat := by omega
                simp [this]
              · intro hf; rw [g1] at hf; cases hf

theorem decodeLongLength_ne_ub (from_ : Bytes) (list : Bool) (lol : Nat) :
    decodeLongLength from_ list lol ≠ .ub := by
  unfold decodeLongLength
  split
  · simp
  · rename_i hl
    apply Outcome.bind_ne_ub (readUint_ne_ub _ _ _)
    intro len _
    rw [removePrefix_ok (by omega)]
    simp only [Outcome.ok_bind]
    split <;> simp

theorem decodeHeader_ne_ub (from_ : Bytes) : decodeHeader from_ ≠ .ub := by
  unfold decodeHeader
  apply Outcome.bind_ne_ub
  · unfold decodeHeaderPrefix
    match from_ with
    | [] => simp
    | b :: bs =>
      simp only
      split
      · simp
      · split
        · split
          · match bs with
            | [] => simp
            | c :: cs => simp only; split <;> simp
          · simp
        · split
          · exact decodeLongLength_ne_ub _ _ _
          · split
            · simp
            · exact decodeLongLength_ne_ub _ _ _
  · intro ⟨h, r⟩ _
    simp only
    split <;> simp

end Silkworm.Rlp
