import Verif.Common.Util
import Verif.Spec.Util
import Verif.Base.BytesLemmas
import Mathlib.Tactic.Ring
import Mathlib.Tactic.Linarith

/-!
# Lemmas about core/silkworm/common/util.cpp
-/

namespace Silkworm

theorem forall_uint8 {P : UInt8 → Prop} (h : ∀ n : Fin 256, P (UInt8.ofNat n)) (b : UInt8) : P b := by
  have := h ⟨b.toNat, uint8_lt b⟩
  simpa using this

theorem decodeHexDigit_spec : ∀ ch : UInt8, (decodeHexDigit ch).map (·.toNat) = Spec.hexDigit ch :=
  forall_uint8 (by decide +kernel)

theorem decodeHexDigit_lt : ∀ ch : UInt8, ∀ v, decodeHexDigit ch = some v → v.toNat < 16 := by
  intro ch v h
  have h1 : ∀ ch : UInt8, ((decodeHexDigit ch).map (·.toNat)).getD 0 < 16 := forall_uint8 (by decide +kernel)
  have := h1 ch
  rw [h] at this
  exact this

theorem nibbles_toNat {a b : UInt8} (ha : a.toNat < 16) (hb : b.toNat < 16) :
    ((a <<< 4) ||| b).toNat = a.toNat * 16 + b.toNat := by
  have h : ∀ x y : Fin 16, ((UInt8.ofNat x <<< 4) ||| UInt8.ofNat y).toNat = x.val * 16 + y.val := by decide +kernel
  have := h ⟨a.toNat, ha⟩ ⟨b.toNat, hb⟩
  simpa using this

theorem hexDigit_x : Spec.hexDigit 0x78 = none := by decide +kernel
theorem hexDigit_X : Spec.hexDigit 0x58 = none := by decide +kernel

theorem hexDigit_lt {ch : UInt8} {d : Nat} (h : Spec.hexDigit ch = some d) : d < 16 := by
  rw [← decodeHexDigit_spec] at h
  cases hd : decodeHexDigit ch with
  | none => rw [hd] at h; simp at h
  | some v =>
    rw [hd] at h
    simp only [Option.map_some, Option.some.injEq] at h
    rw [← h]
    exact decodeHexDigit_lt ch v hd

theorem hexNumber_lt {ds : Bytes} {n : Nat} (h : Spec.hexNumber ds = some n) : n < 16 ^ ds.length := by
  induction ds generalizing n with
  | nil => simp only [Spec.hexNumber, Option.some.injEq] at h; simp [← h]
  | cons d ds ih =>
    simp only [Spec.hexNumber] at h
    cases hd : Spec.hexDigit d with
    | none => rw [hd] at h; simp at h
    | some v =>
      cases hn : Spec.hexNumber ds with
      | none => rw [hd, hn] at h; simp at h
      | some m =>
        rw [hd, hn] at h
        simp only [Option.some.injEq] at h
        have h1 := hexDigit_lt hd
        have h2 := ih hn
        rw [← h, List.length_cons, Nat.pow_succ]
        generalize 16 ^ ds.length = P at *
        nlinarith

/-- The loop computes the number. -/
theorem fromHexLoop_iff (b : Bytes) (ds : Bytes) (c : UInt8) :
    fromHexLoop true c ds = some b ∧ ds.length % 2 = 0 ↔
      ds.length = 2 * b.length ∧ Spec.hexNumber ds = some (beToNat b) := by
  induction b generalizing ds c with
  | nil =>
    cases ds with
    | nil => simp [fromHexLoop, Spec.hexNumber]
    | cons d1 ds =>
      cases ds with
      | nil => simp
      | cons d2 rest =>
        simp only [fromHexLoop, List.length_cons, List.length_nil]
        constructor
        · rintro ⟨h, -⟩
          revert h
          cases decodeHexDigit d1 with
          | none => simp
          | some v1 =>
            cases decodeHexDigit d2 with
            | none => simp
            | some v2 => simp only [if_true, Bool.false_eq_true, if_false]; cases fromHexLoop true (v1 <<< 4) rest <;> simp
        · rintro ⟨h, -⟩; omega
  | cons x b ih =>
    cases ds with
    | nil => simp [fromHexLoop]
    | cons d1 ds =>
      cases ds with
      | nil => simp; omega
      | cons d2 rest =>
        simp only [fromHexLoop, List.length_cons, Spec.hexNumber]
        rw [← decodeHexDigit_spec d1, ← decodeHexDigit_spec d2]
        have l1 := decodeHexDigit_lt d1
        have l2 := decodeHexDigit_lt d2
        cases h1 : decodeHexDigit d1 with
        | none => simp
        | some v1 =>
          cases h2 : decodeHexDigit d2 with
          | none => simp
          | some v2 =>
            have hv1 := l1 v1 h1
            have hv2 := l2 v2 h2
            have hnib := nibbles_toNat hv1 hv2
            have ih' := ih rest (v1 <<< 4)
            simp only [Option.map_some, if_true, Bool.false_eq_true, if_false]
            rw [beToNat_cons]
            constructor
            · rintro ⟨h, hm⟩
              cases hl : fromHexLoop true (v1 <<< 4) rest with
              | none => rw [hl] at h; simp at h
              | some out =>
                rw [hl] at h
                simp only [Option.some.injEq, List.cons.injEq] at h
                obtain ⟨rfl, rfl⟩ := h
                obtain ⟨e1, e2⟩ := ih'.mp ⟨hl, by omega⟩
                refine ⟨by omega, ?_⟩
                rw [e2]
                simp only [Option.some.injEq]
                rw [hnib, e1, show (256 : Nat) = 16 ^ 2 from rfl, ← Nat.pow_mul, Nat.pow_succ]
                ring_nf
            · rintro ⟨hm, h⟩
              cases hn : Spec.hexNumber rest with
              | none => rw [hn] at h; simp at h
              | some n =>
                rw [hn] at h
                simp only [Option.some.injEq] at h
                have e1 : rest.length = 2 * b.length := by omega
                have hnlt := hexNumber_lt hn
                have hblt := beToNat_lt b
                have hpow : 16 ^ rest.length = 256 ^ b.length := by
                  rw [e1, show (256 : Nat) = 16 ^ 2 from rfl, ← Nat.pow_mul]
                rw [Nat.pow_succ, hpow] at h
                rw [hpow] at hnlt
                have hP : 0 < 256 ^ b.length := Nat.pow_pos (by decide)
                generalize 256 ^ b.length = P at *
                have h' : (v1.toNat * 16 + v2.toNat) * P + n = x.toNat * P + beToNat b := by rw [← h]; ring
                have hq : v1.toNat * 16 + v2.toNat = x.toNat := by
                  have a1 : ((v1.toNat * 16 + v2.toNat) * P + n) / P = v1.toNat * 16 + v2.toNat := by
                    rw [Nat.add_comm, Nat.add_mul_div_right _ _ hP, Nat.div_eq_of_lt hnlt, Nat.zero_add]
                  have a2 : (x.toNat * P + beToNat b) / P = x.toNat := by
                    rw [Nat.add_comm, Nat.add_mul_div_right _ _ hP, Nat.div_eq_of_lt hblt, Nat.zero_add]
                  rw [← a1, h', a2]
                have hn' : n = beToNat b := by rw [hq] at h'; omega
                obtain ⟨hl, -⟩ := ih'.mpr ⟨e1, by rw [hn, hn']⟩
                rw [hl]
                refine ⟨?_, by omega⟩
                simp only [Option.some.injEq, List.cons.injEq, and_true]
                exact uint8_ext (by rw [hnib, hq])

theorem stripHexPrefix_cases (s : Bytes) :
    (∃ d x, s = 0x30 :: x :: d ∧ (x = 0x78 ∨ x = 0x58) ∧ stripHexPrefix s = d) ∨
    (stripHexPrefix s = s ∧ ∀ d x, s = 0x30 :: x :: d → x ≠ 0x78 ∧ x ≠ 0x58) := by
  unfold stripHexPrefix
  split
  · rename_i x rest
    by_cases h : x = 0x78 ∨ x = 0x58
    · exact Or.inl ⟨rest, x, rfl, h, if_pos h⟩
    · refine Or.inr ⟨if_neg h, ?_⟩
      intro d y hd
      simp only [List.cons.injEq, true_and] at hd
      obtain ⟨rfl, rfl⟩ := hd
      exact ⟨fun e => h (Or.inl e), fun e => h (Or.inr e)⟩
  · rename_i h
    exact Or.inr ⟨rfl, fun d x hd => absurd hd (h x d)⟩

theorem hexNumber_none_of_second {a x : UInt8} {d : Bytes} (h : Spec.hexDigit x = none) : Spec.hexNumber (a :: x :: d) = none := by
  simp only [Spec.hexNumber, h]
  cases Spec.hexDigit a <;> rfl

theorem fromHex_iff (s b : Bytes) : fromHex s = some b ↔
    ∃ digits, Spec.HexText s digits ∧ digits.length = 2 * b.length ∧ Spec.hexNumber digits = some (beToNat b) := by
  have key : ∀ ds : Bytes, (if ds.length % 2 ≠ 0 then none else fromHexLoop true 0 ds) = some b ↔
      ds.length = 2 * b.length ∧ Spec.hexNumber ds = some (beToNat b) := by
    intro ds
    rw [← fromHexLoop_iff b ds 0]
    by_cases hm : ds.length % 2 = 0
    · simp [hm]
    · simp [hm]
  unfold fromHex
  simp only
  rw [key]
  rcases stripHexPrefix_cases s with ⟨d, x, rfl, hx, e⟩ | ⟨e, hno⟩
  · rw [e]
    constructor
    · intro h
      refine ⟨d, ?_, h⟩
      rcases hx with rfl | rfl
      · exact Or.inr (Or.inl rfl)
      · exact Or.inr (Or.inr rfl)
    · rintro ⟨digits, hd | hd | hd, h1, h2⟩
      · subst hd
        rw [hexNumber_none_of_second (by rcases hx with rfl | rfl; exacts [hexDigit_x, hexDigit_X])] at h2
        cases h2
      · simp only [List.cons.injEq, true_and] at hd
        rw [hd.2]; exact ⟨h1, h2⟩
      · simp only [List.cons.injEq, true_and] at hd
        rw [hd.2]; exact ⟨h1, h2⟩
  · rw [e]
    constructor
    · intro h; exact ⟨s, Or.inl rfl, h⟩
    · rintro ⟨digits, hd | hd | hd, h1, h2⟩
      · subst hd; exact ⟨h1, h2⟩
      · exact absurd rfl (hno _ _ hd).1
      · exact absurd rfl (hno _ _ hd).2

theorem hexDigits_spec (x : UInt8) :
    Spec.hexDigit (hexDigits.getD (x >>> 4).toNat 0) = some (x.toNat / 16) ∧
    Spec.hexDigit (hexDigits.getD (x &&& 0x0f).toNat 0) = some (x.toNat % 16) :=
  forall_uint8 (P := fun x => Spec.hexDigit (hexDigits.getD (x >>> 4).toNat 0) = some (x.toNat / 16) ∧
    Spec.hexDigit (hexDigits.getD (x &&& 0x0f).toNat 0) = some (x.toNat % 16)) (by decide +kernel) x

theorem toHex_length (b : Bytes) : (toHex b).length = 2 * b.length := by
  induction b with
  | nil => rfl
  | cons x b ih => simp only [toHex, List.length_cons, ih]; omega

theorem toHex_number (b : Bytes) : Spec.hexNumber (toHex b) = some (beToNat b) := by
  induction b with
  | nil => rfl
  | cons x b ih =>
    simp only [toHex, Spec.hexNumber, (hexDigits_spec x).1, (hexDigits_spec x).2, ih, Option.some.injEq, List.length_cons,
      toHex_length, beToNat_cons]
    rw [show (256 : Nat) = 16 ^ 2 from rfl, ← Nat.pow_mul, Nat.pow_succ]
    have := Nat.div_add_mod x.toNat 16
    generalize 16 ^ (2 * b.length) = P
    calc x.toNat / 16 * (P * 16) + (x.toNat % 16 * P + beToNat b) = (16 * (x.toNat / 16) + x.toNat % 16) * P + beToNat b := by ring
      _ = _ := by rw [this]

theorem toHex_lower (b : Bytes) : ∀ ch ∈ toHex b, ch ∈ hexDigits := by
  induction b with
  | nil => simp [toHex]
  | cons x b ih =>
    have h : ∀ x : UInt8, hexDigits.getD (x >>> 4).toNat 0 ∈ hexDigits ∧ hexDigits.getD (x &&& 0x0f).toNat 0 ∈ hexDigits :=
      forall_uint8 (by decide +kernel)
    intro ch hc
    simp only [toHex, List.mem_cons] at hc
    rcases hc with rfl | rfl | hc
    · exact (h x).1
    · exact (h x).2
    · exact ih ch hc

/-! ## Padding -/

/-- A view into a buffer lies inside it. -/
def PadView.InBounds (view : PadView) (buffer : Buffer) : Prop :=
  match view with
  | .external _ => True
  | .inside o n => o + n ≤ buffer.bytes.length

/-- A buffer holds no more than its capacity. -/
def Buffer.WF (b : Buffer) : Prop := b.bytes.length ≤ b.capacity

theorem PadView.read_length {view : PadView} {buffer : Buffer} (h : view.InBounds buffer) :
    (view.read buffer).length = view.size := by
  cases view with
  | external b => rfl
  | inside o n =>
    simp only [PadView.InBounds] at h
    simp only [PadView.read, PadView.size, List.length_take, List.length_drop]
    omega

theorem Buffer.resize_length (b : Buffer) (n : Nat) : (b.resize n).1.bytes.length = n := by
  simp only [Buffer.resize, List.length_append, List.length_take, List.length_replicate]; omega

theorem PadView.read_resize {view : PadView} {buffer : Buffer} (h : view.InBounds buffer) {n : Nat} (hn : buffer.bytes.length ≤ n) :
    view.read (buffer.resize n).1 = view.read buffer := by
  cases view with
  | external b => rfl
  | inside o k =>
    simp only [PadView.InBounds] at h
    simp only [PadView.read, Buffer.resize]
    rw [List.take_of_length_le hn, List.drop_append_of_le_length (by omega), List.take_append_of_le_length (by simp; omega)]

theorem leftPad_ok (view : PadView) (minSize : Nat) (buffer : Buffer) (hv : view.InBounds buffer)
    (hc : (∃ b, view = .external b) ∨ minSize ≤ buffer.capacity) :
    ∃ buffer', leftPad view minSize buffer =
      .ok (List.replicate (minSize - (view.read buffer).length) 0 ++ view.read buffer, buffer') := by
  have hl := PadView.read_length hv
  unfold leftPad
  by_cases hs : view.size ≥ minSize
  · rw [if_pos hs]
    exact ⟨buffer, by rw [show minSize - (view.read buffer).length = 0 by omega]; rfl⟩
  · rw [if_neg hs]
    have hread : ∀ buf : Buffer, ∀ moved, view.read buf = view.read buffer → (moved = true → buffer.capacity < minSize) →
        view.readAfter buf moved = .ok (view.read buffer) := by
      intro buf moved h1 h2
      rcases hc with ⟨b, rfl⟩ | hc
      · cases moved <;> rfl
      · have : moved = false := by
          cases moved with
          | false => rfl
          | true => exact absurd (h2 rfl) (by omega)
        subst this
        cases view <;> simp [PadView.readAfter, h1]
    have finish : ∀ buf : Buffer, minSize ≤ buf.bytes.length →
        (((buf.memmove (minSize - view.size) (view.read buffer)).resize minSize).1.bytes).drop (minSize - view.size) = view.read buffer := by
      intro buf hb
      have e : (buf.memmove (minSize - view.size) (view.read buffer)).bytes =
          buf.bytes.take (minSize - view.size) ++ view.read buffer ++ buf.bytes.drop (minSize - view.size + (view.read buffer).length) := rfl
      have lt : (buf.bytes.take (minSize - view.size)).length = minSize - view.size := by
        rw [List.length_take]; omega
      have l2 : (buf.bytes.take (minSize - view.size) ++ view.read buffer).length = minSize := by
        rw [List.length_append, lt, hl]; omega
      unfold Buffer.resize
      simp only
      rw [e, List.take_append_of_le_length (by omega), List.take_of_length_le (by omega)]
      rw [show minSize - (List.take (minSize - view.size) buf.bytes ++ view.read buffer ++
        List.drop (minSize - view.size + (view.read buffer).length) buf.bytes).length = 0 by rw [List.length_append]; omega]
      rw [List.replicate_zero, List.append_nil, List.drop_append_of_le_length (by omega), List.drop_of_length_le (by omega)]
      rfl
    by_cases hb : buffer.bytes.length < minSize
    · rw [if_pos hb]
      have h1 := PadView.read_resize hv (n := minSize) (by omega)
      simp only
      rw [hread (buffer.resize minSize).1 (buffer.resize minSize).2 h1 (by simp [Buffer.resize])]
      simp only [Outcome.ok_bind]
      exact ⟨_, by rw [finish _ (by rw [Buffer.resize_length]), hl]⟩
    · rw [if_neg hb]
      simp only
      rw [hread buffer false rfl (by simp)]
      simp only [Outcome.ok_bind]
      exact ⟨_, by rw [finish _ (by omega), hl]⟩

theorem rightPad_ok (view : PadView) (minSize : Nat) (buffer : Buffer) (hv : view.InBounds buffer) :
    ∃ buffer', rightPad view minSize buffer =
      .ok (view.read buffer ++ List.replicate (minSize - (view.read buffer).length) 0, buffer') := by
  have hl := PadView.read_length hv
  unfold rightPad
  by_cases hs : view.size ≥ minSize
  · rw [if_pos hs]
    exact ⟨buffer, by rw [show minSize - (view.read buffer).length = 0 by omega]; simp⟩
  · rw [if_neg hs]
    have finish : ∀ buf : Buffer, view.size ≤ buf.bytes.length →
        (((buf.memmove 0 (view.read buffer)).resize view.size).1.resize minSize).1.bytes =
          view.read buffer ++ List.replicate (minSize - (view.read buffer).length) 0 := by
      intro buf hb
      have e : ((buf.memmove 0 (view.read buffer)).resize view.size).1.bytes = view.read buffer := by
        unfold Buffer.memmove Buffer.resize
        simp only [List.take_zero, List.nil_append]
        rw [List.take_append_of_le_length (by omega), List.take_of_length_le (by omega)]
        rw [show view.size - (view.read buffer ++ List.drop (0 + (view.read buffer).length) buf.bytes).length = 0 by
          rw [List.length_append]; omega]
        simp
      generalize hg : ((buf.memmove 0 (view.read buffer)).resize view.size).1 = g at e
      unfold Buffer.resize
      simp only
      rw [e, List.take_of_length_le (by omega)]
    by_cases hb : buffer.bytes.length < view.size
    · rw [if_pos hb]
      cases view with
      | external b =>
        simp only [PadView.readAfter, Outcome.ok_bind]
        have := finish (buffer.resize (PadView.external b).size).1 (by rw [Buffer.resize_length])
        exact ⟨_, congrArg (fun x => Outcome.ok (x, _)) this⟩
      | inside o n => simp only [PadView.InBounds, PadView.size] at hv hb; omega
    · rw [if_neg hb]
      have : view.readAfter buffer false = .ok (view.read buffer) := by cases view <;> rfl
      simp only
      rw [this]
      simp only [Outcome.ok_bind]
      exact ⟨_, by rw [finish _ (by omega)]⟩

/-! ## Numbers without leading zeros -/

theorem zerolessView_spec (b : Bytes) : ∃ k, b = List.replicate k 0 ++ zerolessView b ∧ (zerolessView b).head? ≠ some 0 := by
  induction b with
  | nil => exact ⟨0, rfl, by simp [zerolessView]⟩
  | cons x b ih =>
    by_cases h : x = 0
    · obtain ⟨k, h1, h2⟩ := ih
      refine ⟨k + 1, ?_, ?_⟩
      · subst h; simp only [zerolessView, if_true, List.replicate_succ, List.cons_append]; rw [← h1]
      · subst h; simpa [zerolessView] using h2
    · exact ⟨0, by simp [zerolessView, h], by simp [zerolessView, h]⟩

end Silkworm
