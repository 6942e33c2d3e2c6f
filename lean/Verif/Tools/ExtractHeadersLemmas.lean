import Verif.Tools.ExtractHeaders
import Verif.Spec.ExtractHeaders
import Mathlib.Tactic.Ring
import Mathlib.Data.List.GetD
import Mathlib.Data.List.Induction

/-!
# Lemmas about extracted headers
-/

namespace Silkworm.Tools

open Silkworm.Db Silkworm.Spec

theorem signValue_sign {n : Nat} (h : n < 64) : signValue (sign n) = some n := by
  have : ∀ k : Fin 64, signValue (sign k.val) = some k.val := by decide +kernel
  exact this ⟨n, h⟩

theorem signValue_pad : signValue kPad = none := by decide

theorem textNumber_sign {n : Nat} (h : n < 64) {t : Bytes} {v : Nat} (ht : textNumber t = some v) :
    textNumber (sign n :: t) = some (n * 64 ^ t.length + v) := by
  show (signValue (sign n)).bind _ = _
  rw [signValue_sign h, ht]
  rfl

theorem no_pad : ∀ {t : Bytes} {v : Nat}, textNumber t = some v → kPad ∉ t
  | [], _, _ => by simp
  | c :: t, v, h => by
    have h : (signValue c).bind (fun x => (textNumber t).bind fun y => some (x * 64 ^ t.length + y)) = some v := h
    cases hc : signValue c with
    | none => rw [hc] at h; cases h
    | some x =>
      cases ht : textNumber t with
      | none => rw [hc, ht] at h; cases h
      | some y =>
        intro hm
        rcases List.mem_cons.mp hm with rfl | hm
        · rw [signValue_pad] at hc; cases hc
        · exact no_pad ht hm

/-- Signs of the bits, then padding. -/
theorem encodePadded_spec : ∀ b : Bytes, ∃ t, encodePadded b = t ++ List.replicate ((3 - b.length % 3) % 3) kPad ∧ IsBase64 t b
  | [] => ⟨[], rfl, rfl, rfl⟩
  | [a] => by
    have ha := a.toNat_lt
    refine ⟨[sign (a.toNat / 4), sign (a.toNat % 4 * 16)], rfl, by simp, ?_⟩
    rw [textNumber_sign (by omega) (textNumber_sign (by omega) rfl)]
    simp [bytesNumber]
    omega
  | [a, b] => by
    have ha := a.toNat_lt
    have hb := b.toNat_lt
    refine ⟨[sign (a.toNat / 4), sign (a.toNat % 4 * 16 + b.toNat / 16), sign (b.toNat % 16 * 4)], rfl, by simp, ?_⟩
    rw [textNumber_sign (by omega) (textNumber_sign (by omega) (textNumber_sign (by omega) rfl))]
    simp [bytesNumber]
    omega
  | a :: b :: c :: t => by
    have ha := a.toNat_lt
    have hb := b.toNat_lt
    have hc := c.toNat_lt
    obtain ⟨s, h1, h2, h3⟩ := encodePadded_spec t
    refine ⟨sign (a.toNat / 4) :: sign (a.toNat % 4 * 16 + b.toNat / 16) :: sign (b.toNat % 16 * 4 + c.toNat / 64) ::
      sign (c.toNat % 64) :: s, ?_, ?_, ?_⟩
    · rw [encodePadded, h1]
      simp only [List.length_cons, List.cons_append]
      rw [show (t.length + 1 + 1 + 1) % 3 = t.length % 3 by omega]
    · simp only [List.length_cons]
      omega
    · rw [textNumber_sign (by omega) (textNumber_sign (by omega) (textNumber_sign (by omega) (textNumber_sign (by omega) h3)))]
      simp only [List.length_cons]
      rw [show 6 * (s.length + 1 + 1 + 1 + 1) - 8 * (t.length + 1 + 1 + 1) = 6 * s.length - 8 * t.length by omega]
      obtain ⟨e, he⟩ : ∃ e, 6 * s.length = 8 * t.length + e := ⟨6 * s.length - 8 * t.length, by omega⟩
      rw [show 6 * s.length - 8 * t.length = e by omega]
      have hpow : 64 ^ s.length = 256 ^ t.length * 2 ^ e := by
        rw [show (64 : Nat) = 2 ^ 6 by decide, show (256 : Nat) = 2 ^ 8 by decide, ← Nat.pow_mul, ← Nat.pow_mul, ← Nat.pow_add, he]
      have hv : a.toNat / 4 * 64 ^ 3 + (a.toNat % 4 * 16 + b.toNat / 16) * 64 ^ 2 + (b.toNat % 16 * 4 + c.toNat / 64) * 64 +
          c.toNat % 64 = a.toNat * 256 ^ 2 + b.toNat * 256 + c.toNat := by omega
      have e1 : a.toNat / 4 * 64 ^ (s.length + 1 + 1 + 1) + ((a.toNat % 4 * 16 + b.toNat / 16) * 64 ^ (s.length + 1 + 1) +
          ((b.toNat % 16 * 4 + c.toNat / 64) * 64 ^ (s.length + 1) + (c.toNat % 64 * 64 ^ s.length + bytesNumber t * 2 ^ e))) =
          (a.toNat / 4 * 64 ^ 3 + (a.toNat % 4 * 16 + b.toNat / 16) * 64 ^ 2 + (b.toNat % 16 * 4 + c.toNat / 64) * 64 +
            c.toNat % 64) * 64 ^ s.length + bytesNumber t * 2 ^ e := by ring
      rw [e1, hv, hpow]
      simp only [bytesNumber, List.length_cons]
      congr 1
      ring

/-- The text that is written for a header. -/
theorem base64encode_spec {b : Bytes} (hb : b ≠ []) : ∃ t, base64encode b = .ok t ∧ IsBase64 t b := by
  obtain ⟨t, h1, h2⟩ := encodePadded_spec b
  refine ⟨t, ?_, h2⟩
  have hn : kPad ∉ t := no_pad h2.2
  have hl : 0 < b.length := List.length_pos_iff.mpr hb
  have htl : 2 ≤ t.length := by rw [h2.1]; omega
  unfold base64encode
  rw [h1]
  have hget : ∀ i (h : i < t.length), t.getD i 0 ≠ kPad := by
    intro i h he
    rw [List.getD_eq_getElem _ _ h] at he
    exact hn (he ▸ List.getElem_mem h)
  rcases (by omega : (3 - b.length % 3) % 3 = 0 ∨ (3 - b.length % 3) % 3 = 1 ∨ (3 - b.length % 3) % 3 = 2) with h | h | h
  · rw [h]
    simp only [List.replicate_zero, List.append_nil]
    rw [if_neg (by omega), if_neg (hget _ (by omega)), if_neg (hget _ (by omega))]
    simp
  · rw [h]
    simp only [List.length_append, List.length_replicate]
    rw [if_neg (by omega)]
    have e1 : (t ++ List.replicate 1 kPad).getD (t.length + 1 - 1) 0 = kPad := by
      rw [List.getD_append_right _ _ _ _ (by omega)]
      simp
    have e2 : (t ++ List.replicate 1 kPad).getD (t.length + 1 - 2) 0 ≠ kPad := by
      rw [List.getD_append _ _ _ _ (by omega)]
      exact hget _ (by omega)
    rw [if_pos e1, if_neg e2]
    simp
  · rw [h]
    simp only [List.length_append, List.length_replicate]
    rw [if_neg (by omega)]
    have e1 : (t ++ List.replicate 2 kPad).getD (t.length + 2 - 1) 0 = kPad := by
      rw [List.getD_append_right _ _ _ _ (by omega), show t.length + 2 - 1 - t.length = 1 by omega]
      rfl
    have e2 : (t ++ List.replicate 2 kPad).getD (t.length + 2 - 2) 0 = kPad := by
      rw [List.getD_append_right _ _ _ _ (by omega), show t.length + 2 - 2 - t.length = 0 by omega]
      rfl
    rw [if_pos e1, if_pos e2]
    simp

/-- No two byte strings have the same text. -/
theorem isBase64_inj {t a b : Bytes} (ha : IsBase64 t a) (hb : IsBase64 t b) : a = b := by
  have hl : a.length = b.length := by
    have := ha.1.symm.trans hb.1
    omega
  have hv := Option.some.inj (ha.2.symm.trans hb.2)
  rw [hl] at hv
  have hn := Nat.eq_of_mul_eq_mul_right (Nat.pow_pos (by decide)) hv
  clear ha hb hv
  induction a generalizing b with
  | nil =>
    cases b with
    | nil => rfl
    | cons _ _ => cases hl
  | cons x a ih =>
    cases b with
    | nil => cases hl
    | cons y b =>
      have hl' : a.length = b.length := by simpa using hl
      have hlt : ∀ c : Bytes, bytesNumber c < 256 ^ c.length := by
        intro c
        induction c with
        | nil => decide
        | cons z c ih =>
          simp only [bytesNumber, List.length_cons, Nat.pow_succ]
          have := z.toNat_lt
          have : (z.toNat + 1) * 256 ^ c.length ≤ 256 * 256 ^ c.length := Nat.mul_le_mul_right _ (by omega)
          rw [Nat.add_mul] at this
          omega
      simp only [bytesNumber] at hn
      rw [hl'] at hn
      have h1 := hlt a
      have h2 := hlt b
      rw [hl'] at h1
      have hpos : 0 < 256 ^ b.length := Nat.pow_pos (by decide)
      have hq : x.toNat = y.toNat := by
        have : (x.toNat * 256 ^ b.length + bytesNumber a) / 256 ^ b.length = (y.toNat * 256 ^ b.length + bytesNumber b) / 256 ^ b.length := by
          rw [hn]
        rw [Nat.mul_comm, Nat.mul_comm y.toNat, Nat.mul_add_div hpos, Nat.mul_add_div hpos, Nat.div_eq_of_lt h1, Nat.div_eq_of_lt h2] at this
        omega
      rw [hq] at hn
      rw [UInt8.toNat_inj.mp hq, ih hl' (by omega)]

/-- One step of the loop. -/
theorem extractLoop_step {db : Database} {step fuel n : Nat} {f : ListFile} {hash header text : Bytes} (hn : n < 2 ^ 64 - 1)
    (h1 : readCanonical db n = .ok (some hash)) {k : Bytes} (h2 : db.headers.find (blockHashKey n hash) = some (k, header))
    (h3 : base64encode header = .ok text) :
    extractLoop db step (fuel + 1) n f = extractLoop db step fuel ((n + step) % 2 ^ 64) (f.addHeader text) := by
  rw [extractLoop, if_pos hn, h1]
  dsimp only
  rw [h2]
  dsimp only
  rw [h3]

/-- The file after some headers. -/
def fileOf : List Bytes → Bytes
  | [] => []
  | h :: t => templateBegin ++ ascii "    \"" ++ h ++ ascii "\"" ++ (t.flatMap fun x => ascii ",\n" ++ ascii "    \"" ++ x ++ ascii "\"")

theorem addHeader_fold : ∀ (l : List Bytes), l.foldl ListFile.addHeader {} = { output := fileOf l, empty := l.isEmpty } := by
  intro l
  induction l using List.reverseRecOn with
  | nil => rfl
  | append_singleton l x ih =>
    rw [List.foldl_append, ih]
    cases l with
    | nil => simp [ListFile.addHeader, fileOf]
    | cons y l => simp [ListFile.addHeader, fileOf]

end Silkworm.Tools
