import Verif.Common.Text
import Verif.Spec.Text
import Mathlib.Data.List.Forall2

/-!
# Lemmas about characters, sizes and splitting
-/

namespace Silkworm

open Spec

/-! ## Case -/

theorem toLower_ascii {c : UInt8} (h : c.toNat < 128) :
    ∃ x, toLower c = .ok x ∧ x.toNat = if 65 ≤ c.toNat ∧ c.toNat ≤ 90 then c.toNat + 32 else c.toNat := by
  unfold toLower
  rw [if_neg (by rw [ge_iff_le, UInt8.le_iff_toNat_le]; simpa using h)]
  by_cases h2 : (0x41 : UInt8) ≤ c ∧ c ≤ 0x5a
  · rw [if_pos h2]
    refine ⟨_, rfl, ?_⟩
    rw [UInt8.le_iff_toNat_le, UInt8.le_iff_toNat_le] at h2
    have : (0x41 : UInt8).toNat = 65 := rfl
    have : (0x5a : UInt8).toNat = 90 := rfl
    have : (0x20 : UInt8).toNat = 32 := rfl
    rw [if_pos (by omega), UInt8.toNat_add]
    omega
  · rw [if_neg h2]
    refine ⟨_, rfl, ?_⟩
    rw [UInt8.le_iff_toNat_le, UInt8.le_iff_toNat_le] at h2
    have : (0x41 : UInt8).toNat = 65 := rfl
    have : (0x5a : UInt8).toNat = 90 := rfl
    rw [if_neg (by omega)]

theorem sameLetter_iff {a b x y : UInt8} (ha : a.toNat < 128) (hb : b.toNat < 128) (hx : toLower a = .ok x)
    (hy : toLower b = .ok y) : x = y ↔ SameLetter a b := by
  obtain ⟨x', h1, h2⟩ := toLower_ascii ha
  obtain ⟨y', h3, h4⟩ := toLower_ascii hb
  have e1 : x' = x := Outcome.ok.inj (h1.symm.trans hx)
  have e2 : y' = y := Outcome.ok.inj (h3.symm.trans hy)
  subst e1 e2
  rw [← UInt8.toNat_inj, h2, h4]
  unfold SameLetter
  rw [← UInt8.toNat_inj]
  constructor
  · intro h
    by_cases hab : a.toNat = b.toNat
    · exact .inl hab
    · right
      by_cases h5 : 65 ≤ a.toNat ∧ a.toNat ≤ 90
      · rw [if_pos h5] at h
        by_cases h6 : 65 ≤ b.toNat ∧ b.toNat ≤ 90
        · rw [if_pos h6] at h; omega
        · rw [if_neg h6] at h
          exact ⟨a.toNat - 65, by omega, .inl ⟨by omega, by omega⟩⟩
      · rw [if_neg h5] at h
        by_cases h6 : 65 ≤ b.toNat ∧ b.toNat ≤ 90
        · rw [if_pos h6] at h
          exact ⟨b.toNat - 65, by omega, .inr ⟨by omega, by omega⟩⟩
        · rw [if_neg h6] at h; omega
  · rintro (h | ⟨i, hi, ⟨h5, h6⟩ | ⟨h5, h6⟩⟩)
    · rw [h]
    · rw [if_pos (by omega), if_neg (by omega)]; omega
    · rw [if_neg (by omega), if_pos (by omega)]; omega

theorem equalNoCase_ascii : ∀ (a b : Bytes), Ascii a → Ascii b → a.length = b.length →
    ∃ r, equalNoCase a b = .ok r ∧ (r = true ↔ List.Forall₂ SameLetter a b)
  | [], [], _, _, _ => ⟨true, rfl, ⟨fun _ => .nil, fun _ => rfl⟩⟩
  | a :: as, b :: bs, ha, hb, hl => by
    obtain ⟨x, hx, _⟩ := toLower_ascii (ha a List.mem_cons_self)
    obtain ⟨y, hy, _⟩ := toLower_ascii (hb b List.mem_cons_self)
    have hs := sameLetter_iff (ha a List.mem_cons_self) (hb b List.mem_cons_self) hx hy
    obtain ⟨r, h1, h2⟩ := equalNoCase_ascii as bs (fun c hc => ha c (List.mem_cons_of_mem _ hc))
      (fun c hc => hb c (List.mem_cons_of_mem _ hc)) (by simpa using hl)
    unfold equalNoCase
    rw [hx, hy]
    simp only [Outcome.bind]
    by_cases hxy : x = y
    · rw [if_pos hxy]
      refine ⟨r, h1, ?_⟩
      rw [h2, List.forall₂_cons]
      exact ⟨fun h => ⟨hs.mp hxy, h⟩, fun h => h.2⟩
    · rw [if_neg hxy]
      refine ⟨false, rfl, ⟨fun h => (by cases h), fun h => ?_⟩⟩
      exact absurd (hs.mpr (List.forall₂_cons.mp h).1) hxy
  | [], _ :: _, _, _, h => by cases h
  | _ :: _, [], _, _, h => by cases h

/-! ## Digits -/

theorem isDigit_iff (c : UInt8) : isDigit c = true ↔ Digit c := by
  unfold isDigit Digit
  rw [decide_eq_true_eq, UInt8.le_iff_toNat_le, UInt8.le_iff_toNat_le]
  have : (0x30 : UInt8).toNat = 48 := rfl
  have : (0x39 : UInt8).toNat = 57 := rfl
  constructor
  · intro h; exact ⟨c.toNat - 48, by omega, by omega⟩
  · rintro ⟨d, h1, h2⟩; omega

theorem decimal_cons (c : UInt8) (s : Bytes) : decimal (c :: s) = (c.toNat - 48) * 10 ^ s.length + decimal s := rfl

theorem decimal_append (a b : Bytes) : decimal (a ++ b) = decimal a * 10 ^ b.length + decimal b := by
  induction a with
  | nil => simp [decimal]
  | cons c a ih =>
    rw [List.cons_append]
    rw [decimal_cons, decimal_cons, ih, List.length_append, Nat.pow_add, Nat.add_mul, Nat.mul_assoc, Nat.add_assoc]

theorem foldl_decimal (s : Bytes) (n : Nat) :
    s.foldl (fun n c => 10 * n + (c.toNat - 0x30)) n = n * 10 ^ s.length + decimal s := by
  induction s generalizing n with
  | nil => simp [decimal]
  | cons c s ih =>
    rw [List.foldl_cons, ih, decimal_cons, List.length_cons, Nat.pow_succ, Nat.add_mul]
    have : n * (10 ^ s.length * 10) = 10 * n * 10 ^ s.length := by
      rw [Nat.mul_comm (10 ^ s.length) 10, ← Nat.mul_assoc, Nat.mul_comm n 10]
    omega

theorem strtoull_eq (s : Bytes) : strtoull s = min (decimal s) (2 ^ 64 - 1) := by
  unfold strtoull
  rw [foldl_decimal, Nat.zero_mul, Nat.zero_add]

theorem decimal_lt {s : Bytes} (h : ∀ c ∈ s, Digit c) : decimal s < 10 ^ s.length := by
  induction s with
  | nil => exact Nat.one_pos
  | cons c s ih =>
    have := ih fun x hx => h x (List.mem_cons_of_mem _ hx)
    obtain ⟨d, hd, hc⟩ := h c List.mem_cons_self
    rw [decimal_cons, List.length_cons, Nat.pow_succ, hc, Nat.add_sub_cancel_left]
    have : d * 10 ^ s.length ≤ 9 * 10 ^ s.length := Nat.mul_le_mul_right _ (by omega)
    omega

/-! ## Sizes -/

theorem takeWhile_all {p : UInt8 → Bool} {a b : Bytes} (ha : ∀ c ∈ a, p c = true) (hb : ∀ c, b.head? = some c → p c = false) :
    (a ++ b).takeWhile p = a ∧ (a ++ b).dropWhile p = b := by
  induction a with
  | nil =>
    cases b with
    | nil => exact ⟨rfl, rfl⟩
    | cons c b =>
      have := hb c rfl
      simp [this]
  | cons c a ih =>
    have h1 := ha c List.mem_cons_self
    obtain ⟨i1, i2⟩ := ih fun x hx => ha x (List.mem_cons_of_mem _ hx)
    rw [List.cons_append, List.takeWhile_cons, List.dropWhile_cons, h1, if_pos rfl, if_pos rfl, i1, i2]
    exact ⟨rfl, rfl⟩

/-- The units as the code reads them. -/
theorem suffix_units : ∀ u ∈ units, suffixMultiplier (text u.1) = some u.2 := by decide +kernel

/-- No unit begins with a digit, a point or a space. -/
theorem units_head : ∀ u ∈ units, ∀ c, (text u.1).head? = some c → isDigit c = false ∧ c ≠ 46 ∧ c ≠ 32 := by
  intro u hu c hc
  have : ∀ u ∈ units, ((text u.1).head?.all fun c => !isDigit c && c != 46 && c != 32) = true := by decide +kernel
  have h := this u hu
  rw [hc] at h
  simpa [and_assoc] using h

/-- The letters that the code reads as `B`, `K`, … -/
theorem upper_eq {c d : UInt8} (h : (if 0x61 ≤ c ∧ c ≤ 0x7a then c - 0x20 else c) = d) (hd : 65 ≤ d.toNat ∧ d.toNat ≤ 90) :
    c = d ∨ c = d + 32 := by
  by_cases hc : (0x61 : UInt8) ≤ c ∧ c ≤ 0x7a
  · rw [if_pos hc] at h
    right
    rw [← h]
    have : (0x20 : UInt8) = 32 := rfl
    rw [this, UInt8.sub_add_cancel]
  · rw [if_neg hc] at h
    exact .inl h

theorem suffix_single {s : Bytes} {d : UInt8} (h : s.map (fun c => if 0x61 ≤ c ∧ c ≤ 0x7a then c - 0x20 else c) = [d])
    (hd : 65 ≤ d.toNat ∧ d.toNat ≤ 90) : s = [d] ∨ s = [d + 32] := by
  match s, h with
  | [c], h =>
    simp only [List.map_cons, List.map_nil, List.cons.injEq, and_true] at h
    rcases upper_eq h hd with rfl | rfl
    · exact .inl rfl
    · exact .inr rfl

theorem suffix_double {s : Bytes} {d e : UInt8} (h : s.map (fun c => if 0x61 ≤ c ∧ c ≤ 0x7a then c - 0x20 else c) = [d, e])
    (hd : 65 ≤ d.toNat ∧ d.toNat ≤ 90) (he : 65 ≤ e.toNat ∧ e.toNat ≤ 90) :
    s = [d, e] ∨ s = [d, e + 32] ∨ s = [d + 32, e] ∨ s = [d + 32, e + 32] := by
  match s, h with
  | [a, b], h =>
    simp only [List.map_cons, List.map_nil, List.cons.injEq, and_true] at h
    rcases upper_eq h.1 hd with rfl | rfl <;> rcases upper_eq h.2 he with rfl | rfl
    · exact .inl rfl
    · exact .inr (.inl rfl)
    · exact .inr (.inr (.inl rfl))
    · exact .inr (.inr (.inr rfl))

theorem suffix_sound {s : Bytes} {m : Nat} (h : suffixMultiplier s = some m) : ∃ name, (name, m) ∈ units ∧ s = text name := by
  unfold suffixMultiplier at h
  by_cases h0 : s = []
  · rw [if_pos h0] at h
    have := Option.some.inj h
    subst this
    exact ⟨"", by decide +kernel, by rw [h0]; decide +kernel⟩
  rw [if_neg h0] at h
  dsimp only at h
  by_cases h1 : s.map (fun c => if 0x61 ≤ c ∧ c ≤ 0x7a then c - 0x20 else c) = chars "B"
  · rw [if_pos h1] at h
    have := Option.some.inj h
    subst this
    rcases suffix_single (d := 66) h1 (by decide) with rfl | rfl
    · exact ⟨"B", by decide +kernel, by decide +kernel⟩
    · exact ⟨"b", by decide +kernel, by decide +kernel⟩
  rw [if_neg h1] at h
  by_cases h2 : s.map (fun c => if 0x61 ≤ c ∧ c ≤ 0x7a then c - 0x20 else c) = chars "KB"
  · rw [if_pos h2] at h
    have := Option.some.inj h
    subst this
    rcases suffix_double (d := 75) (e := 66) h2 (by decide) (by decide) with rfl | rfl | rfl | rfl
    · exact ⟨"KB", by decide +kernel, by decide +kernel⟩
    · exact ⟨"Kb", by decide +kernel, by decide +kernel⟩
    · exact ⟨"kB", by decide +kernel, by decide +kernel⟩
    · exact ⟨"kb", by decide +kernel, by decide +kernel⟩
  rw [if_neg h2] at h
  by_cases h3 : s.map (fun c => if 0x61 ≤ c ∧ c ≤ 0x7a then c - 0x20 else c) = chars "MB"
  · rw [if_pos h3] at h
    have := Option.some.inj h
    subst this
    rcases suffix_double (d := 77) (e := 66) h3 (by decide) (by decide) with rfl | rfl | rfl | rfl
    · exact ⟨"MB", by decide +kernel, by decide +kernel⟩
    · exact ⟨"Mb", by decide +kernel, by decide +kernel⟩
    · exact ⟨"mB", by decide +kernel, by decide +kernel⟩
    · exact ⟨"mb", by decide +kernel, by decide +kernel⟩
  rw [if_neg h3] at h
  by_cases h4 : s.map (fun c => if 0x61 ≤ c ∧ c ≤ 0x7a then c - 0x20 else c) = chars "GB"
  · rw [if_pos h4] at h
    have := Option.some.inj h
    subst this
    rcases suffix_double (d := 71) (e := 66) h4 (by decide) (by decide) with rfl | rfl | rfl | rfl
    · exact ⟨"GB", by decide +kernel, by decide +kernel⟩
    · exact ⟨"Gb", by decide +kernel, by decide +kernel⟩
    · exact ⟨"gB", by decide +kernel, by decide +kernel⟩
    · exact ⟨"gb", by decide +kernel, by decide +kernel⟩
  rw [if_neg h4] at h
  by_cases h5 : s.map (fun c => if 0x61 ≤ c ∧ c ≤ 0x7a then c - 0x20 else c) = chars "TB"
  · rw [if_pos h5] at h
    have := Option.some.inj h
    subst this
    rcases suffix_double (d := 84) (e := 66) h5 (by decide) (by decide) with rfl | rfl | rfl | rfl
    · exact ⟨"TB", by decide +kernel, by decide +kernel⟩
    · exact ⟨"Tb", by decide +kernel, by decide +kernel⟩
    · exact ⟨"tB", by decide +kernel, by decide +kernel⟩
    · exact ⟨"tb", by decide +kernel, by decide +kernel⟩
  · rw [if_neg h5] at h
    cases h

theorem takeDecimals_point (t : Bytes) : takeDecimals (46 :: t) =
    if (t.takeWhile isDigit).length = 0 ∨ 3 < (t.takeWhile isDigit).length then none
    else some (t.takeWhile isDigit, t.dropWhile isDigit) := rfl

/-- Reading what is written as a size should be. -/
theorem parseSize_text {s whole fraction : Bytes} {unit : Nat} (h : SizeText s whole fraction unit) :
    parseSize s = some ((min (decimal whole) (2 ^ 64 - 1) * unit + unit * decimal fraction / 10 ^ fraction.length) % 2 ^ 64) := by
  obtain ⟨k, name, hu, hw, hf, h3, hs⟩ := h
  have hhead := units_head _ hu
  have hrest : ∀ c, (List.replicate k (32 : UInt8) ++ text name).head? = some c → isDigit c = false ∧ c ≠ 46 := by
    intro c hc
    cases k with
    | zero => exact ⟨(hhead c hc).1, (hhead c hc).2.1⟩
    | succ k =>
      have := Option.some.inj hc
      rw [← this]
      decide
  have hspace : (List.replicate k (32 : UInt8) ++ text name).dropWhile (fun c => c = 0x20) = text name :=
    (takeWhile_all (p := fun c => decide (c = 0x20)) (fun c hc => by rw [(List.mem_replicate.mp hc).2]; rfl)
      (fun c hc => by simpa using (hhead c hc).2.2)).2
  have hm := suffix_units _ hu
  have hunit : unit ≤ 1024 ^ 4 := by
    have : ∀ u ∈ units, u.2 ≤ 1024 ^ 4 := by decide +kernel
    exact this _ hu
  unfold parseSize
  by_cases h0 : s = []
  · rw [if_pos h0]
    rw [h0] at hs
    have hl := congrArg List.length hs
    simp only [List.length_append, List.length_nil] at hl
    have e1 : whole = [] := List.length_eq_zero_iff.mp (by omega)
    have e2 : fraction = [] := by
      by_cases hfr : fraction = []
      · exact hfr
      · rw [if_neg hfr, List.length_cons] at hl; omega
    rw [e1, e2]
    simp [decimal]
  · rw [if_neg h0]
    have hw' : ∀ c ∈ whole, isDigit c = true := fun c hc => (isDigit_iff c).mpr (hw c hc)
    have hf' : ∀ c ∈ fraction, isDigit c = true := fun c hc => (isDigit_iff c).mpr (hf c hc)
    rw [List.append_assoc, List.append_assoc] at hs
    have hfrac : ∀ c, ((if fraction = [] then [] else 46 :: fraction) ++ (List.replicate k (32 : UInt8) ++ text name)).head? =
        some c → isDigit c = false := by
      intro c hc
      by_cases hfr : fraction = []
      · rw [if_pos hfr] at hc; exact (hrest c hc).1
      · rw [if_neg hfr] at hc
        have := Option.some.inj hc
        rw [← this]; decide
    obtain ⟨t1, t2⟩ := takeWhile_all hw' hfrac
    rw [hs, t1, t2]
    dsimp only
    have hdec : takeDecimals ((if fraction = [] then [] else 46 :: fraction) ++ (List.replicate k (32 : UInt8) ++ text name)) =
        some (fraction, List.replicate k (32 : UInt8) ++ text name) := by
      by_cases hfr : fraction = []
      · rw [if_pos hfr, List.nil_append, hfr]
        unfold takeDecimals
        split
        · rename_i t ht
          exact absurd rfl (hrest 46 (by rw [ht]; rfl)).2
        · rfl
      · rw [if_neg hfr, List.cons_append]
        obtain ⟨u1, u2⟩ := takeWhile_all hf' (fun c hc => (hrest c hc).1)
        rw [takeDecimals_point, u1, u2, if_neg]
        have : fraction.length ≠ 0 := fun h => hfr (List.length_eq_zero_iff.mp h)
        omega
    rw [hdec]
    dsimp only
    rw [hspace, hm]
    dsimp only
    rw [strtoull_eq, strtoull_eq]
    have hd := decimal_lt hf
    have hd3 : decimal fraction < 1000 := Nat.lt_of_lt_of_le hd (by
      calc 10 ^ fraction.length ≤ 10 ^ 3 := Nat.pow_le_pow_right (by decide) h3
        _ = 1000 := by decide)
    rw [Nat.min_eq_left (a := decimal fraction) (by omega)]
    by_cases hfr : fraction = []
    · rw [if_pos hfr, hfr]
      simp [decimal]
    · rw [if_neg hfr]
      have hmul : unit * decimal fraction < 2 ^ 64 := by
        calc unit * decimal fraction ≤ 1024 ^ 4 * 1000 := Nat.mul_le_mul hunit (by omega)
          _ < 2 ^ 64 := by decide
      rw [Nat.mod_eq_of_lt hmul]
      congr 1
      omega

/-- What is read is written as a size should be. -/
theorem parseSize_sound {s : Bytes} {n : Nat} (h : parseSize s = some n) : ∃ whole fraction unit, SizeText s whole fraction unit := by
  unfold parseSize at h
  by_cases h0 : s = []
  · exact ⟨[], [], 1, 0, "", by decide +kernel, by simp, by simp, by decide, by rw [h0]; decide +kernel⟩
  rw [if_neg h0] at h
  dsimp only at h
  cases hd : takeDecimals (s.dropWhile isDigit) with
  | none => rw [hd] at h; cases h
  | some r =>
    obtain ⟨dec, rest⟩ := r
    rw [hd] at h
    dsimp only at h
    cases hm : suffixMultiplier (rest.dropWhile fun c => c = 0x20) with
    | none => rw [hm] at h; cases h
    | some m =>
      obtain ⟨name, hu, hn⟩ := suffix_sound hm
      have hdigits : ∀ t : Bytes, ∀ c ∈ t.takeWhile isDigit, Digit c := by
        intro t c hc
        have := List.all_takeWhile (p := isDigit) (l := t)
        rw [List.all_eq_true] at this
        exact (isDigit_iff c).mp (this c hc)
      have hrest : rest = List.replicate (rest.takeWhile fun c => c = 0x20).length 32 ++ text name := by
        conv => lhs; rw [← List.takeWhile_append_dropWhile (p := fun c => decide (c = 0x20)) (l := rest)]
        rw [hn]
        congr 1
        refine List.eq_replicate_iff.mpr ⟨rfl, fun c hc => ?_⟩
        have := List.all_takeWhile (p := fun c => decide (c = (0x20 : UInt8))) (l := rest)
        rw [List.all_eq_true] at this
        simpa using this c hc
      have hs : s.dropWhile isDigit = (if dec = [] then [] else 46 :: dec) ++ rest ∧ dec.length ≤ 3 ∧ ∀ c ∈ dec, Digit c := by
        unfold takeDecimals at hd
        split at hd
        · rename_i t ht
          dsimp only at hd
          split at hd
          · cases hd
          · rename_i hlen
            obtain ⟨rfl, rfl⟩ := Prod.mk.inj (Option.some.inj hd)
            have hne : t.takeWhile isDigit ≠ [] := fun h => hlen (.inl (by rw [h]; rfl))
            rw [if_neg hne, ht, List.cons_append, List.takeWhile_append_dropWhile]
            exact ⟨rfl, by omega, hdigits t⟩
        · obtain ⟨rfl, rfl⟩ := Prod.mk.inj (Option.some.inj hd)
          exact ⟨rfl, by decide, by simp⟩
      refine ⟨s.takeWhile isDigit, dec, m, (rest.takeWhile fun c => c = 0x20).length, name, hu, hdigits s, hs.2.2, hs.2.1, ?_⟩
      rw [List.append_assoc, List.append_assoc, ← hrest, ← hs.1, List.takeWhile_append_dropWhile]

end Silkworm
