import Verif.Common.SplitLemmas

/-!
# C115–C118: comparing without case, sizes, splitting, the directory of the chain data
-/

namespace Silkworm.Properties

open Silkworm.Spec

/-! ## C115 -/

/-- C115 as stated: two texts compare equal if and only if they differ in the case of letters at most. -/
def C115_statement : Prop :=
  ∀ a b : Bytes, ∃ r, iequals a b = .ok r ∧ (r = true ↔ List.Forall₂ SameLetter a b)

/-- C115 for texts of ASCII characters. Missing: other characters. -/
theorem c115_ascii_partial (a b : Bytes) (ha : Ascii a) (hb : Ascii b) :
    ∃ r, iequals a b = .ok r ∧ (r = true ↔ List.Forall₂ SameLetter a b) := by
  unfold iequals
  by_cases hl : a.length = b.length
  · rw [if_pos hl]
    exact equalNoCase_ascii a b ha hb hl
  · rw [if_neg hl]
    exact ⟨false, rfl, ⟨fun h => (by cases h), fun h => absurd h.length_eq hl⟩⟩

/-- C115 fails: `tolower` is undefined for other characters, which are negative numbers; a text compared with itself is enough. -/
theorem c115_other_violated (a b c d : Bytes) (x y : UInt8) (hx : 128 ≤ x.toNat) (ha : Ascii a)
    (hl : (a ++ x :: c).length = (b ++ y :: d).length) (hab : List.Forall₂ SameLetter a b) (hb : Ascii b) :
    iequals (a ++ x :: c) (b ++ y :: d) = .ub := by
  unfold iequals
  rw [if_pos hl]
  clear hl
  induction hab with
  | nil =>
    rw [List.nil_append, List.nil_append]
    unfold equalNoCase toLower
    rw [if_pos (by rw [ge_iff_le, UInt8.le_iff_toNat_le]; exact hx)]
    rfl
  | @cons e f a b h1 h2 ih =>
    have he := ha e List.mem_cons_self
    have hf := hb f List.mem_cons_self
    obtain ⟨u, hu, _⟩ := toLower_ascii he
    obtain ⟨v, hv, _⟩ := toLower_ascii hf
    rw [List.cons_append, List.cons_append]
    unfold equalNoCase
    rw [hu, hv]
    simp only [Outcome.bind]
    rw [if_pos ((sameLetter_iff he hf hu hv).mpr h1)]
    exact ih (fun c hc => ha c (List.mem_cons_of_mem _ hc)) (fun c hc => hb c (List.mem_cons_of_mem _ hc))

theorem c115_violated : ¬ C115_statement := by
  intro h
  obtain ⟨r, hr, _⟩ := h [0xc3, 0xa9] [0xc3, 0xa9]
  have : iequals [0xc3, 0xa9] [0xc3, 0xa9] = .ub :=
    c115_other_violated [] [] _ _ 0xc3 0xc3 (by decide) (fun c hc => absurd hc (by simp)) rfl .nil (fun c hc => absurd hc (by simp))
  rw [this] at hr
  cases hr

example : iequals (chars "Hello World") (chars "hELLO wORLD") = .ok true := by decide +kernel
example : iequals (chars "Hello World") (chars "Hello_World") = .ok false := by decide +kernel
/-- Characters 32 apart that are no letters are different. -/
example : iequals (chars "[") (chars "{") = .ok false := by decide +kernel
example : ∃ r, iequals (chars "KB") (chars "kb") = .ok r ∧ (r = true ↔ List.Forall₂ SameLetter (chars "KB") (chars "kb")) :=
  c115_ascii_partial _ _ (by unfold Ascii; decide +kernel) (by unfold Ascii; decide +kernel)

/-! ## C116 -/

/-- C116 as stated: exactly the texts that give a size of less than 2^64 bytes are read, and the result is that size, rounded
down. -/
def C116_statement : Prop :=
  ∀ (s : Bytes) (n : Nat), parseSize s = some n ↔
    ∃ whole fraction unit, SizeText s whole fraction unit ∧ n = sizeValue whole fraction unit ∧ n < 2 ^ 64

theorem sizeValue_eq (whole fraction : Bytes) (unit : Nat) :
    sizeValue whole fraction unit = decimal whole * unit + unit * decimal fraction / 10 ^ fraction.length := by
  unfold sizeValue
  rw [decimal_append, Nat.add_mul, Nat.mul_right_comm, Nat.add_comm, Nat.add_mul_div_right _ _ (Nat.pow_pos (by decide)), Nat.add_comm,
    Nat.mul_comm (decimal fraction)]

/-- C116: a text is read if and only if it gives a size. -/
theorem c116_format (s : Bytes) :
    (∃ n, parseSize s = some n) ↔ ∃ whole fraction unit, SizeText s whole fraction unit :=
  ⟨fun ⟨_, h⟩ => parseSize_sound h, fun ⟨_, _, _, h⟩ => ⟨_, parseSize_text h⟩⟩

/-- C116: the result is the size, rounded down, if that is less than 2^64. Missing: sizes that are not. -/
theorem c116_value_partial (s whole fraction : Bytes) (unit : Nat) (h : SizeText s whole fraction unit)
    (hv : sizeValue whole fraction unit < 2 ^ 64) : parseSize s = some (sizeValue whole fraction unit) := by
  rw [parseSize_text h]
  rw [sizeValue_eq] at hv ⊢
  have hunit : 0 < unit := by
    obtain ⟨_, _, hu, _⟩ := h
    have : ∀ u ∈ units, 0 < u.2 := by decide +kernel
    exact this _ hu
  have hw : decimal whole ≤ 2 ^ 64 - 1 := by
    have h1 : decimal whole ≤ decimal whole * unit := Nat.le_mul_of_pos_right (decimal whole) hunit
    have h2 := Nat.lt_of_le_of_lt (Nat.le_trans h1 (Nat.le_add_right _ _)) hv
    exact Nat.le_sub_one_of_lt h2
  rw [Nat.min_eq_left hw, Nat.mod_eq_of_lt hv]

/-- C116 fails for all larger sizes: the result is the remainder of the size modulo 2^64, if the digits before the point can be
read. -/
theorem c116_remainder_violated (s whole fraction : Bytes) (unit : Nat) (h : SizeText s whole fraction unit)
    (hw : decimal whole < 2 ^ 64) : parseSize s = some (sizeValue whole fraction unit % 2 ^ 64) := by
  rw [parseSize_text h, sizeValue_eq, Nat.min_eq_left (by omega)]

/-- C116 fails for numbers of 2^64 and more: they are all read as 2^64 - 1. -/
theorem c116_saturated_violated (s whole fraction : Bytes) (unit : Nat) (h : SizeText s whole fraction unit)
    (hw : 2 ^ 64 ≤ decimal whole) :
    parseSize s = some (((2 ^ 64 - 1) * unit + unit * decimal fraction / 10 ^ fraction.length) % 2 ^ 64) := by
  rw [parseSize_text h, Nat.min_eq_right (by omega)]

/-- C116 is violated: 16777216 terabytes are none. -/
theorem c116_violated : ¬ C116_statement := by
  intro h
  have hs : parseSize (chars "16777216TB") = some 0 := by decide +kernel
  obtain ⟨w, f, u, h1, h2, h3⟩ := (h _ 0).mp hs
  have hpos : ∀ c ∈ chars "16777216TB", c ≠ 32 ∧ c ≠ 46 := by decide +kernel
  obtain ⟨k, name, hu, hw, hf, _, e⟩ := h1
  have hf0 : f = [] := by
    by_cases hf0 : f = []
    · exact hf0
    · exfalso
      rw [if_neg hf0] at e
      exact (hpos 46 (by rw [e]; simp)).2 rfl
  have hk : k = 0 := by
    by_cases hk : k = 0
    · exact hk
    · exfalso
      exact (hpos 32 (by rw [e]; simp [hk])).1 rfl
  subst hf0 hk
  rw [if_pos rfl, List.append_nil, List.replicate_zero, List.append_nil] at e
  have hw' : ∀ c ∈ w, isDigit c = true := fun c hc => (isDigit_iff c).mpr (hw c hc)
  obtain ⟨t1, t2⟩ := takeWhile_all hw' (fun c hc => (units_head _ hu c hc).1)
  rw [← e] at t1 t2
  have e1 : w = chars "16777216" := by rw [← t1]; decide +kernel
  have e2 : text name = chars "TB" := by rw [← t2]; decide +kernel
  have hu2 := suffix_units _ hu
  rw [show text (name, u).1 = chars "TB" from e2] at hu2
  have e3 : u = 2 ^ 40 := by
    have : suffixMultiplier (chars "TB") = some (2 ^ 40) := by decide +kernel
    exact (Option.some.inj (this.symm.trans hu2)).symm
  rw [e1, e3] at h2
  revert h2
  decide +kernel

example : parseSize (chars "0.5   TB") = some (2 ^ 39) := by decide +kernel
example : parseSize (chars "1.25kb") = some 1280 := by decide +kernel
example : parseSize (chars "ABC") = none := by decide +kernel
example : parseSize (chars "1.2345MB") = none := by decide +kernel
example : parseSize (chars "12 KB ") = none := by decide +kernel
example : parseSize (chars "640Kb") = some (sizeValue (text "640") [] 1024) :=
  c116_value_partial _ _ _ _ ⟨0, "Kb", by decide +kernel, by
    intro c hc; rw [← isDigit_iff]; revert c; decide +kernel, by simp, by decide, by decide +kernel⟩ (by decide +kernel)
/-- 2^64 + 1 bytes are read as the largest number. -/
example : parseSize (chars "18446744073709551617") = some (2 ^ 64 - 1) := by decide +kernel

/-! ## C117 -/

/-- C117 as stated: the parts have no delimiter in them, and with the delimiter between them they are the text. -/
def C117_statement : Prop :=
  ∀ s d : Bytes, d ≠ [] → joinWith d (split s d) = s ∧ ∀ p ∈ split s d, ¬ Contains d p

/-- C117 for texts that do not end with the delimiter: with the delimiter between them the parts are the text. Missing: texts
that end with it. -/
theorem c117_join_partial (s d : Bytes) (h : ¬ ∃ x, x ≠ [] ∧ s = x ++ d) : joinWith d (split s d) = s := by
  unfold split
  split
  · rfl
  · rename_i hl
    have hd : d ≠ [] := fun hd => hl (.inr (by rw [hd]; rfl))
    have hs : s ≠ [] := fun hs => hl (.inl (by rw [hs]; exact Nat.zero_le _))
    rcases ((splitLoop_spec hd s.length s (Nat.le_refl _)).2.1 hs).2 with h1 | h1
    · exact h1
    · exfalso
      refine h ⟨_, fun h0 => ?_, h1.symm⟩
      rw [h0, List.nil_append] at h1
      exact hl (.inl (by rw [h1]; exact Nat.le_refl _))

/-- C117 for all texts: at most one delimiter at the end is lost. -/
theorem c117_trailing_partial (s d : Bytes) : joinWith d (split s d) = s ∨ joinWith d (split s d) ++ d = s := by
  unfold split
  split
  · exact .inl rfl
  · rename_i hl
    have hd : d ≠ [] := fun hd => hl (.inr (by rw [hd]; rfl))
    have hs : s ≠ [] := fun hs => hl (.inl (by rw [hs]; exact Nat.zero_le _))
    exact ((splitLoop_spec hd s.length s (Nat.le_refl _)).2.1 hs).2

/-- C117 for texts other than the delimiter itself: no part has the delimiter in it. -/
theorem c117_parts_partial (s d : Bytes) (hd : d ≠ []) (hs : s ≠ d) : ∀ p ∈ split s d, ¬ Contains d p := by
  unfold split
  split
  · rename_i hl
    intro p hp
    rw [List.mem_singleton.mp hp]
    rintro ⟨x, y, hxy⟩
    have hlen := congrArg List.length hxy
    rw [List.length_append, List.length_append] at hlen
    have hd0 : d.length ≠ 0 := fun h => hd (List.length_eq_zero_iff.mp h)
    have e1 : x = [] := List.length_eq_zero_iff.mp (by omega)
    have e2 : y = [] := List.length_eq_zero_iff.mp (by omega)
    rw [e1, e2, List.nil_append, List.append_nil] at hxy
    exact hs hxy
  · exact (splitLoop_spec hd s.length s (Nat.le_refl _)).1

/-- C117 fails: the delimiter itself is its only part. -/
theorem c117_delimiter_violated (d : Bytes) : split d d = [d] ∧ Contains d d := by
  refine ⟨?_, [], [], by simp⟩
  unfold split
  rw [if_pos (.inl (Nat.le_refl _))]

/-- C117 fails: a delimiter of one character at the end of a text is always lost. -/
theorem c117_trailing_violated (s : Bytes) (c : UInt8) (hs : s ≠ []) :
    joinWith [c] (split (s ++ [c]) [c]) = s := by
  have hlen : s.length ≠ 0 := fun h => hs (List.length_eq_zero_iff.mp h)
  have h2 : split (s ++ [c]) [c] = splitLoop [c] (s.length + 1) (s ++ [c]) := by
    unfold split
    rw [if_neg (by rw [List.length_append, List.length_singleton]; omega), List.length_append, List.length_singleton]
  obtain ⟨ps, h3, h4, h5⟩ := splitLoop_ended c (s.length + 1) s.length s [] (Nat.le_refl _) (by simp)
  rw [h2, h4, (splitLoop_spec (by simp) _ [] (Nat.zero_le _)).2.2 rfl, List.append_nil]
  have hj : ∀ ps : List Bytes, ps ≠ [] → joinWith [c] ps ++ [c] = ps.flatMap fun t => t ++ [c] := by
    intro ps
    induction ps with
    | nil => intro h; exact absurd rfl h
    | cons p ps ih =>
      intro _
      cases ps with
      | nil => simp [joinWith]
      | cons q qs =>
        rw [joinWith_cons (by simp), List.append_assoc, ih (by simp)]
        rfl
  have := hj ps h3
  rw [h5] at this
  exact List.append_cancel_right this

theorem c117_violated : ¬ C117_statement := by
  intro h
  exact absurd (h (chars "a,") (chars ",") (by decide +kernel)).1 (by decide +kernel)

example : split (chars "aabbcc") (chars "b") = [chars "aa", [], chars "cc"] := by decide +kernel
example : split (chars "a,b,") (chars ",") = [chars "a", chars "b"] := by decide +kernel
example : joinWith (chars ", ") (split (chars "a, b,c") (chars ", ")) = chars "a, b,c" :=
  c117_join_partial _ _ (by
    rintro ⟨x, _, hx⟩
    have := congrArg List.getLast? hx
    rw [List.getLast?_append, show (chars ", ").getLast? = some 32 by decide +kernel,
      show (chars "a, b,c").getLast? = some 99 by decide +kernel] at this
    exact absurd this (by simp))
example : ∀ p ∈ split (chars "aaa") (chars "aa"), ¬ Contains (chars "aa") p :=
  c117_parts_partial _ _ (by decide +kernel) (by decide +kernel)

/-! ## C118 -/

/-- C118 as stated: from the path of the chain data of a directory the path of the directory is found. -/
def C118_statement : Prop :=
  ∀ (isDirectory : Bytes → Bool) (base : Bytes), isDirectory (directoryPaths base).2 = true →
    fromChaindata isDirectory (directoryPaths base).2 = .ok (directoryPaths base).1

theorem withSeparator_ends {b : Bytes} (hb : b ≠ []) : ∃ x, withSeparator b = x ++ [0x2f] := by
  unfold withSeparator hasFilename
  by_cases h : b.getLast? = some 0x2f
  · rw [h]
    simp only [bne_self_eq_false, Bool.and_false, Bool.false_eq_true, if_false]
    obtain ⟨x, hx⟩ := List.getLast?_eq_some_iff.mp h
    exact ⟨x, hx⟩
  · rw [if_pos]
    · exact ⟨b, rfl⟩
    · simp [hb, h]

theorem chaindata_path {b : Bytes} (hb : b ≠ []) :
    (directoryPaths b).2 = withSeparator b ++ chars "erigon" ++ 0x2f :: (chars "chaindata" ++ [0x2f]) := by
  have h1 : pathAppend b (chars "erigon") = withSeparator b ++ chars "erigon" := by
    unfold pathAppend withSeparator hasFilename
    by_cases h : b.getLast? = some 0x2f
    · rw [if_pos (.inr h), h]
      simp
    · rw [if_neg (by simp [hb, h]), if_pos (by simp [hb, h])]
      simp
  have hlast : ∀ x : Bytes, (x ++ chars "erigon").getLast? = some 0x6e := by
    intro x
    rw [List.getLast?_append]
    have : (chars "erigon").getLast? = some 0x6e := by decide +kernel
    rw [this]
    rfl
  have hlast2 : ∀ x : Bytes, (x ++ 0x2f :: chars "chaindata").getLast? = some 0x61 := by
    intro x
    rw [List.getLast?_append]
    have : (0x2f :: chars "chaindata").getLast? = some 0x61 := by decide +kernel
    rw [this]
    rfl
  show withSeparator (pathAppend (pathAppend b (chars "erigon")) (chars "chaindata")) = _
  rw [h1]
  have h2 : pathAppend (withSeparator b ++ chars "erigon") (chars "chaindata") =
      withSeparator b ++ chars "erigon" ++ 0x2f :: chars "chaindata" := by
    unfold pathAppend
    rw [hlast, if_neg]
    rintro (h | h)
    · have := congrArg List.length h
      rw [List.length_append] at this
      have h6 : (chars "erigon").length = 6 := by decide +kernel
      simp only [List.length_nil] at this
      omega
    · revert h; decide
  rw [h2]
  unfold withSeparator hasFilename
  rw [hlast2, if_pos (by simp)]
  simp

/-- What `from_chaindata` answers for a path with parts in front of the last two. -/
theorem fromChaindata_parts (isDirectory : Bytes → Bool) (x e c : Bytes) (he : 0x2f ∉ e) (hc : 0x2f ∉ c) (slash : Bool)
    (hc0 : c ≠ []) (hdir : isDirectory (x ++ 0x2f :: (e ++ 0x2f :: (c ++ if slash then [0x2f] else []))) = true) :
    fromChaindata isDirectory (x ++ 0x2f :: (e ++ 0x2f :: (c ++ if slash then [0x2f] else []))) =
      match iequals c (chars "chaindata") with
      | .ub => .ub
      | .err z => z.elim
      | .ok false => .err .notChaindata
      | .ok true =>
        match iequals e (chars "erigon") with
        | .ub => .ub
        | .err z => z.elim
        | .ok false => .err .notChaindata
        | .ok true => .ok (x ++ [0x2f]) := by
  have hsep : withSeparator (x ++ 0x2f :: (e ++ 0x2f :: (c ++ if slash then [0x2f] else []))) =
      x ++ 0x2f :: (e ++ 0x2f :: (c ++ [0x2f])) := by
    unfold withSeparator hasFilename
    cases slash with
    | true =>
      rw [if_neg]
      · simp
      · have : (x ++ 0x2f :: (e ++ 0x2f :: (c ++ if true = true then [0x2f] else []))).getLast? = some 0x2f := by
          rw [List.getLast?_eq_some_iff]
          exact ⟨x ++ 0x2f :: (e ++ 0x2f :: c), by simp⟩
        rw [this]
        simp
    | false =>
      have hl : (x ++ 0x2f :: (e ++ 0x2f :: (c ++ if false = true then [0x2f] else []))).getLast? ≠ some 0x2f := by
        intro h
        obtain ⟨c', z, rfl⟩ := List.eq_nil_or_concat' c |>.resolve_left hc0
        have : (x ++ 0x2f :: (e ++ 0x2f :: ((c' ++ [z]) ++ if false = true then [0x2f] else []))).getLast? = some z := by
          rw [List.getLast?_eq_some_iff]
          exact ⟨x ++ 0x2f :: (e ++ 0x2f :: c'), by simp⟩
        rw [this] at h
        have hz := Option.some.inj h
        exact hc (by rw [hz]; simp)
      rw [if_pos]
      · simp
      · rw [Bool.and_eq_true, bne_iff_ne, bne_iff_ne]
        exact ⟨by simp, hl⟩
  have htok : ∃ ps, ps ≠ [] ∧ split (x ++ 0x2f :: (e ++ 0x2f :: (c ++ [0x2f]))) [0x2f] = ps ++ [e, c] ∧
      ps.flatMap (fun t => t ++ [0x2f]) = x ++ [0x2f] := by
    have hlen : (x ++ 0x2f :: (e ++ 0x2f :: (c ++ [0x2f]))).length = x.length + e.length + c.length + 3 := by
      simp only [List.length_append, List.length_cons, List.length_nil]
      omega
    obtain ⟨ps, h1, h2, h3⟩ := splitLoop_ended 0x2f (x.length + e.length + c.length + 3) x.length x (e ++ 0x2f :: (c ++ [0x2f]))
      (Nat.le_refl _) (by simp only [List.length_append, List.length_cons, List.length_nil]; omega)
    refine ⟨ps, h1, ?_, h3⟩
    unfold split
    rw [if_neg (by rw [hlen, List.length_singleton]; omega), hlen, h2,
      splitLoop_part he _ (by simp only [List.length_append, List.length_cons, List.length_nil]; omega),
      splitLoop_part (y := []) hc _ (by simp only [List.length_nil]; omega),
      (splitLoop_spec (by simp) _ [] (Nat.zero_le _)).2.2 rfl]
  obtain ⟨ps, h1, h2, h3⟩ := htok
  have hps : 0 < ps.length := by
    rcases Nat.eq_zero_or_pos ps.length with h | h
    · exact absurd (List.length_eq_zero_iff.mp h) h1
    · exact h
  have g1 : (ps ++ [e, c]).getD ((ps ++ [e, c]).length - 1) [] = c := by
    rw [List.length_append, List.getD_eq_getElem?_getD, List.getElem?_append_right (by simp)]
    simp
  have g2 : (ps ++ [e, c]).getD ((ps ++ [e, c]).length - 2) [] = e := by
    rw [List.length_append, List.getD_eq_getElem?_getD, List.getElem?_append_right (by simp)]
    simp
  have g3 : (ps ++ [e, c]).take ((ps ++ [e, c]).length - 2) = ps := by
    rw [List.length_append]
    exact List.take_left' (by simp)
  unfold fromChaindata
  rw [hdir, if_neg (by simp), hsep, h2]
  dsimp only
  rw [if_neg (by rw [List.length_append]; simp; omega), g1, g2, g3, h3]
  cases iequals c (chars "chaindata") with
  | ub => rfl
  | err z => exact z.elim
  | ok r =>
    cases r with
    | false => rfl
    | true =>
      cases iequals e (chars "erigon") with
      | ub => rfl
      | err z => exact z.elim
      | ok r => cases r <;> rfl

/-- C118 for directories whose path is not empty. Missing: the current directory as an empty path. -/
theorem c118_directory_partial (isDirectory : Bytes → Bool) (base : Bytes) (hb : base ≠ [])
    (hdir : isDirectory (directoryPaths base).2 = true) :
    fromChaindata isDirectory (directoryPaths base).2 = .ok (directoryPaths base).1 := by
  obtain ⟨x, hx⟩ := withSeparator_ends hb
  have hp := chaindata_path hb
  rw [hx] at hp
  have he : (directoryPaths base).2 = x ++ 0x2f :: (chars "erigon" ++ 0x2f :: (chars "chaindata" ++ if true = true then [0x2f] else [])) := by
    rw [hp]; simp
  rw [he] at hdir ⊢
  rw [fromChaindata_parts isDirectory x (chars "erigon") (chars "chaindata") (by decide +kernel) (by decide +kernel) true
    (by decide +kernel) hdir]
  rw [show iequals (chars "chaindata") (chars "chaindata") = .ok true by decide +kernel,
    show iequals (chars "erigon") (chars "erigon") = .ok true by decide +kernel]
  show Outcome.ok (x ++ [0x2f]) = .ok (withSeparator base)
  rw [hx]

/-- C118: of paths with or without a separator at the end, those are accepted whose last two parts are the names, in any case;
the answer is what is in front of them. -/
theorem c118_accepts (isDirectory : Bytes → Bool) (x e c : Bytes) (he : 0x2f ∉ e) (hc : 0x2f ∉ c) (slash : Bool) (hc0 : c ≠ [])
    (ha : Ascii e) (hb : Ascii c)
    (hdir : isDirectory (x ++ 0x2f :: (e ++ 0x2f :: (c ++ if slash then [0x2f] else []))) = true) :
    (fromChaindata isDirectory (x ++ 0x2f :: (e ++ 0x2f :: (c ++ if slash then [0x2f] else []))) = .ok (x ++ [0x2f]) ↔
      List.Forall₂ SameLetter e (text "erigon") ∧ List.Forall₂ SameLetter c (text "chaindata")) ∧
    (fromChaindata isDirectory (x ++ 0x2f :: (e ++ 0x2f :: (c ++ if slash then [0x2f] else []))) ≠ .ok (x ++ [0x2f]) →
      fromChaindata isDirectory (x ++ 0x2f :: (e ++ 0x2f :: (c ++ if slash then [0x2f] else []))) = .err .notChaindata) := by
  rw [fromChaindata_parts isDirectory x e c he hc slash hc0 hdir]
  obtain ⟨r1, h1, h2⟩ := c115_ascii_partial c (chars "chaindata") hb (by unfold Ascii; decide +kernel)
  obtain ⟨r2, h3, h4⟩ := c115_ascii_partial e (chars "erigon") ha (by unfold Ascii; decide +kernel)
  rw [h1, h3]
  have t1 : text "erigon" = chars "erigon" := rfl
  have t2 : text "chaindata" = chars "chaindata" := rfl
  rw [t1, t2, ← h2, ← h4]
  cases r1 <;> cases r2 <;> simp

/-- C118: an answer is only given for existing directories. -/
theorem c118_existing (isDirectory : Bytes → Bool) (path base : Bytes) (h : fromChaindata isDirectory path = .ok base) :
    isDirectory path = true := by
  cases hd : isDirectory path with
  | true => rfl
  | false =>
    unfold fromChaindata at h
    rw [hd, if_pos (by simp)] at h
    cases h

/-- C118 is violated: the data in the current directory, given as the empty path, are not found. -/
theorem c118_violated : ¬ C118_statement := by
  intro h
  have := h (fun _ => true) [] rfl
  revert this
  decide +kernel

example : fromChaindata (fun _ => true) (chars "/home/user/erigon/chaindata/") = .ok (chars "/home/user/") := by decide +kernel
example : fromChaindata (fun _ => true) (chars "data/Erigon/ChainData") = .ok (chars "data/") := by decide +kernel
example : fromChaindata (fun _ => true) (chars "data/erigon/chaindata//") = .err .notChaindata := by decide +kernel
example : fromChaindata (fun _ => true) (chars "erigon/chaindata") = .err .invalidBase := by decide +kernel
example : fromChaindata (fun _ => true) (directoryPaths (chars "/data")).2 = .ok (chars "/data/") :=
  c118_directory_partial _ _ (by decide +kernel) rfl

end Silkworm.Properties
