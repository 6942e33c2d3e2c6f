import Verif.Tools.ExtractHeadersLemmas
import Verif.Db.BlockLemmas
import Verif.Properties.DbState

/-!
# C127: extracting headers
-/

namespace Silkworm.Properties

open Silkworm.Db Silkworm.Spec Silkworm.Tools

/-- The header of the canonical block of a number, as it is stored. -/
def CanonicalHeader (db : Database) (n : Nat) (header : Bytes) : Prop :=
  ∃ hash, hash.length = 32 ∧ (blockKey n, hash) ∈ db.canonicalHashes ∧ (blockHashKey n hash, header) ∈ db.headers

/-- The file with these texts. -/
def headerFile : List Bytes → Bytes
  | [] => []
  | t => templateBegin ++ (ascii ",\n").intercalate (t.map fun x => ascii "    \"" ++ x ++ ascii "\"") ++ ascii "\n" ++ templateEnd

/-- C127 as stated: the command ends, and the file lists the base 64 texts of the headers of canonical blocks 0, step, 2 step and
so on up to the first number without a canonical block. -/
def C127_statement : Prop :=
  ∀ (db : Database) (head : Table) (step : Nat) (headers : List Bytes), Ordered db.canonicalHashes → Ordered db.headers →
    0 < step → step < 2 ^ 64 → (∀ e ∈ db.canonicalHashes, e.2.length = 32) → (∀ e ∈ db.headers, e.2 ≠ []) →
    (∀ e ∈ db.headerNumbers, e.2.length = 8) → (∀ e ∈ head, e.2.length = 32) →
    (∀ j (h : j < headers.length), j * step < 2 ^ 64 ∧ CanonicalHeader db (j * step) headers[j]) →
    (∀ hash, headers.length * step < 2 ^ 64 → (blockKey (headers.length * step), hash) ∉ db.canonicalHashes) →
    ∃ (fuel : Nat) (texts : List Bytes) (code : Nat),
      extractHeaders db head step fuel = some (.ok (templateBegin ++
        (ascii ",\n").intercalate (texts.map fun x => ascii "    \"" ++ x ++ ascii "\"") ++ ascii "\n" ++ templateEnd, code)) ∧
      texts.length = headers.length ∧ ∀ j (h : j < headers.length) (h' : j < texts.length), IsBase64 texts[j] headers[j]

theorem readCanonical_some {db : Database} (ho : Ordered db.canonicalHashes) {n : Nat} {hash : Bytes} (hl : hash.length = 32)
    (hm : (blockKey n, hash) ∈ db.canonicalHashes) : readCanonical db n = .ok (some hash) := by
  unfold readCanonical
  rw [find_of_mem ho hm]
  dsimp only
  rw [if_neg (by omega), List.take_of_length_le (by omega)]

theorem readCanonical_none {db : Database} {n : Nat} (h : ∀ hash, (blockKey n, hash) ∉ db.canonicalHashes) :
    readCanonical db n = .ok none := by
  unfold readCanonical
  rw [find_of_absent h]

/-- The loop over the first `k` multiples. -/
theorem extractLoop_headers {db : Database} {step : Nat} (ho : Ordered db.canonicalHashes) (hh : Ordered db.headers)
    (he : ∀ e ∈ db.headers, e.2 ≠ []) : ∀ (headers : List Bytes) (start fuel : Nat) (f : ListFile),
      (∀ j (h : j < headers.length), start + j * step < 2 ^ 64 - 1 ∧ CanonicalHeader db (start + j * step) headers[j]) →
      start + headers.length * step < 2 ^ 64 →
      ∃ texts : List Bytes, texts.length = headers.length ∧
        (∀ j (h : j < headers.length) (h' : j < texts.length), IsBase64 texts[j] headers[j]) ∧
        extractLoop db step (fuel + headers.length) start f =
          extractLoop db step fuel (start + headers.length * step) (texts.foldl ListFile.addHeader f)
  | [], start, fuel, f, _, _ => ⟨[], rfl, fun _ h => absurd h (Nat.not_lt_zero _), by simp⟩
  | x :: l, start, fuel, f, h, hs => by
    obtain ⟨h0, hash, g1, g2, g3⟩ := h 0 (Nat.zero_lt_succ _)
    rw [Nat.zero_mul, Nat.add_zero] at h0 g2 g3
    have g3 : (blockHashKey start hash, x) ∈ db.headers := g3
    obtain ⟨text, t1, t2⟩ := base64encode_spec (he _ g3)
    have hmul : (l.length + 1) * step = l.length * step + step := by rw [Nat.add_mul, Nat.one_mul]
    rw [List.length_cons, hmul] at hs
    obtain ⟨texts, h1, h2, h3⟩ := extractLoop_headers ho hh he l (start + step) fuel (f.addHeader text) (by
      intro j hj
      have := h (j + 1) (Nat.succ_lt_succ hj)
      rw [Nat.add_mul, Nat.one_mul, show start + (j * step + step) = start + step + j * step by omega] at this
      exact this) (by omega)
    refine ⟨text :: texts, by simp [h1], ?_, ?_⟩
    · intro j hj hj'
      cases j with
      | zero => exact t2
      | succ j => exact h2 j (Nat.lt_of_succ_lt_succ hj) (Nat.lt_of_succ_lt_succ hj')
    · rw [List.length_cons, ← Nat.add_assoc, extractLoop_step h0 (readCanonical_some ho g1 g2) (find_of_mem hh g3) t1,
        Nat.mod_eq_of_lt (by omega), h3, List.foldl_cons, hmul, show start + step + l.length * step = start + (l.length * step + step) by omega]

theorem headerFile_eq (l : List Bytes) : (l.foldl ListFile.addHeader {}).close = headerFile l := by
  rw [addHeader_fold]
  cases l with
  | nil => rfl
  | cons x l =>
    unfold ListFile.close headerFile
    simp only [List.isEmpty_cons, Bool.false_eq_true, if_false, fileOf]
    have : ∀ (l : List Bytes) (x : Bytes), (ascii ",\n").intercalate ((x :: l).map fun x => ascii "    \"" ++ x ++ ascii "\"") =
        ascii "    \"" ++ x ++ ascii "\"" ++ l.flatMap fun x => ascii ",\n" ++ ascii "    \"" ++ x ++ ascii "\"" := by
      intro l
      induction l with
      | nil => intro x; simp [List.intercalate]
      | cons y l ih =>
        intro x
        rw [List.map_cons, List.map_cons]
        have e := ih y
        rw [List.map_cons] at e
        unfold List.intercalate at e ⊢
        rw [List.intersperse_cons_cons, List.flatten_cons, List.flatten_cons, e]
        simp
    rw [this]
    simp

/-- The head refers to a header. -/
def HeadKnown (db : Database) (head : Table) : Prop := ∃ h, readHead db head = .ok (some h)

/-- What follows after the loop. -/
theorem extractHeaders_ended {db : Database} {head : Table} {step fuel n : Nat} {f : ListFile}
    (h : extractLoop db step fuel 0 {} = some (.ok (.ended n, f))) (hu : readHead db head ≠ .ub) :
    ∃ code, extractHeaders db head step fuel = some (.ok (f.close, code)) ∧ code ≤ 1 ∧ (code = 0 ↔ HeadKnown db head) := by
  unfold extractHeaders HeadKnown
  rw [h]
  dsimp only
  cases hr : readHead db head with
  | ub => exact absurd hr hu
  | err e => exact ⟨1, rfl, Nat.le_refl 1, by simp⟩
  | ok o =>
    cases o with
    | none => exact ⟨1, rfl, Nat.le_refl 1, by simp⟩
    | some x => exact ⟨0, rfl, Nat.zero_le 1, by simp⟩

/-- C127 for numbers in range, the last of which is not the largest: the file lists the headers, and the command succeeds exactly
if the head refers to a header. Without headers the file is empty. Missing: no header at all, and numbers that wrap around. -/
theorem c127_headers_partial (db : Database) (head : Table) (step : Nat) (ho : Ordered db.canonicalHashes) (hh : Ordered db.headers)
    (he : ∀ e ∈ db.headers, e.2 ≠ []) (hu : readHead db head ≠ .ub) (headers : List Bytes) (hstep : 0 < step)
    (hk : headers.length * step < 2 ^ 64) (hc : ∀ j (h : j < headers.length), CanonicalHeader db (j * step) headers[j])
    (hend : ∀ hash, (blockKey (headers.length * step), hash) ∉ db.canonicalHashes) (fuel : Nat) (hf : headers.length < fuel) :
    ∃ (texts : List Bytes) (code : Nat), extractHeaders db head step fuel = some (.ok (headerFile texts, code)) ∧
      code ≤ 1 ∧ (code = 0 ↔ HeadKnown db head) ∧ texts.length = headers.length ∧
      ∀ j (h : j < headers.length) (h' : j < texts.length), IsBase64 texts[j] headers[j] := by
  obtain ⟨d, rfl⟩ : ∃ d, fuel = d + 1 + headers.length := ⟨fuel - 1 - headers.length, by omega⟩
  obtain ⟨texts, h1, h2, h3⟩ := extractLoop_headers ho hh he headers 0 (d + 1) {} (step := step) (by
    intro j hj
    rw [Nat.zero_add]
    refine ⟨?_, hc j hj⟩
    have : (j + 1) * step ≤ headers.length * step := Nat.mul_le_mul_right _ hj
    rw [Nat.add_mul, Nat.one_mul] at this
    omega) (by rw [Nat.zero_add]; exact hk)
  rw [Nat.zero_add] at h3
  have h4 : extractLoop db step (d + 1 + headers.length) 0 {} =
      some (.ok (.ended (headers.length * step), texts.foldl ListFile.addHeader {})) := by
    rw [h3, extractLoop]
    split
    · rw [readCanonical_none hend]
    · rfl
  obtain ⟨code, h5, h6, h7⟩ := extractHeaders_ended h4 hu
  rw [headerFile_eq] at h5
  exact ⟨texts, code, h5, h6, h7, h1, h2⟩

/-- C127: different headers have different texts. -/
theorem c127_texts (a b : Bytes) (ha : a ≠ []) (hb : b ≠ []) (h : base64encode a = base64encode b) : a = b := by
  obtain ⟨t, h1, h2⟩ := base64encode_spec ha
  obtain ⟨s, h3, h4⟩ := base64encode_spec hb
  rw [h1, h3] at h
  rw [Outcome.ok.inj h] at h2
  exact isBase64_inj h2 h4

/-- C127 fails for a header without bytes, of which the text is undefined behaviour. -/
theorem c127_empty_violated : base64encode [] = .ub := rfl

/-- C127: a canonical block without a header ends the command; the file then has the headers before it. -/
theorem c127_missing (db : Database) (head : Table) (step : Nat) (ho : Ordered db.canonicalHashes) (hh : Ordered db.headers)
    (he : ∀ e ∈ db.headers, e.2 ≠ []) (headers : List Bytes) (hk : headers.length * step < 2 ^ 64 - 1)
    (hc : ∀ j (h : j < headers.length), CanonicalHeader db (j * step) headers[j]) (hash : Bytes) (hl : hash.length = 32)
    (hhash : (blockKey (headers.length * step), hash) ∈ db.canonicalHashes)
    (hno : ∀ v, (blockHashKey (headers.length * step) hash, v) ∉ db.headers) (fuel : Nat) (hf : headers.length < fuel) :
    ∃ texts : List Bytes, extractHeaders db head step fuel = some (.ok (headerFile texts, 1)) ∧ texts.length = headers.length ∧
      ∀ j (h : j < headers.length) (h' : j < texts.length), IsBase64 texts[j] headers[j] := by
  obtain ⟨d, rfl⟩ : ∃ d, fuel = d + 1 + headers.length := ⟨fuel - 1 - headers.length, by omega⟩
  obtain ⟨texts, h1, h2, h3⟩ := extractLoop_headers ho hh he headers 0 (d + 1) {} (step := step) (by
    intro j hj
    rw [Nat.zero_add]
    refine ⟨?_, hc j hj⟩
    have : j * step ≤ headers.length * step := Nat.mul_le_mul_right _ (Nat.le_of_lt hj)
    omega) (by rw [Nat.zero_add]; omega)
  rw [Nat.zero_add] at h3
  refine ⟨texts, ?_, h1, h2⟩
  unfold extractHeaders
  rw [h3, extractLoop, if_pos hk, readCanonical_some ho hl hhash]
  dsimp only
  rw [find_of_absent hno]
  dsimp only
  rw [headerFile_eq]

/-- C127 fails where numbers wrap around: with a step of half the range and a block there, the command does not end. -/
theorem c127_wrap_violated (db : Database) (head : Table) (ho : Ordered db.canonicalHashes) (hh : Ordered db.headers)
    (he : ∀ e ∈ db.headers, e.2 ≠ []) (a b : Bytes) (ha : CanonicalHeader db 0 a) (hb : CanonicalHeader db (2 ^ 63) b) (fuel : Nat) :
    extractHeaders db head (2 ^ 63) fuel = none := by
  have hloop : ∀ fuel f, extractLoop db (2 ^ 63) fuel 0 f = none ∧ extractLoop db (2 ^ 63) fuel (2 ^ 63) f = none := by
    intro fuel
    induction fuel with
    | zero => exact fun f => ⟨rfl, rfl⟩
    | succ fuel ih =>
      intro f
      obtain ⟨x, g1, g2, g3⟩ := ha
      obtain ⟨y, k1, k2, k3⟩ := hb
      obtain ⟨t, t1, _⟩ := base64encode_spec (he _ g3)
      obtain ⟨s, s1, _⟩ := base64encode_spec (he _ k3)
      constructor
      · rw [extractLoop_step (by decide) (readCanonical_some ho g1 g2) (find_of_mem hh g3) t1]
        exact (ih _).2
      · rw [extractLoop_step (by decide) (readCanonical_some ho k1 k2) (find_of_mem hh k3) s1]
        exact (ih _).1
  unfold extractHeaders
  rw [(hloop fuel {}).1]

/-- C127 is violated: without headers the file is empty instead of an empty list. -/
theorem c127_violated : ¬ C127_statement := by
  intro h
  obtain ⟨fuel, texts, code, h1, _⟩ := h {} [] 1 [] (by decide) (by decide) (by decide) (by decide) (fun _ h => by cases h)
    (fun _ h => by cases h) (fun _ h => by cases h) (fun _ h => by cases h) (fun _ h => absurd h (Nat.not_lt_zero _))
    (fun _ _ h => by cases h)
  cases fuel with
  | zero => cases h1
  | succ fuel =>
    have h2 : extractHeaders {} [] 1 (fuel + 1) = some (.ok ([], 1)) := rfl
    rw [h2] at h1
    have h3 := congrArg (fun o => match o with | some (Outcome.ok (x, _)) => List.length x | _ => 0) h1
    simp only [List.length_nil, List.length_append] at h3
    have h4 : 0 < templateBegin.length := by decide +kernel
    omega

/-- Headers of blocks 0, 2 and 3. -/
def exHeadersDb : Database :=
  { canonicalHashes := [(blockKey 0, exWord 1), (blockKey 1, exWord 9), (blockKey 2, exWord 2), (blockKey 3, exWord 3)]
    headers := [(blockHashKey 0 (exWord 1), ascii "Man"), (blockHashKey 2 (exWord 2), ascii "light w"), (blockHashKey 3 (exWord 3), ascii "x")] }

example : base64encode (ascii "Man") = .ok (ascii "TWFu") ∧ base64encode (ascii "light w") = .ok (ascii "bGlnaHQgdw") ∧
    base64encode (ascii "light wo") = .ok (ascii "bGlnaHQgd28") ∧ base64encode [255, 254, 253] = .ok (ascii "//79") := by
  decide +kernel
example : extractHeaders exHeadersDb [] 2 7 =
    some (.ok (headerFile [ascii "TWFu", ascii "bGlnaHQgdw"], 1)) := by decide +kernel
example : ∃ (texts : List Bytes) (code : Nat), extractHeaders exHeadersDb [] 2 3 = some (.ok (headerFile texts, code)) ∧
    texts.length = 2 := by
  obtain ⟨texts, code, h1, _, _, h2, _⟩ := c127_headers_partial exHeadersDb [] 2 (by decide +kernel) (by decide +kernel)
    (by decide +kernel) (fun h => by cases h) [ascii "Man", ascii "light w"] (by decide) (by decide) (by
      intro j hj
      match j, hj with
      | 0, _ => exact ⟨exWord 1, by decide +kernel, by decide +kernel,
          (by decide +kernel : (blockHashKey 0 (exWord 1), ascii "Man") ∈ exHeadersDb.headers)⟩
      | 1, _ => exact ⟨exWord 2, by decide +kernel, by decide +kernel,
          (by decide +kernel : (blockHashKey 2 (exWord 2), ascii "light w") ∈ exHeadersDb.headers)⟩
      | _ + 2, h => exact absurd h (by simp)) (by
      intro hash h
      have : ∀ e ∈ exHeadersDb.canonicalHashes, e.1 ≠ blockKey 4 := by decide +kernel
      exact this _ h rfl) 3 (by decide)
  exact ⟨texts, code, h1, h2⟩
example : extractHeaders exHeadersDb [] 1 7 = some (.ok (headerFile [ascii "TWFu"], 1)) := by decide +kernel

/-- Headers of blocks 0 and 2^63. -/
def exWrapDb : Database :=
  { canonicalHashes := [(blockKey 0, exWord 1), (blockKey (2 ^ 63), exWord 2)]
    headers := [(blockHashKey 0 (exWord 1), ascii "Man"), (blockHashKey (2 ^ 63) (exWord 2), ascii "x")] }

example (fuel : Nat) : extractHeaders exWrapDb [] (2 ^ 63) fuel = none :=
  c127_wrap_violated exWrapDb [] (by decide +kernel) (by decide +kernel) (by decide +kernel) (ascii "Man") (ascii "x")
    ⟨exWord 1, by decide +kernel, by decide +kernel,
      (by decide +kernel : (blockHashKey 0 (exWord 1), ascii "Man") ∈ exWrapDb.headers)⟩
    ⟨exWord 2, by decide +kernel, by decide +kernel,
      (by decide +kernel : (blockHashKey (2 ^ 63) (exWord 2), ascii "x") ∈ exWrapDb.headers)⟩ fuel

end Silkworm.Properties
