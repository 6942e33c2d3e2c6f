import Verif.Stages.HashState
import Verif.Stages.UnwindLemmas

/-!
# Lemmas about hashing the state
-/

namespace Silkworm.Stages

open Silkworm.Db Silkworm.Spec Silkworm.Etl

/-! ## From the plain state -/

theorem cleanStateEntries_spec (keccak : Bytes → Bytes) (t : Table) (h : ∀ e ∈ t, e.1.length = 20 ∨ e.1.length = 28) :
    cleanStateEntries keccak t = .ok
      ((t.filter fun e => e.1.length == 20).map fun e => ⟨keccak e.1, e.2⟩,
       (t.filter fun e => e.1.length == 28).map fun e => ⟨cleanStorageKey keccak e.1, e.2⟩) := by
  induction t with
  | nil => rfl
  | cons e t ih =>
    have ih := ih fun f hf => h f (List.mem_cons_of_mem _ hf)
    unfold cleanStateEntries
    rcases h e List.mem_cons_self with he | he
    · rw [if_neg (by omega), if_pos he, ih]
      simp [he]
    · rw [if_neg (by omega), if_neg (by omega), if_neg (by omega), ih]
      simp [he]

theorem cleanCodeEntries_spec (keccak : Bytes → Bytes) (t : Table) (h : ∀ e ∈ t, e.1.length = 28) :
    cleanCodeEntries keccak t = .ok (t.map fun e => ⟨keccak (e.1.take 20) ++ e.1.drop 20, e.2⟩) := by
  induction t with
  | nil => rfl
  | cons e t ih =>
    have ih := ih fun f hf => h f (List.mem_cons_of_mem _ hf)
    have he := h e List.mem_cons_self
    unfold cleanCodeEntries
    rw [if_neg (by omega), ih, Outcome.ok_bind, List.map_cons]
    rw [List.take_of_length_le (l := e.1.drop 20) (by rw [List.length_drop]; omega)]

/-- Appending adds only what it is given, and keeps the keys distinct and in order. -/
theorem appendAll_sound (L : List Entry) (t : Table) (ht : Spec.Ordered t) :
    Spec.Ordered (L.foldl (fun t e => putAppend t e.key e.value) t) ∧
    ∀ e ∈ L.foldl (fun t e => putAppend t e.key e.value) t, e ∈ t ∨ ∃ x ∈ L, e = (x.key, x.value) := by
  induction L generalizing t with
  | nil => exact ⟨ht, fun e he => .inl he⟩
  | cons x L ih =>
    rw [List.foldl_cons]
    have hp : Spec.Ordered (putAppend t x.key x.value) ∧ ∀ e ∈ putAppend t x.key x.value, e ∈ t ∨ e = (x.key, x.value) := by
      unfold putAppend
      cases hl : t.getLast? with
      | none =>
        rw [List.getLast?_eq_none_iff] at hl
        subst hl
        exact ⟨List.pairwise_singleton _ _, fun e he => .inr (List.mem_singleton.mp he)⟩
      | some l =>
        dsimp only
        split
        · rename_i hlt
          refine ⟨List.pairwise_append.mpr ⟨ht, List.pairwise_singleton _ _, fun e he f hf => ?_⟩, fun e he => ?_⟩
          · rw [List.mem_singleton.mp hf]
            obtain ⟨u, hu⟩ := List.getLast?_eq_some_iff.mp hl
            have h2 := (lexLt_iff _ _).mp hlt
            rw [hu] at he ht
            rcases List.mem_append.mp he with he | he
            · exact List.lt_trans ((List.pairwise_append.mp ht).2.2 e he l (List.mem_singleton.mpr rfl)) h2
            · rw [List.mem_singleton.mp he]; exact h2
          · rcases List.mem_append.mp he with he | he
            · exact .inl he
            · exact .inr (List.mem_singleton.mp he)
        · exact ⟨ht, fun e he => .inl he⟩
    obtain ⟨h1, h2⟩ := ih _ hp.1
    refine ⟨h1, fun e he => ?_⟩
    rcases h2 e he with h | ⟨y, hy, h⟩
    · rcases hp.2 e h with h | h
      · exact .inl h
      · exact .inr ⟨x, List.mem_cons_self, h⟩
    · exact .inr ⟨y, List.mem_cons_of_mem _ hy, h⟩

/-- Loading into an empty table with `MDBX_APPEND`. -/
theorem appendLoad_cases (d : Disk) (es : List Entry) (hfit : ∀ e ∈ es, Etl.Fits e) (hne : ∀ e ∈ es, e.size ≠ 0) :
    etlLoad d kFlushSize es (putEntry true) [] = .err (.etl .insufficientDiskSpace) ∨
    ∃ t : Table, etlLoad d kFlushSize es (putEntry true) [] = .ok t ∧ Spec.Ordered t ∧
      (∀ e ∈ t, ∃ x ∈ es, e = (x.key, x.value)) ∧ (∀ x ∈ es, ∃ v, (x.key, v) ∈ t) ∧
      ∀ k v, ⟨k, v⟩ ∈ es → (∀ e ∈ es, e.key = k → e.value = v) → t.find k = some (k, v) := by
  rcases etlLoad_cases d kFlushSize es (putEntry true) ([] : Table) hfit hne with h | ⟨L, hperm, hord, hload⟩
  · exact .inl h
  · rw [foldlM_putEntry] at hload
    refine .inr ⟨_, hload, ?_⟩
    obtain ⟨h1, h2⟩ := appendAll_sound L [] List.Pairwise.nil
    have hput : (fun (t : Table) (e : Entry) => put true t e.key e.value) = fun t e => putAppend t e.key e.value := rfl
    refine ⟨by rw [hput]; exact h1, fun e he => ?_, fun x hx => ?_, fun k v hkv hu => ?_⟩
    · rw [hput] at he
      rcases h2 e he with h | ⟨x, hx, h⟩
      · cases h
      · exact ⟨x, hperm.mem_iff.mp hx, h⟩
    · have h := find_appendAll L hord [] endsLargest_nil (fun e he => by cases he) x.key
      rw [hput]
      cases hf : L.find? fun e => e.key == x.key with
      | none => exact absurd (by simp) (List.find?_eq_none.mp hf x (hperm.mem_iff.mpr hx))
      | some y =>
        rw [hf] at h
        have hy : y.key = x.key := by simpa using List.find?_some hf
        exact ⟨y.value, hy ▸ List.mem_of_find?_eq_some h⟩
    · exact find_load true L hord [] rfl k v (hperm.mem_iff.mpr hkv) fun e he => hu e (hperm.mem_iff.mp he)

/-- Appending smaller keys does nothing. -/
theorem appendAll_smaller (L : List Entry) (t : Table) (l : Bytes × Bytes) (hl : t.getLast? = some l)
    (h : ∀ x ∈ L, lexLt l.1 x.key = false) : L.foldl (fun t e => put true t e.key e.value) t = t := by
  induction L with
  | nil => rfl
  | cons x L ih =>
    have hx : put true t x.key x.value = t := by
      unfold put putAppend
      rw [if_pos rfl, hl]
      dsimp only
      rw [h x List.mem_cons_self]
      rfl
    rw [List.foldl_cons, hx]
    exact ih fun y hy => h y (List.mem_cons_of_mem _ hy)

/-! ## From change sets -/

/-- From the first record of a block after `n`, all records of later blocks follow. -/
theorem fromLowerBound_later {t : Table} (ht : MultiOrdered t) (h8 : ∀ e ∈ t, 8 ≤ e.1.length) {n : Nat} (hn : n + 1 < 2 ^ 64) :
    fromLowerBound t (beFixed 8 (n + 1)) = t.filter fun e => decide (n < recordBlock e) := by
  have h64 : (256 : Nat) ^ 8 = 2 ^ 64 := by decide
  have key : ∀ e ∈ t, lexLt e.1 (beFixed 8 (n + 1)) = !decide (n < recordBlock e) := by
    intro e he
    have hl : (e.1.take 8).length = (beFixed 8 (n + 1)).length := by
      rw [List.length_take, beFixed_length]; have := h8 e he; omega
    have h1 := Db.lexLt_append hl (e.1.drop 8) []
    rw [List.take_append_drop, List.append_nil, lexLt_iff_toNat hl, beToNat_beFixed (by omega)] at h1
    have h2 : lexLt (e.1.drop 8) [] = false := by cases e.1.drop 8 <;> rfl
    rw [h2] at h1
    by_cases hb : n < recordBlock e
    · rw [decide_eq_true hb, Bool.not_true, ← Bool.not_eq_true, h1]
      unfold recordBlock at hb
      simp only [Bool.false_eq_true, and_false, or_false]
      omega
    · rw [decide_eq_false hb, Bool.not_false, h1]
      unfold recordBlock at hb
      exact .inl (by omega)
  have hord := ordered_blocks ht h8
  clear ht h8
  unfold fromLowerBound
  induction t with
  | nil => rfl
  | cons e t ih =>
    obtain ⟨h1, h2⟩ := List.pairwise_cons.mp hord
    rw [List.dropWhile_cons, key e List.mem_cons_self, List.filter_cons]
    by_cases hb : n < recordBlock e
    · rw [decide_eq_true hb]
      simp only [Bool.not_true, Bool.false_eq_true, if_false, if_true]
      congr 1
      symm
      rw [List.filter_eq_self]
      intro f hf
      rw [decide_eq_true_eq]
      have := h1 f hf
      omega
    · rw [decide_eq_false hb]
      simp only [Bool.not_false, if_true, Bool.false_eq_true, if_false]
      exact ih (fun f hf => key f (List.mem_cons_of_mem _ hf)) h2

theorem walkChanges_accounts (f : Table → Bytes → Outcome StageError Table) (t : Table)
    (h : ∀ e ∈ t, e.1.length = 8 ∧ 20 ≤ e.2.length) (target : Table) :
    walkChanges f t target = t.foldlM (fun tg e => f tg (e.2.take 20)) target := by
  induction t generalizing target with
  | nil => rfl
  | cons e t ih =>
    obtain ⟨h1, h2⟩ := h e List.mem_cons_self
    unfold walkChanges convertToDbFormat
    rw [if_pos h1, if_neg (by omega), Outcome.ok_bind, List.foldlM_cons]
    congr 1
    funext tg
    exact ih (fun x hx => h x (List.mem_cons_of_mem _ hx)) tg

theorem walkChanges_slots (f : Table → Bytes → Outcome StageError Table) (t : Table)
    (h : ∀ e ∈ t, e.1.length = 36 ∧ 32 ≤ e.2.length) (target : Table) :
    walkChanges f t target = t.foldlM (fun tg e => f tg (e.1.drop 8 ++ e.2.take 32)) target := by
  induction t generalizing target with
  | nil => rfl
  | cons e t ih =>
    obtain ⟨h1, h2⟩ := h e List.mem_cons_self
    unfold walkChanges convertToDbFormat
    rw [if_neg (by omega), if_neg (by omega), Outcome.ok_bind, List.foldlM_cons,
      List.take_of_length_le (l := e.1.drop 8) (by rw [List.length_drop]; omega)]
    congr 1
    funext tg
    exact ih (fun x hx => h x (List.mem_cons_of_mem _ hx)) tg

/-- Entries to put into a table, or not. -/
def upserts (l : List (Option (Bytes × Bytes))) (t : Table) : Table :=
  l.foldl (fun t x => match x with | none => t | some e => t.upsert e.1 e.2) t

theorem upserts_other (l : List (Option (Bytes × Bytes))) (t : Table) (k : Bytes) (h : ∀ e, some e ∈ l → e.1 ≠ k) :
    (upserts l t).find k = t.find k := by
  induction l generalizing t with
  | nil => rfl
  | cons x l ih =>
    have ih := fun t => ih t fun e he => h e (List.mem_cons_of_mem _ he)
    unfold upserts at ih ⊢
    rw [List.foldl_cons, ih]
    cases x with
    | none => rfl
    | some e => exact Table.find_upsert_other _ _ (h e List.mem_cons_self).symm

theorem upserts_find (l : List (Option (Bytes × Bytes))) (t : Table) (k v : Bytes) (hm : some (k, v) ∈ l)
    (hu : ∀ e, some e ∈ l → e.1 = k → e.2 = v) : (upserts l t).find k = some (k, v) := by
  induction l generalizing t with
  | nil => cases hm
  | cons x l ih =>
    by_cases hl : some (k, v) ∈ l
    · unfold upserts at ih ⊢
      rw [List.foldl_cons]
      exact ih _ hl fun e he => hu e (List.mem_cons_of_mem _ he)
    · have hx : x = some (k, v) := by
        rcases List.mem_cons.mp hm with h | h
        · exact h.symm
        · exact absurd h hl
      subst hx
      have hother : ∀ e, some e ∈ l → e.1 ≠ k := by
        intro e he hk
        have := hu e (List.mem_cons_of_mem _ he) hk
        exact hl (by rw [← hk, ← this]; exact he)
      have := upserts_other l (t.upsert k v) k hother
      unfold upserts at this ⊢
      rw [List.foldl_cons]
      dsimp only
      rw [this]
      exact Table.find_upsert_same ..

/-- The bytes before the first zero. -/
def beforeZero (b : Bytes) : Bytes := b.takeWhile fun x => x != 0

theorem promoteAccount_eq (keccak : Bytes → Bytes) (plain target : Table) (a : Bytes) :
    promoteAccount keccak plain target a =
      if (plain.find a).isSome = true → (0 : UInt8) ∈ keccak a then
        .ok (upserts [(plain.find a).map fun x => (beforeZero (keccak a), x.2)] target)
      else .ub := by
  unfold promoteAccount cString
  cases plain.find a with
  | none => rfl
  | some x =>
    by_cases h0 : (0 : UInt8) ∈ keccak a
    · simp only [h0, if_true, Outcome.ok_bind, imp_true_iff]
      rfl
    · simp only [h0, if_false, Option.isSome_some, forall_const]
      rfl

theorem upserts_cons (x : Option (Bytes × Bytes)) (l : List (Option (Bytes × Bytes))) (t : Table) :
    upserts (x :: l) t = upserts l (upserts [x] t) := rfl

theorem promoteAccount_fold (keccak : Bytes → Bytes) (plain : Table) (t target : Table) :
    t.foldlM (fun tg e => promoteAccount keccak plain tg (e.2.take 20)) target =
      if ∀ e ∈ t, (plain.find (e.2.take 20)).isSome = true → (0 : UInt8) ∈ keccak (e.2.take 20) then
        .ok (upserts (t.map fun e => (plain.find (e.2.take 20)).map fun x => (beforeZero (keccak (e.2.take 20)), x.2)) target)
      else .ub := by
  induction t generalizing target with
  | nil => rfl
  | cons e t ih =>
    rw [List.foldlM_cons, promoteAccount_eq]
    by_cases h0 : (plain.find (e.2.take 20)).isSome = true → (0 : UInt8) ∈ keccak (e.2.take 20)
    · rw [if_pos h0, Outcome.ok_bind, ih, List.map_cons, upserts_cons]
      exact if_congr (by rw [List.forall_mem_cons]; exact ⟨fun h => ⟨h0, h⟩, fun h => h.2⟩) rfl rfl
    · rw [if_neg h0, if_neg fun h => h0 (h e List.mem_cons_self)]
      rfl

/-- The keys that are looked for have 60 bytes: there are none. -/
theorem promoteSlot_fold (keccak : Bytes → Bytes) (plain : Table) (hp : ∀ e ∈ plain, e.1.length = 20 ∨ e.1.length = 28)
    (t : Table) (h : ∀ e ∈ t, e.1.length = 36 ∧ 32 ≤ e.2.length) (target : Table) :
    t.foldlM (fun tg e => promoteSlot keccak plain tg (e.1.drop 8 ++ e.2.take 32)) target = .ok target := by
  induction t generalizing target with
  | nil => rfl
  | cons e t ih =>
    obtain ⟨h1, h2⟩ := h e List.mem_cons_self
    have hf : plain.find (e.1.drop 8 ++ e.2.take 32) = none := by
      refine find_none_of fun x hx hk => ?_
      have := congrArg List.length hk
      rw [List.length_append, List.length_drop, List.length_take] at this
      have := hp x hx
      omega
    rw [List.foldlM_cons]
    unfold promoteSlot
    rw [hf]
    exact ih (fun x hx => h x (List.mem_cons_of_mem _ hx)) target

/-- If promoting the code succeeds, all changed accounts can be read. -/
theorem promoteCode_reads (keccak : Bytes → Bytes) (plain code : Table) (t target r : Table)
    (h : t.foldlM (fun tg e => promoteCode keccak plain code tg (e.2.take 20)) target = .ok r) :
    ∀ e ∈ t, ∀ x, plain.find (e.2.take 20) = some x → ∃ i, extractIncarnation x.2 = .ok i := by
  induction t generalizing target with
  | nil => intro e he; cases he
  | cons f t ih =>
    rw [List.foldlM_cons] at h
    obtain ⟨u, hu, h⟩ := Outcome.bind_eq_ok.mp h
    intro e he x hx
    rcases List.mem_cons.mp he with rfl | he
    · unfold promoteCode at hu
      rw [hx] at hu
      dsimp only at hu
      cases hi : extractIncarnation x.2 with
      | ok i => exact ⟨i, rfl⟩
      | err i => rw [hi] at hu; cases hu
      | ub => rw [hi] at hu; cases hu
    · exact ih u h e he x hx

/-- The incarnation of an account, 0 if there is none. -/
def incOf (plain : Table) (a : Bytes) : Nat :=
  match plain.find a with
  | none => 0
  | some x => match extractIncarnation x.2 with
    | .ok i => i
    | _ => 0

/-- Entries to put for the code of an account. -/
def codeEntry (keccak : Bytes → Bytes) (plain code : Table) (inc : Bytes → Nat) (a : Bytes) : Option (Bytes × Bytes) :=
  if (plain.find a).isNone ∨ inc a = 0 then none
  else (code.find (a ++ beFixed 8 (inc a))).map fun c => (keccak a ++ beFixed 8 (inc a), c.2)

theorem promoteCode_fold (keccak : Bytes → Bytes) (plain code : Table) (inc : Bytes → Nat) (t : Table)
    (hl : ∀ e ∈ t, (e.2.take 20).length = 20)
    (hi : ∀ e ∈ t, ∀ x, plain.find (e.2.take 20) = some x → extractIncarnation x.2 = .ok (inc (e.2.take 20))) (target : Table) :
    t.foldlM (fun tg e => promoteCode keccak plain code tg (e.2.take 20)) target =
      .ok (upserts (t.map fun e => codeEntry keccak plain code inc (e.2.take 20)) target) := by
  induction t generalizing target with
  | nil => rfl
  | cons e t ih =>
    have hstep : promoteCode keccak plain code target (e.2.take 20) =
        .ok (match codeEntry keccak plain code inc (e.2.take 20) with | none => target | some x => target.upsert x.1 x.2) := by
      unfold promoteCode codeEntry
      have htk : (e.2.take 20).take 20 = e.2.take 20 := List.take_of_length_le (by rw [hl e List.mem_cons_self])
      cases hf : plain.find (e.2.take 20) with
      | none => rfl
      | some x =>
        have h1 := hi e List.mem_cons_self x hf
        simp only [h1, liftDec, liftDb, Outcome.ok_bind, Option.isNone_some, Bool.false_eq_true, false_or, htk]
        split
        · rfl
        · cases code.find (e.2.take 20 ++ beFixed 8 (inc (e.2.take 20))) <;> rfl
    rw [List.foldlM_cons, hstep, Outcome.ok_bind,
      ih (fun x hx => hl x (List.mem_cons_of_mem _ hx)) (fun x hx => hi x (List.mem_cons_of_mem _ hx))]
    unfold upserts
    rw [List.map_cons, List.foldl_cons]

/-! ## Unwinding -/

/-- Erasing keys one after another from a table with one value per key. -/
def erases (ks : List Bytes) (t : Table) : Table := ks.foldl (fun t k => Db.Buffer.eraseFound t (t.find k)) t

theorem erases_stored (ks : List Bytes) (t : Table) (j : Bytes) (h1 : (stored t j).length ≤ 1) :
    stored (erases ks t) j = if j ∈ ks then [] else stored t j := by
  induction ks generalizing t with
  | nil => rfl
  | cons k ks ih =>
    unfold erases at ih ⊢
    rw [List.foldl_cons]
    have hs := stored_erase_found t k j
    rw [ih _ (by rw [hs]; split
                 · rename_i hj; rw [List.length_tail, ← hj]; omega
                 · exact h1), hs]
    by_cases hj : j = k
    · subst hj
      rw [if_pos rfl]
      simp only [List.mem_cons, true_or, if_true]
      split
      · rfl
      · rw [← List.length_eq_zero_iff, List.length_tail]; omega
    · rw [if_neg hj]
      simp [List.mem_cons, hj]

/-- A table with one value per key. -/
theorem stored_ordered_le {t : Table} (ht : Spec.Ordered t) (k : Bytes) : (stored t k).length ≤ 1 := by
  induction t with
  | nil => exact Nat.zero_le _
  | cons e t ih =>
    obtain ⟨h1, h2⟩ := List.pairwise_cons.mp ht
    have ih := ih h2
    unfold stored at ih ⊢
    rw [List.filter_cons]
    split
    · rename_i hk
      have hk : e.1 = k := by simpa using hk
      have : (t.filter fun f => f.1 = k) = [] := by
        rw [List.filter_eq_nil_iff]
        intro f hf hfk
        have := h1 f hf
        rw [hk, show f.1 = k by simpa using hfk] at this
        exact List.lt_irrefl _ this
      rw [this]
      exact Nat.le_refl _
    · exact ih

theorem unwindHashedAccount_eq (keccak : Bytes → Bytes) (target : Table) (a : Bytes) :
    unwindHashedAccount keccak target a =
      if (0 : UInt8) ∈ keccak a then .ok (erases [beforeZero (keccak a)] target) else .ub := by
  unfold unwindHashedAccount cString
  by_cases h0 : (0 : UInt8) ∈ keccak a
  · rw [if_pos h0, if_pos h0]; rfl
  · rw [if_neg h0, if_neg h0]; rfl

theorem unwindAccounts_fold (keccak : Bytes → Bytes) (t target : Table) :
    t.foldlM (fun tg e => unwindHashedAccount keccak tg (e.2.take 20)) target =
      if ∀ e ∈ t, (0 : UInt8) ∈ keccak (e.2.take 20) then
        .ok (erases (t.map fun e => beforeZero (keccak (e.2.take 20))) target)
      else .ub := by
  induction t generalizing target with
  | nil => rfl
  | cons e t ih =>
    rw [List.foldlM_cons, unwindHashedAccount_eq]
    by_cases h0 : (0 : UInt8) ∈ keccak (e.2.take 20)
    · rw [if_pos h0, Outcome.ok_bind, ih]
      exact if_congr (by rw [List.forall_mem_cons]; exact ⟨fun h => ⟨h0, h⟩, fun h => h.2⟩) rfl rfl
    · rw [if_neg h0, if_neg fun h => h0 (h e List.mem_cons_self)]
      rfl

theorem unwindSlots_fold (keccak : Bytes → Bytes) (t : Table) (h : ∀ e ∈ t, e.1.length = 36 ∧ 32 ≤ e.2.length) (target : Table) :
    t.foldlM (fun tg e => unwindHashedSlot keccak tg (e.1.drop 8 ++ e.2.take 32)) target =
      .ok (erases (t.map fun e => hashedSlotKey keccak (e.1.drop 8 ++ e.2.take 32)) target) := by
  induction t generalizing target with
  | nil => rfl
  | cons e t ih =>
    obtain ⟨h1, h2⟩ := h e List.mem_cons_self
    rw [List.foldlM_cons]
    unfold unwindHashedSlot erases
    rw [List.map_cons, List.foldl_cons, if_neg (by rw [List.length_append, List.length_drop]; omega), Outcome.ok_bind]
    exact ih (fun x hx => h x (List.mem_cons_of_mem _ hx)) _

/-- The bytes before the first zero: what comes before it has none. -/
theorem beforeZero_eq {b p s : Bytes} (h : b = p ++ 0 :: s) (h0 : (0 : UInt8) ∉ p) : beforeZero b = p := by
  subst h
  unfold beforeZero
  induction p with
  | nil => rfl
  | cons x p ih =>
    have hx : x ≠ 0 := fun hx => h0 (hx ▸ List.mem_cons_self)
    rw [List.cons_append, List.takeWhile_cons, if_pos (by simpa using hx), ih fun h => h0 (List.mem_cons_of_mem _ h)]

theorem beforeZero_split {b : Bytes} (h : (0 : UInt8) ∈ b) : ∃ s, b = beforeZero b ++ 0 :: s ∧ (0 : UInt8) ∉ beforeZero b := by
  induction b with
  | nil => cases h
  | cons x l ih =>
    unfold beforeZero
    by_cases hx : x = 0
    · subst hx
      exact ⟨l, rfl, by simp⟩
    · rw [List.takeWhile_cons, if_pos (by simpa using hx)]
      rcases List.mem_cons.mp h with h | h
      · exact absurd h.symm hx
      · obtain ⟨s, h1, h2⟩ := ih h
        refine ⟨s, congrArg (x :: ·) h1, ?_⟩
        rw [List.mem_cons]
        rintro (h | h)
        · exact hx h.symm
        · exact h2 h

theorem beforeZero_length {b : Bytes} (h : (0 : UInt8) ∈ b) : (beforeZero b).length < b.length := by
  obtain ⟨s, h1, _⟩ := beforeZero_split h
  have := congrArg List.length h1
  rw [List.length_append, List.length_cons] at this
  omega

end Silkworm.Stages
