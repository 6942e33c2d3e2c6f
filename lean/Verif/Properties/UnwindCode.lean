import Verif.Stages.CodeLemmas
import Verif.Properties.HashState

/-!
# C53 and C96: the code hashes of contracts when the execution stage and the hashed state are unwound
-/

namespace Silkworm.Properties

open Silkworm.Db Silkworm.Spec Silkworm.Stages

/-- C53 for code hashes: the code hash of an incarnation stays unless a record that is undone is of an earlier incarnation of
the account. -/
theorem c53_code_kept (db db' : Database) (p n : Nat) (hf : ChangeSetsFit db)
    (hp : getStageProgress db (ascii "Execution") = .ok p) (h0 : 0 < n) (hn : n < p)
    (h : unwindExecution db n = .ok (.success, db'))
    (hblock : (∃ e ∈ db.accountChangeSet, recordBlock e = n) ∨ ∀ e ∈ db.accountChangeSet, n < recordBlock e)
    (a : Bytes) (ha : a.length = 20) (i : Nat) (hi : i < 2 ^ 64)
    (hk : ∀ e ∈ db.accountChangeSet, n < recordBlock e → e.2.take 20 = a → e.2.drop 20 ≠ [] →
      ∀ x, decodeAccountFromStorage (e.2.drop 20) = .ok x → i ≤ x.incarnation) :
    stored db'.plainContractCode (a ++ beFixed 8 i) = stored db.plainContractCode (a ++ beFixed 8 i) := by
  obtain ⟨q, r, hq, hr, hdb⟩ := unwind_parts hp h0 hn h
  rw [walkCollect_fold n _ (fun e he => by rw [hf.accounts.2 e (List.mem_reverse.mp he)])] at hq
  rw [walkCollect_fold n _ (fun e he => by rw [hf.storage.2 e (List.mem_reverse.mp he)]; decide)] at hr
  have hmem : ∀ e ∈ db.accountChangeSet.reverse.takeWhile (fun e => decide (recordBlock e ≠ n)),
      e ∈ db.accountChangeSet ∧ n < recordBlock e := by
    intro e he
    have := List.mem_reverse.mpr he
    rw [undone_filter (ordered_blocks hf.accounts.1 fun e he => by rw [hf.accounts.2 e he]) hblock] at this
    exact ⟨(List.mem_filter.mp this).1, by simpa using (List.mem_filter.mp this).2⟩
  have hl : ∀ e ∈ db.accountChangeSet.reverse.takeWhile (fun e => decide (recordBlock e ≠ n)), e.1.length = 8 :=
    fun e he => hf.accounts.2 e (hmem e he).1
  have hs := fold_codes_kept a ha i (by simpa using hi) _ hl (fun e he => hk e (hmem e he).1 (hmem e he).2) _ _ hf.state hf.code hq
  obtain ⟨q1, _⟩ := fold_codes_sublist _ hl _ _ hf.state hq
  obtain ⟨_, r2, _, _⟩ := fold_slots (List.replicate 28 0) List.length_replicate _
    (fun e he => hf.storage.2 e (List.mem_reverse.mp ((List.takeWhile_sublist _).subset he))) _ _ q1 hr
  rw [hdb]
  dsimp only
  rw [r2, hs]

/-- C53 for code hashes: if the latest record of an account is of an earlier incarnation than the account has now, the code
hashes of the incarnations in between and of the current one are removed. -/
theorem c53_code_removed (db db' : Database) (p n : Nat) (hf : ChangeSetsFit db)
    (hp : getStageProgress db (ascii "Execution") = .ok p) (h0 : 0 < n) (hn : n < p)
    (h : unwindExecution db n = .ok (.success, db')) (t u : Table) (e : Bytes × Bytes)
    (ht : db.accountChangeSet = t ++ e :: u) (hlater : n < recordBlock e) (ha : (e.2.take 20).length = 20)
    (hlatest : ∀ f ∈ u, f.2.take 20 ≠ e.2.take 20)
    (hv : e.2.drop 20 ≠ []) (x : Account) (hx : decodeAccountFromStorage (e.2.drop 20) = .ok x) (w : Bytes) (c : Nat)
    (hw : db.plainState.find (e.2.take 20) = some (e.2.take 20, w)) (hc : extractIncarnation w = .ok c)
    (i : Nat) (hxi : x.incarnation < i) (hic : i ≤ c) :
    stored db'.plainContractCode (e.2.take 20 ++ beFixed 8 i) = [] := by
  obtain ⟨q, r, hq, hr, hdb⟩ := unwind_parts hp h0 hn h
  rw [walkCollect_fold n _ (fun e he => by rw [hf.accounts.2 e (List.mem_reverse.mp he)])] at hq
  rw [walkCollect_fold n _ (fun e he => by rw [hf.storage.2 e (List.mem_reverse.mp he)]; decide)] at hr
  have hord := ordered_blocks hf.accounts.1 fun e he => by rw [hf.accounts.2 e he]
  have hl : ∀ e ∈ db.accountChangeSet.reverse.takeWhile (fun e => decide (recordBlock e ≠ n)), e.1.length = 8 :=
    fun e he => hf.accounts.2 e (List.mem_reverse.mp ((List.takeWhile_sublist _).subset he))
  have hsplit : db.accountChangeSet.reverse.takeWhile (fun e => decide (recordBlock e ≠ n)) =
      u.reverse ++ e :: t.reverse.takeWhile (fun e => decide (recordBlock e ≠ n)) := by
    rw [ht] at hord ⊢
    rw [List.reverse_append, List.reverse_cons, List.append_assoc, List.singleton_append]
    have hu : ∀ f ∈ u, n < recordBlock f := by
      intro f hf
      have := (List.pairwise_cons.mp (List.pairwise_append.mp hord).2.1).1 f hf
      omega
    rw [List.takeWhile_append_of_pos (fun f hf => by
      have := hu f (List.mem_reverse.mp hf)
      rw [decide_eq_true_eq]; omega), List.takeWhile_cons, decide_eq_true (by omega), if_pos rfl]
  obtain ⟨q1, _⟩ := fold_codes_sublist _ hl _ _ hf.state hq
  obtain ⟨_, r2, _, _⟩ := fold_slots (List.replicate 28 0) List.length_replicate _
    (fun e he => hf.storage.2 e (List.mem_reverse.mp ((List.takeWhile_sublist _).subset he))) _ _ q1 hr
  rw [hsplit] at hl hq
  rw [hdb]
  dsimp only
  rw [r2]
  exact fold_codes_erased _ ha i (Nat.lt_of_le_of_lt hic (extractIncarnation_lt hc)) e rfl hv x hx hxi u.reverse _ hl
    (fun f hf => hlatest f (List.mem_reverse.mp hf)) w c hc hic _ _ hf.state hf.code hw hq

/-- A contract that was destroyed and created anew, and changed in block five when it was of incarnation one. -/
def exRecreated : Database :=
  { plainState := [(exAddr 1, ({ incarnation := 3, codeHash := exWord 7 } : Account).encodeForStorage)]
    plainContractCode := [(exAddr 1 ++ beFixed 8 1, exWord 1), (exAddr 1 ++ beFixed 8 2, exWord 2), (exAddr 1 ++ beFixed 8 3, exWord 3)]
    accountChangeSet := [(beFixed 8 5, exAddr 1 ++ ({ incarnation := 1 } : Account).encodeForStorage)]
    stageProgress := [(ascii "Execution", beFixed 8 6)] }

theorem exRecreated_fits : ChangeSetsFit exRecreated := by
  constructor <;> decide +kernel

/-- Unwinding it leaves the code hash of the first incarnation. -/
theorem exRecreated_unwinds : ∃ db', unwindExecution exRecreated 4 = .ok (.success, db') := by
  have h : (match unwindExecution exRecreated 4 with | .ok (.success, _) => true | _ => false) = true := by decide +kernel
  split at h
  · rename_i db' h1; exact ⟨db', h1⟩
  · cases h

example : ∃ db', unwindExecution exRecreated 4 = .ok (.success, db') ∧
    stored db'.plainContractCode (exAddr 1 ++ beFixed 8 1) = [exWord 1] ∧
    stored db'.plainContractCode (exAddr 1 ++ beFixed 8 2) = [] ∧
    stored db'.plainContractCode (exAddr 1 ++ beFixed 8 3) = [] := by
  obtain ⟨db', h1⟩ := exRecreated_unwinds
  have hr : ∀ i, 1 < i → i ≤ 3 → stored db'.plainContractCode (exAddr 1 ++ beFixed 8 i) = [] := fun i i1 i2 =>
    c53_code_removed exRecreated db' 6 4 exRecreated_fits (by decide +kernel) (by decide) (by decide) h1 [] []
      (beFixed 8 5, exAddr 1 ++ ({ incarnation := 1 } : Account).encodeForStorage) rfl (by decide +kernel) (by decide +kernel)
      (fun f hf => absurd hf (by simp)) (by decide +kernel) { incarnation := 1 } (by decide +kernel)
      (({ incarnation := 3, codeHash := exWord 7 } : Account).encodeForStorage) 3 (by decide +kernel) (by decide +kernel) i i1 i2
  refine ⟨db', h1, ?_, hr 2 (by decide) (by decide), hr 3 (by decide) (by decide)⟩
  rw [c53_code_kept exRecreated db' 6 4 exRecreated_fits (by decide +kernel) (by decide) (by decide) h1 (.inr (by decide +kernel))
    (exAddr 1) (by decide +kernel) 1 (by decide) (fun e he _ _ _ x hx => by
      have he := List.mem_singleton.mp he
      rw [he] at hx
      have : decodeAccountFromStorage ((beFixed 8 5, exAddr 1 ++ ({ incarnation := 1 } : Account).encodeForStorage).2.drop 20) =
        .ok { incarnation := 1 } := by decide +kernel
      rw [← Outcome.ok.inj (this.symm.trans hx)])]
  decide +kernel

/-- C96 for code hashes: what is stored under the hashed key of the current incarnation of a changed contract is removed,
everything else stays. -/
theorem c96_code (keccak : Bytes → Bytes) (db db' : Database) (n : Nat) (hf : ChangesFit db) (hb : n + 1 < 2 ^ 64)
    (h : unwindHashState keccak n db = .ok (.success, db')) (k : Bytes) (h1 : (stored db.hashedCodeHash k).length ≤ 1) :
    ((∃ a w i, AccountChanged db n a ∧ db.plainState.find a = some (a, w) ∧ extractIncarnation w = .ok i ∧ 0 < i ∧
        k = keccak a ++ beFixed 8 i) → stored db'.hashedCodeHash k = []) ∧
    ((¬ ∃ a w i, AccountChanged db n a ∧ db.plainState.find a = some (a, w) ∧ extractIncarnation w = .ok i ∧ 0 < i ∧
        k = keccak a ++ beFixed 8 i) → stored db'.hashedCodeHash k = stored db.hashedCodeHash k) := by
  have hcode : db'.hashedCodeHash = erases (codeKeys keccak db.plainState
      (db.accountChangeSet.filter fun e => decide (n < recordBlock e))) db.hashedCodeHash := by
    unfold unwindHashState at h
    cases hg : getStageProgress db (ascii "HashState") with
    | err e => rw [hg] at h; cases h
    | ub => rw [hg] at h; cases h
    | ok p =>
      simp only [hg, liftDb, Outcome.ok_bind] at h
      by_cases hn : p ≤ n
      · rw [if_pos hn] at h; cases h
      · rw [if_neg hn] at h
        unfold hashStateUnwind at h
        rw [Nat.mod_eq_of_lt hb] at h
        simp only [show blockKey (n + 1) = beFixed 8 (n + 1) from rfl] at h
        rw [fromLowerBound_later hf.sets.accounts.1 (fun e he => Nat.le_of_eq (hf.sets.accounts.2 e he).symm) hb,
          fromLowerBound_later hf.sets.storage.1 (fun e he => by rw [hf.sets.storage.2 e he]; decide) hb] at h
        have hacc : ∀ e ∈ db.accountChangeSet.filter fun e => decide (n < recordBlock e), e.1.length = 8 ∧ 20 ≤ e.2.length :=
          fun e he => ⟨hf.sets.accounts.2 e (List.mem_filter.mp he).1, hf.accounts e (List.mem_filter.mp he).1⟩
        have hsto : ∀ e ∈ db.storageChangeSet.filter fun e => decide (n < recordBlock e), e.1.length = 36 ∧ 32 ≤ e.2.length :=
          fun e he => ⟨hf.sets.storage.2 e (List.mem_filter.mp he).1, hf.storage e (List.mem_filter.mp he).1⟩
        rw [walkChanges_accounts _ _ hacc, unwindAccounts_fold, walkChanges_slots _ _ hsto, unwindSlots_fold keccak _ hsto,
          walkChanges_accounts _ _ hacc] at h
        by_cases hz : ∀ e ∈ db.accountChangeSet.filter (fun e => decide (n < recordBlock e)), (0 : UInt8) ∈ keccak (e.2.take 20)
        case neg => rw [if_neg hz] at h; cases h
        rw [if_pos hz] at h
        simp only [Outcome.ok_bind] at h
        cases hc : List.foldlM (fun tg e => unwindHashedCode keccak db.plainState tg (e.2.take 20)) db.hashedCodeHash
            (db.accountChangeSet.filter fun e => decide (n < recordBlock e)) with
        | err e => rw [hc] at h; cases h
        | ub => rw [hc] at h; cases h
        | ok code =>
          rw [hc] at h
          simp only [Outcome.ok_bind] at h
          rw [setStageProgress_known _ (name := ascii "HashState") (by decide +kernel)] at h
          have := ((Prod.mk.inj (Outcome.ok.inj h)).2).symm
          rw [this]
          exact unwindCodes_fold keccak db.plainState _ _ _ hc
  rw [hcode, erases_stored _ _ _ h1]
  have hiff : k ∈ codeKeys keccak db.plainState (db.accountChangeSet.filter fun e => decide (n < recordBlock e)) ↔
      ∃ a w i, AccountChanged db n a ∧ db.plainState.find a = some (a, w) ∧ extractIncarnation w = .ok i ∧ 0 < i ∧
        k = keccak a ++ beFixed 8 i := by
    unfold codeKeys
    rw [List.mem_filterMap]
    constructor
    · rintro ⟨e, he, hk⟩
      obtain ⟨he, hl⟩ := List.mem_filter.mp he
      cases hfi : db.plainState.find (e.2.take 20) with
      | none => rw [hfi] at hk; cases hk
      | some x =>
        rw [hfi] at hk
        dsimp only at hk
        cases hx : extractIncarnation x.2 with
        | err _ => rw [hx] at hk; cases hk
        | ub => rw [hx] at hk; cases hk
        | ok i =>
          rw [hx] at hk
          dsimp only at hk
          by_cases h0 : i = 0
          · rw [if_pos h0] at hk; cases hk
          · rw [if_neg h0] at hk
            have hx1 : x.1 = e.2.take 20 := by simpa using List.find?_some hfi
            exact ⟨e.2.take 20, x.2, i, ⟨e, he, by simpa using hl, rfl⟩, by rw [hfi, ← hx1], hx, by omega, (Option.some.inj hk).symm⟩
    · rintro ⟨a, w, i, ⟨e, he, hl, rfl⟩, hfi, hx, h0, rfl⟩
      refine ⟨e, List.mem_filter.mpr ⟨he, by simpa using hl⟩, ?_⟩
      rw [hfi]
      dsimp only
      rw [hx]
      dsimp only
      rw [if_neg (by omega)]
  exact ⟨fun hh => by rw [if_pos (hiff.mpr hh)], fun hh => by rw [if_neg (fun hc => hh (hiff.mp hc))]⟩

/-- A contract that block five changed, with the code hashes of two incarnations. -/
def exHashedCode : Database :=
  { plainState := [(exAddr 1, ({ incarnation := 2, codeHash := exWord 7 } : Account).encodeForStorage)]
    accountChangeSet := [(beFixed 8 5, exAddr 1 ++ ({ incarnation := 1 } : Account).encodeForStorage)]
    hashedCodeHash := [(exHash (exAddr 1) ++ beFixed 8 1, exWord 1), (exHash (exAddr 1) ++ beFixed 8 2, exWord 2)]
    stageProgress := [(ascii "HashState", beFixed 8 6)] }

theorem exHashedCode_fits : ChangesFit exHashedCode := by
  refine ⟨⟨?_, ?_, ?_, ?_⟩, ?_, ?_, ?_⟩ <;> decide +kernel

theorem exHashedCode_unwinds : ∃ db', unwindHashState exHash 4 exHashedCode = .ok (.success, db') := by
  have h : (match unwindHashState exHash 4 exHashedCode with | .ok (.success, _) => true | _ => false) = true := by decide +kernel
  split at h
  · rename_i db' h1; exact ⟨db', h1⟩
  · cases h

example : ∃ db', unwindHashState exHash 4 exHashedCode = .ok (.success, db') ∧
    stored db'.hashedCodeHash (exHash (exAddr 1) ++ beFixed 8 2) = [] := by
  obtain ⟨db', h1⟩ := exHashedCode_unwinds
  refine ⟨db', h1, (c96_code exHash exHashedCode db' 4 exHashedCode_fits (by decide) h1 _ (by decide +kernel)).1
    ⟨exAddr 1, ({ incarnation := 2, codeHash := exWord 7 } : Account).encodeForStorage, 2,
      ⟨_, List.mem_cons_self, by decide +kernel, by decide +kernel⟩, by decide +kernel, by decide +kernel, by decide, rfl⟩⟩

/-- The code hash of the earlier incarnation stays. -/
example : (match unwindHashState exHash 4 exHashedCode with
    | .ok (_, db') => stored db'.hashedCodeHash (exHash (exAddr 1) ++ beFixed 8 1)
    | _ => []) = [exWord 1] := by decide +kernel

end Silkworm.Properties
