import Verif.Stages.ExecutionLemmas
import Verif.Properties.DbBlocks
import Verif.Properties.DbState

/-!
# C52, C90, C91: executing ranges of blocks
-/

namespace Silkworm.Properties

open Silkworm.Db Silkworm.Spec Silkworm.Stages Silkworm.State

/-! ## C52 -/

/-- C52 as stated: a successful run executes every block of the range exactly once and in order, whatever the batch size; the
transaction is taken to be one that can be written. -/
def C52_statement : Prop :=
  ∀ (exec : BlockExecutor) (limit fuel : Nat) (wr : Bool) (db db' : Database) (n last : Nat) (executed : List Nat),
    executeAll exec limit false wr last fuel db n = .ok (.success, db', executed) → executed = List.range' n (last + 1 - n)

/-- C52 fails whenever the batch fills: `execute` returns without having moved on, and if the run ends at all the block that
filled the batch has been executed at least twice. -/
theorem c52_repeats_violated (exec : BlockExecutor) (limit : Nat) (wr : Bool) (db : Database) (n k last : Nat) (b : Db.Buffer)
    (hnk : n ≤ k) (hk : k ≤ last) (hx : Executes exec wr db n (k + 1) {} b) (hfull : limit ≤ b.batchSize)
    (hbefore : ∀ j, n < j → j ≤ k → ∀ bj, Executes exec wr db n j {} bj → bj.batchSize < limit)
    (fuel : Nat) (r : StageResult × Database × List Nat) (h : executeAll exec limit false wr last fuel db n = .ok r) :
    2 ≤ r.2.2.count k := by
  have hloop := executeLoop_full hx hnk hbefore hfull (last - k)
  rw [show last - k + (k + 1 - n) = last + 1 - n by omega] at hloop
  have hexe : execute exec limit false wr db last n = .ok (.success, k, b.writeToDb db, List.range' n (k + 1 - n)) := by
    unfold execute flush
    rw [hloop]
    simp only [List.length_range', Bool.false_and, Bool.false_eq_true, if_false, Outcome.ok_bind]
    rw [show n + (k + 1 - n - 1) = k by omega]
  have hone : 1 ≤ (List.range' n (k + 1 - n)).count k := by
    rw [Nat.one_le_iff_ne_zero, Ne, List.count_eq_zero, List.mem_range'_1]
    omega
  cases fuel with
  | zero => cases h
  | succ fuel =>
    unfold executeAll at h
    rw [if_pos (by omega), hexe] at h
    simp only [Outcome.ok_bind, ne_eq, not_true_eq_false, if_false] at h
    obtain ⟨q, hq, hr⟩ := Outcome.bind_eq_ok.mp h
    have hr := Outcome.ok.inj hr
    subst hr
    show 2 ≤ (List.range' n (k + 1 - n) ++ q.2.2).count k
    rw [List.count_append]
    suffices h2 : 1 ≤ q.2.2.count k by omega
    cases fuel with
    | zero => cases hq
    | succ fuel =>
      unfold executeAll at hq
      rw [if_pos hk] at hq
      obtain ⟨e, he, hq⟩ := Outcome.bind_eq_ok.mp hq
      have hmem : 1 ≤ e.2.2.2.count k := by
        have hread : ∃ bh, readBlock (b.writeToDb db) k true = .ok (some bh) := by
          rw [readBlock_writeToDb]
          exact hx.read k hnk (Nat.lt_succ_self k)
        obtain ⟨bh, hread⟩ := hread
        unfold execute at he
        cases hl : executeLoop exec limit wr (b.writeToDb db) (last + 1 - k) k {} with
        | ub => rw [hl] at he; cases he
        | err x => exact x.elim
        | ok t =>
          obtain ⟨en, tr, b2⟩ := t
          rw [hl] at he
          obtain ⟨j, rfl, j2, j3, _, j5⟩ := executeLoop_spec limit _ _ _ _ _ _ hl
          have hj : 0 < j ∧ e.2.2.2 = List.range' k j := by
            cases en with
            | thrown x => cases he
            | invalid x => cases he
            | finished =>
              obtain ⟨_, _, he⟩ := Outcome.bind_eq_ok.mp he
              have := Outcome.ok.inj he
              subst this
              have := j5.1
              exact ⟨by omega, rfl⟩
            | full =>
              obtain ⟨_, _, he⟩ := Outcome.bind_eq_ok.mp he
              have := Outcome.ok.inj he
              subst this
              exact ⟨j5.1, rfl⟩
            | notFound =>
              have := Outcome.ok.inj he
              subst this
              refine ⟨?_, rfl⟩
              by_cases h0 : j = 0
              · subst h0
                have h6 := j5.2.1
                rw [Nat.add_zero, hread] at h6
                cases h6
              · omega
          rw [hj.2, Nat.one_le_iff_ne_zero, Ne, List.count_eq_zero, List.mem_range'_1]
          omega
      by_cases hs : e.1 = .success
      · rw [if_neg (by simp [hs])] at hq
        obtain ⟨q', _, hq⟩ := Outcome.bind_eq_ok.mp hq
        have := Outcome.ok.inj hq
        subst this
        show 1 ≤ (e.2.2.2 ++ q'.2.2).count k
        rw [List.count_append]
        omega
      · rw [if_pos hs] at hq
        have := Outcome.ok.inj hq
        subst this
        exact hmem

/-- C52 fails for small batches: if every block fills the batch, the stage executes its first block again and again and never
returns normally. -/
theorem c52_stuck_violated (exec : BlockExecutor) (wr : Bool) (db : Database) (n last : Nat) (hn : n ≤ last)
    (bh : Block × Bytes) (hr : readBlock db n true = .ok (some bh)) (fuel : Nat) (r : StageResult × Database × List Nat) :
    executeAll exec 0 false wr last fuel db n ≠ .ok r := by
  induction fuel generalizing db r with
  | zero => intro h; cases h
  | succ fuel ih =>
    intro h
    unfold executeAll at h
    rw [if_pos hn] at h
    obtain ⟨e, he, h⟩ := Outcome.bind_eq_ok.mp h
    unfold execute at he
    cases hl : executeLoop exec 0 wr db (last + 1 - n) n {} with
    | ub => rw [hl] at he; cases he
    | err x => exact x.elim
    | ok t =>
      obtain ⟨en, tr, b2⟩ := t
      rw [hl] at he
      obtain ⟨j, rfl, j2, j3, j4, j5⟩ := executeLoop_spec 0 _ _ _ _ _ _ hl
      cases en with
      | thrown x => cases he
      | invalid x => cases he
      | finished => have := j5.2 (by have := j5.1; omega); omega
      | notFound =>
        by_cases h0 : j = 0
        · subst h0
          have h6 := j5.2.1
          rw [Nat.add_zero, hr] at h6
          cases h6
        · have := j5.2.2 (by omega)
          omega
      | full =>
        have hj : j = 1 := by
          by_cases h1 : j = 1
          · exact h1
          · have hpos := j5.1
            have hex : ∃ b1, Executes exec wr db n (n + 1) {} b1 := by
              generalize hm : n + j = m at j3
              cases j3 with
              | none => omega
              | block r' v' c' rest' => exact ⟨_, .block r' v' c' (.none _ _)⟩
            obtain ⟨b1, hb1⟩ := hex
            have := j4 1 (by omega) (by omega) b1 hb1
            omega
        subst hj
        have he := Outcome.ok.inj he
        subst he
        dsimp only at h
        rw [if_neg (by simp)] at h
        obtain ⟨q, hq, _⟩ := Outcome.bind_eq_ok.mp h
        exact ih (b2.writeToDb db) hr q hq

/-- C52 fails for the stage as it is called, which opens a read-only transaction: as soon as there is something to write, the
stage ends with an exception and nothing it did is kept. -/
theorem c52_stage_violated (readConfig : Database → Option ChainConfig) (exec : ChainConfig → BlockExecutor) (limit fuel : Nat)
    (db : Database) (config : ChainConfig) (n last : Nat) (b : Db.Buffer) (en : LoopEnd) (executed : List Nat)
    (hc : readConfig db = some config) (hl : getStageProgress db (ascii "Bodies") = .ok last)
    (hn : getStageProgress db (ascii "Execution") = .ok n) (hnl : n ≤ last)
    (hm : migrationHappened db "acc_change_set_dup_sort_18" ∧ migrationHappened db "storage_change_set_dup_sort_22" ∧
      migrationHappened db "tx_table_4")
    (hw : readStorageModeReceipts db = false)
    (hloop : executeLoop (exec config) limit false db (last + 1 - n) n {} = .ok (en, executed, b))
    (hen : en = .finished ∨ en = .full) (hb : b.accountChanges ≠ []) :
    stageExecution readConfig exec limit (fuel + 1) db = .err .readOnly := by
  have hf : flush true b db = .err .readOnly := by
    unfold flush nothingToWrite
    have : b.accountChanges.isEmpty = false := by cases hbb : b.accountChanges with | nil => exact absurd hbb hb | cons _ _ => rfl
    simp [this]
  have hexe : execute (exec config) limit true false db last n = .err .readOnly := by
    unfold execute
    rw [hloop]
    rcases hen with rfl | rfl <;> simp only [hf, Outcome.err_bind]
  unfold stageExecution
  simp only [hl, hn, hw, hm.1, hm.2.1, hm.2.2, liftDb, Outcome.ok_bind, hc, if_pos hnl]
  unfold executeAll
  rw [if_pos hnl, hexe]
  rfl

/-- C52 fails for the stage as it is called, in every case: whatever it reports to have executed, the database is the one it
began with, since nothing is committed. -/
theorem c52_uncommitted_violated (readConfig : Database → Option ChainConfig) (exec : ChainConfig → BlockExecutor)
    (limit fuel : Nat) (db : Database) (r : StageResult × Database × List Nat)
    (h : stageExecution readConfig exec limit fuel db = .ok r) : r.2.1 = db := by
  unfold stageExecution at h
  obtain ⟨last, _, h⟩ := Outcome.bind_eq_ok.mp h
  obtain ⟨n, _, h⟩ := Outcome.bind_eq_ok.mp h
  dsimp only at h
  split at h
  · cases h
  split at h
  · cases h
  split at h
  · cases h
  split at h
  · split at h
    · cases h
    · obtain ⟨q, _, h⟩ := Outcome.bind_eq_ok.mp h
      rw [← Outcome.ok.inj h]
  · rw [← Outcome.ok.inj h]

/-- The stage runs only on a database that was brought to the format it writes: the changes of accounts and of storage as
multi-value tables, the transactions in a table of their own and, where receipts are kept, the receipts in CBOR and the logs
apart from them. -/
theorem c52_migrations (readConfig : Database → Option ChainConfig) (exec : ChainConfig → BlockExecutor) (limit fuel : Nat)
    (db : Database) (r : StageResult × Database × List Nat) (h : stageExecution readConfig exec limit fuel db = .ok r) :
    (∀ m ∈ ["acc_change_set_dup_sort_18", "storage_change_set_dup_sort_22", "tx_table_4"],
      ∃ v, (ascii m, v) ∈ db.migrations) ∧
    (db.databaseInfo.find (ascii "smReceipts") = some (ascii "smReceipts", [1]) →
      ∀ m ∈ ["receipts_cbor_encode", "receipts_store_logs_separately"], ∃ v, (ascii m, v) ∈ db.migrations) := by
  have key : ∀ m, migrationHappened db m = true → ∃ v, (ascii m, v) ∈ db.migrations := by
    intro m hm
    unfold migrationHappened at hm
    obtain ⟨e, he⟩ := Option.isSome_iff_exists.mp hm
    have h1 : e.1 = ascii m := by simpa using List.find?_some he
    exact ⟨e.2, h1 ▸ List.mem_of_find?_eq_some he⟩
  unfold stageExecution at h
  obtain ⟨last, _, h⟩ := Outcome.bind_eq_ok.mp h
  obtain ⟨n, _, h⟩ := Outcome.bind_eq_ok.mp h
  dsimp only at h
  split at h
  · cases h
  rename_i h1
  split at h
  · cases h
  rename_i h2
  split at h
  · cases h
  rename_i h3
  simp only [Bool.and_eq_true, Bool.or_eq_true, Bool.not_eq_true', not_and, not_or, Bool.not_eq_false] at h1 h2 h3
  constructor
  · intro m hm
    simp only [List.mem_cons, List.not_mem_nil, or_false] at hm
    rcases hm with rfl | rfl | rfl
    · exact key _ h2.1
    · exact key _ h2.2
    · exact key _ h3
  · intro hw m hm
    have h1 := h1 (by unfold readStorageModeReceipts; rw [hw]; rfl)
    simp only [List.mem_cons, List.not_mem_nil, or_false] at hm
    rcases hm with rfl | rfl
    · exact key _ h1.1
    · exact key _ h1.2

/-- C52 where the code has it right: a range that does not fill the batch is executed once and in order, and the database is
what writing the buffer makes of it. Missing: batches that fill. -/
theorem c52_once_partial (exec : BlockExecutor) (limit fuel : Nat) (wr : Bool) (db : Database) (n last : Nat) (b : Db.Buffer)
    (hx : Executes exec wr db n (last + 1) {} b)
    (hbefore : ∀ j, n < j → j ≤ last + 1 → ∀ bj, Executes exec wr db n j {} bj → bj.batchSize < limit) (hn : n ≤ last) :
    executeAll exec limit false wr last (fuel + 2) db n = .ok (.success, b.writeToDb db, List.range' n (last + 1 - n)) := by
  have hloop := executeLoop_executes hx hbefore 0
  rw [Nat.zero_add] at hloop
  have hexe : execute exec limit false wr db last n = .ok (.success, last + 1, b.writeToDb db, List.range' n (last + 1 - n)) := by
    unfold execute flush
    rw [hloop]
    simp only [executeLoop, List.append_nil, List.length_range', Bool.false_and, Bool.false_eq_true, if_false, Outcome.ok_bind]
    rw [show n + (last + 1 - n) = last + 1 by omega]
  unfold executeAll
  rw [if_pos hn, hexe]
  simp only [Outcome.ok_bind, ne_eq, not_true_eq_false, if_false]
  unfold executeAll
  rw [if_neg (by omega)]
  simp

/-- An executor that creates an account if there is none yet. -/
def exExecutor : BlockExecutor := fun db _ block =>
  .ok ([], none, .beginBlock block.header.number ::
    (if db.plainState.isEmpty then [.updateAccount (exAddr 1) none (some { balance := 7 })] else []))

/-- What is returned and executed. -/
def exSummary : Outcome StageError (StageResult × Database × List Nat) → Option (StageResult × List Nat)
  | .ok r => some (r.1, r.2.2)
  | _ => none

theorem exSummary_some {o : Outcome StageError (StageResult × Database × List Nat)} {s : StageResult} {l : List Nat}
    (h : exSummary o = some (s, l)) : ∃ db, o = .ok (s, db, l) := by
  cases o with
  | ok r =>
    obtain ⟨rfl, rfl⟩ := Prod.mk.inj (Option.some.inj h)
    exact ⟨r.2.1, rfl⟩
  | err e => cases h
  | ub => cases h

/-- C52 is violated: with a batch limit of one byte block 5 is executed twice. -/
theorem c52_violated : ¬ C52_statement := by
  intro h
  obtain ⟨db', hdb⟩ := exSummary_some (o := executeAll exExecutor 1 false false 5 3 exBlockDb 5) (s := .success) (l := [5, 5])
    (by decide +kernel)
  exact absurd (h exExecutor 1 3 false exBlockDb db' 5 5 [5, 5] hdb) (by decide)

theorem exBlock_read : readBlock exBlockDb 5 true =
    .ok (some (withSenders exBlockStored [List.replicate 20 1, List.replicate 20 2], List.replicate 32 0xaa)) :=
  (c85_read_senders _ _ _ _ _ exBlock_stored).1 _ exBlock_senders rfl

/-- The buffer after block 5. -/
def exAfter : Db.Buffer :=
  ((({} : Db.Buffer).beginBlock exHeader.number).noteAccountChange (exAddr 1) []).setAccount (exAddr 1) (some { balance := 7 })

theorem exExecutes : Executes exExecutor false exBlockDb 5 6 {} exAfter :=
  .block (b1 := exAfter) exBlock_read rfl rfl (.none _ _)

theorem exBefore (limit : Nat) (h : 100 ≤ limit) : ∀ j, 5 < j → j ≤ 6 → ∀ bj, Executes exExecutor false exBlockDb 5 j {} bj →
    bj.batchSize < limit := by
  intro j h1 h2 bj hj
  have : j = 6 := by omega
  subst this
  rw [hj.unique exExecutes]
  exact Nat.lt_of_lt_of_le (by decide +kernel : exAfter.batchSize < 100) h

example (fuel : Nat) (r : StageResult × Database × List Nat)
    (h : executeAll exExecutor 1 false false 5 fuel exBlockDb 5 = .ok r) : 2 ≤ r.2.2.count 5 :=
  c52_repeats_violated exExecutor 1 false exBlockDb 5 5 5 exAfter (by decide) (by decide) exExecutes (by decide +kernel)
    (fun j h1 h2 => by omega) fuel r h
example (fuel : Nat) (r : StageResult × Database × List Nat) : executeAll exExecutor 0 false false 5 fuel exBlockDb 5 ≠ .ok r :=
  c52_stuck_violated exExecutor false exBlockDb 5 5 (by decide) _ exBlock_read fuel r
example (fuel : Nat) : executeAll exExecutor 100 false false 5 (fuel + 2) exBlockDb 5 =
    .ok (.success, exAfter.writeToDb exBlockDb, [5]) :=
  c52_once_partial exExecutor 100 fuel false exBlockDb 5 5 exAfter exExecutes (exBefore 100 (by decide)) (by decide)

/-- A database on which the stage can be called. -/
def exStageDb : Database := { exBlockDb with
  stageProgress := [(ascii "Bodies", beFixed 8 5), (ascii "Execution", beFixed 8 5)]
  migrations := [(ascii "acc_change_set_dup_sort_18", []), (ascii "storage_change_set_dup_sort_22", []), (ascii "tx_table_4", [])] }

example (config : ChainConfig) (fuel : Nat) :
    stageExecution (fun _ => some config) (fun _ => exExecutor) kFlushSize (fuel + 1) exStageDb = .err .readOnly :=
  c52_stage_violated _ _ kFlushSize fuel exStageDb config 5 5 exAfter .finished [5] rfl (by decide +kernel) (by decide +kernel)
    (by decide) (by decide +kernel) (by decide +kernel)
    (executeLoop_executes (exec := exExecutor) (wr := false) (db := exStageDb) (limit := kFlushSize) (n := 5) (m := 6)
      (b := {}) (b' := exAfter) (.block (b1 := exAfter) exBlock_read rfl rfl (.none _ _))
      (fun j h1 h2 bj hj => by
        have : j = 6 := by omega
        subst this
        rw [hj.unique (.block (b1 := exAfter) exBlock_read rfl rfl (.none _ _))]
        exact (by decide +kernel : exAfter.batchSize < kFlushSize)) 0) (.inl rfl) (by decide +kernel)

/-- A database on which there is nothing to do. -/
def exStageDone : Database := { exStageDb with
  stageProgress := [(ascii "Bodies", beFixed 8 5), (ascii "Execution", beFixed 8 6)] }

example (config : ChainConfig) (fuel : Nat) :
    stageExecution (fun _ => some config) (fun _ => exExecutor) kFlushSize fuel exStageDone = .ok (.success, exStageDone, []) := by
  unfold stageExecution
  rw [show getStageProgress exStageDone (ascii "Bodies") = .ok 5 by decide +kernel,
    show getStageProgress exStageDone (ascii "Execution") = .ok 6 by decide +kernel]
  rfl
/-- Without the last of the migrations the stage refuses. -/
example (config : ChainConfig) (fuel : Nat) :
    stageExecution (fun _ => some config) (fun _ => exExecutor) kFlushSize fuel
      { exStageDone with migrations := exStageDone.migrations.take 2 } = .err .runtime := by
  unfold stageExecution
  rw [show getStageProgress { exStageDone with migrations := exStageDone.migrations.take 2 } (ascii "Bodies") = .ok 5 by
      decide +kernel,
    show getStageProgress { exStageDone with migrations := exStageDone.migrations.take 2 } (ascii "Execution") = .ok 6 by
      decide +kernel]
  rfl

/-! ## C90 -/

/-- C90: on success the blocks from `start` to the one reported as last have been executed, each exactly once and in order;
this is the whole range unless the batch filled, and it did not fill before; the tables are what writing the buffer makes of
them. -/
theorem c90_success (exec : BlockExecutor) (db : Database) (start maxBlock batchSize : Nat) (wr : Bool) (last : Nat)
    (r : ExecuteResult) (h : executeBlocks (some exec) db start maxBlock batchSize wr last = .ok r) (hs : r.status = .success)
    (hr : start ≤ maxBlock) :
    ∃ b, start ≤ r.last ∧ r.last ≤ maxBlock ∧ r.executed = List.range' start (r.last + 1 - start) ∧
      Executes exec wr db start (r.last + 1) {} b ∧ r.db = b.writeToDb db ∧ (r.last = maxBlock ∨ batchSize ≤ b.batchSize) ∧
      ∀ k, start ≤ k → k < r.last → ∀ bk, Executes exec wr db start (k + 1) {} bk → bk.batchSize < batchSize := by
  unfold executeBlocks at h
  dsimp only at h
  cases hl : executeLoop exec batchSize wr db (maxBlock + 1 - start) start {} with
  | ub => rw [hl] at h; cases h
  | err x => exact x.elim
  | ok t =>
    obtain ⟨en, tr, b⟩ := t
    rw [hl] at h
    obtain ⟨j, rfl, j2, j3, j4, j5⟩ := executeLoop_spec batchSize _ _ _ _ _ _ hl
    have key : 0 < j → (j = maxBlock + 1 - start ∨ batchSize ≤ b.batchSize) →
        r = ⟨.success, (List.range' start j).getLast?.getD last, b.writeToDb db, List.range' start j⟩ →
        ∃ b, start ≤ r.last ∧ r.last ≤ maxBlock ∧ r.executed = List.range' start (r.last + 1 - start) ∧
          Executes exec wr db start (r.last + 1) {} b ∧ r.db = b.writeToDb db ∧ (r.last = maxBlock ∨ batchSize ≤ b.batchSize) ∧
          ∀ k, start ≤ k → k < r.last → ∀ bk, Executes exec wr db start (k + 1) {} bk → bk.batchSize < batchSize := by
      intro hj hor hres
      have hlast : r.last = start + (j - 1) := by
        rw [hres, List.getLast?_range', if_neg (by omega)]
        show start + j - 1 = start + (j - 1)
        omega
      refine ⟨b, by omega, by omega, ?_, ?_, by rw [hres], ?_, ?_⟩
      · rw [hlast, hres, show start + (j - 1) + 1 - start = j by omega]
      · rw [hlast, show start + (j - 1) + 1 = start + j by omega]; exact j3
      · rcases hor with h0 | h0
        · exact .inl (by omega)
        · exact .inr h0
      · intro k k1 k2 bk hk
        refine j4 (k + 1 - start) (by omega) (by omega) bk ?_
        rw [show start + (k + 1 - start) = k + 1 by omega]
        exact hk
    cases en with
    | finished => exact key (by have := j5.1; omega) (.inl j5.1) (Outcome.ok.inj h).symm
    | full => exact key j5.1 (.inr j5.2) (Outcome.ok.inj h).symm
    | notFound => rw [← Outcome.ok.inj h] at hs; cases hs
    | invalid x => rw [← Outcome.ok.inj h] at hs; cases hs
    | thrown x =>
      rw [← Outcome.ok.inj h] at hs
      cases x <;> cases hs

/-- C90: a batch size of zero executes one block. -/
theorem c90_single (exec : BlockExecutor) (db : Database) (start maxBlock : Nat) (wr : Bool) (last : Nat)
    (r : ExecuteResult) (h : executeBlocks (some exec) db start maxBlock 0 wr last = .ok r) (hs : r.status = .success)
    (hr : start ≤ maxBlock) : r.last = start ∧ r.executed = [start] := by
  obtain ⟨b, h1, h2, h3, h4, _, _, h7⟩ := c90_success exec db start maxBlock 0 wr last r h hs hr
  have hl : r.last = start := by
    by_cases hl : r.last = start
    · exact hl
    · have hex : ∃ b1, Executes exec wr db start (start + 1) {} b1 := by
        generalize hm : r.last + 1 = m at h4
        cases h4 with
        | none => omega
        | block r' v' c' rest' => exact ⟨_, .block r' v' c' (.none _ _)⟩
      obtain ⟨b1, hb1⟩ := hex
      have := h7 start (Nat.le_refl _) (by omega) b1 hb1
      omega
  rw [hl, show start + 1 - start = 1 by omega] at h3
  exact ⟨hl, h3⟩

/-- C90: on failure nothing is written; the blocks before the one that failed have been executed and the last of them is
reported, if there is one; the status says what is wrong with the next block. -/
theorem c90_failure (exec : BlockExecutor) (db : Database) (start maxBlock batchSize : Nat) (wr : Bool) (last : Nat)
    (r : ExecuteResult) (h : executeBlocks (some exec) db start maxBlock batchSize wr last = .ok r) (hs : r.status ≠ .success) :
    r.db = db ∧ ∃ next b, start ≤ next ∧ next ≤ maxBlock ∧ r.executed = List.range' start (next - start) ∧
      r.last = (if next = start then last else next - 1) ∧ Executes exec wr db start next {} b ∧
      ((r.status = .blockNotFound ∧ readBlock db next true = .ok none) ∨
       (r.status = .invalidBlock ∧ ∃ block hash receipts error calls, readBlock db next true = .ok (some (block, hash)) ∧
          exec db b block = .ok (receipts, some error, calls)) ∨
       ∃ e, readBlock db next true = .err e ∧ r.status ≠ .blockNotFound ∧ r.status ≠ .invalidBlock ∧
          (e = .missingSenders → r.status = .missingSenders) ∧ ∀ x, e = .rlp x → r.status = .decodingError) := by
  unfold executeBlocks at h
  dsimp only at h
  cases hl : executeLoop exec batchSize wr db (maxBlock + 1 - start) start {} with
  | ub => rw [hl] at h; cases h
  | err x => exact x.elim
  | ok t =>
    obtain ⟨en, tr, b⟩ := t
    rw [hl] at h
    obtain ⟨j, rfl, j2, j3, j4, j5⟩ := executeLoop_spec batchSize _ _ _ _ _ _ hl
    have hlast : (List.range' start j).getLast?.getD last = if start + j = start then last else start + j - 1 := by
      rw [List.getLast?_range']
      by_cases h0 : j = 0
      · subst h0; simp
      · rw [if_neg h0, if_neg (by omega)]
        rfl
    have hex : List.range' start j = List.range' start (start + j - start) := by rw [show start + j - start = j by omega]
    cases en with
    | finished => rw [← Outcome.ok.inj h] at hs; exact absurd rfl hs
    | full => rw [← Outcome.ok.inj h] at hs; exact absurd rfl hs
    | notFound =>
      have hj := j5.1
      have := Outcome.ok.inj h
      subst this
      exact ⟨rfl, start + j, b, by omega, by omega, hex, hlast, j3, .inl ⟨rfl, j5.2.1⟩⟩
    | invalid x =>
      have hj := j5.1
      obtain ⟨bh, rs, cs, k1, k2⟩ := j5.2.2
      have := Outcome.ok.inj h
      subst this
      exact ⟨rfl, start + j, b, by omega, by omega, hex, hlast, j3, .inr (.inl ⟨rfl, bh.1, bh.2, rs, x, cs, k1, k2⟩)⟩
    | thrown x =>
      have hj := j5.1
      have := Outcome.ok.inj h
      subst this
      refine ⟨rfl, start + j, b, by omega, by omega, hex, hlast, j3, .inr (.inr ⟨x, j5.2.1, ?_, ?_, ?_, ?_⟩)⟩
      · cases x <;> simp [statusOf]
      · cases x <;> simp [statusOf]
      · rintro rfl; rfl
      · rintro y rfl; rfl

/-- C90: blocks that can be executed are executed: up to the one that fills the batch, or all of them. -/
theorem c90_runs (exec : BlockExecutor) (db : Database) (start maxBlock batchSize : Nat) (wr : Bool) (last m : Nat) (b : Db.Buffer)
    (h1 : start ≤ m) (h2 : m ≤ maxBlock) (hx : Executes exec wr db start (m + 1) {} b)
    (hbefore : ∀ k, start ≤ k → k < m → ∀ bk, Executes exec wr db start (k + 1) {} bk → bk.batchSize < batchSize)
    (hend : m = maxBlock ∨ batchSize ≤ b.batchSize) :
    executeBlocks (some exec) db start maxBlock batchSize wr last =
      .ok ⟨.success, m, b.writeToDb db, List.range' start (m + 1 - start)⟩ := by
  have hlast : (List.range' start (m + 1 - start)).getLast?.getD last = m := by
    rw [List.getLast?_range', if_neg (by omega)]
    simp; omega
  have hpre : ∀ j, start < j → j ≤ m → ∀ bj, Executes exec wr db start j {} bj → bj.batchSize < batchSize := by
    intro j j1 j2 bj hj
    refine hbefore (j - 1) (by omega) (by omega) bj ?_
    rw [show j - 1 + 1 = j by omega]
    exact hj
  by_cases hf : batchSize ≤ b.batchSize
  · have := executeLoop_full hx h1 hpre hf (maxBlock - m)
    rw [show maxBlock - m + (m + 1 - start) = maxBlock + 1 - start by omega] at this
    unfold executeBlocks
    simp only [this, hlast]
  · have hm : m = maxBlock := hend.resolve_right hf
    subst hm
    have := executeLoop_executes (limit := batchSize) hx (fun j j1 j2 bj hj => by
      by_cases hj2 : j ≤ m
      · exact hpre j j1 hj2 bj hj
      · have : j = m + 1 := by omega
        subst this
        rw [hj.unique hx]
        omega) 0
    rw [Nat.zero_add] at this
    unfold executeBlocks
    simp only [this, executeLoop, List.append_nil, hlast]

/-- C90: without a chain configuration nothing happens. -/
theorem c90_unknown_chain (db : Database) (start maxBlock batchSize : Nat) (wr : Bool) (last : Nat) :
    executeBlocks none db start maxBlock batchSize wr last = .ok ⟨.unknownChainId, last, db, []⟩ := rfl

example : executeBlocks (some exExecutor) exBlockDb 5 5 100 false 4 = .ok ⟨.success, 5, exAfter.writeToDb exBlockDb, [5]⟩ :=
  c90_runs exExecutor exBlockDb 5 5 100 false 4 5 exAfter (by decide) (by decide) exExecutes (fun k h1 h2 => by omega) (.inl rfl)
example : executeBlocks (some exExecutor) exBlockDb 5 9 0 false 4 = .ok ⟨.success, 5, exAfter.writeToDb exBlockDb, [5]⟩ :=
  c90_runs exExecutor exBlockDb 5 9 0 false 4 5 exAfter (by decide) (by decide) exExecutes (fun k h1 h2 => by omega)
    (.inr (Nat.zero_le _))
example (r : ExecuteResult) (h : executeBlocks (some exExecutor) exBlockDb 6 9 100 false 4 = .ok r) (hs : r.status ≠ .success) :
    r.db = exBlockDb := (c90_failure exExecutor exBlockDb 6 9 100 false 4 r h hs).1

/-! ## C91 -/

/-- C91 as stated: if the command ends without error, then all blocks from the old to the new progress have been executed and
their results are in the database. -/
def C91_statement : Prop :=
  ∀ (readConfig : Database → Option ChainConfig) (exec : BlockExecutor) (batchSize toBlock : Nat) (db db' : Database)
    (executed : List Nat) (p q : Nat), p < 2 ^ 63 → getStageProgress db (ascii "Execution") = .ok p →
    executeCommand readConfig (fun _ => some exec) batchSize toBlock db = .ok (.success, db', executed) →
    getStageProgress db' (ascii "Execution") = .ok q → Rounds exec (readStorageModeReceipts db) db (p + 1) (q + 1) db'

theorem progress_stored (db : Database) (n : Nat) : setStageProgress db (ascii "Execution") n =
    .ok { db with stageProgress := db.stageProgress.upsert (ascii "Execution") (beFixed 8 n) } :=
  setStageProgress_known db (name := ascii "Execution") (by decide +kernel) n

/-- C91 fails whenever the chain ends before the batch is full, as it does by default, where the last block to execute is
2^64 - 1: the blocks are executed, their results are thrown away, and all that is stored is that they have been executed. -/
theorem c91_lost_violated (exec : BlockExecutor) (batchSize toBlock rounds : Nat) (wr : Bool) (db : Database) (n q p : Nat)
    (b : Db.Buffer) (h1 : n ≤ q) (h2 : q < toBlock) (hx : Executes exec wr db n (q + 1) {} b)
    (hbefore : ∀ k, n ≤ k → k ≤ q → ∀ bk, Executes exec wr db n (k + 1) {} bk → bk.batchSize < batchSize)
    (hmissing : readBlock db (q + 1) true = .ok none) :
    commandLoop (some exec) batchSize wr toBlock (rounds + 1) db n p =
      .ok (.success, { db with stageProgress := db.stageProgress.upsert (ascii "Execution") (beFixed 8 q) },
        List.range' n (q + 1 - n)) := by
  have hloop := executeLoop_executes (limit := batchSize) hx (fun j j1 j2 bj hj => by
    refine hbefore (j - 1) (by omega) (by omega) bj ?_
    rw [show j - 1 + 1 = j by omega]
    exact hj) (toBlock - q)
  rw [show toBlock - q + (q + 1 - n) = toBlock + 1 - n by omega, show toBlock - q = toBlock - q - 1 + 1 by omega] at hloop
  have hlast : (List.range' n (q + 1 - n)).getLast?.getD p = q := by
    rw [List.getLast?_range', if_neg (by omega)]
    simp; omega
  have hexe : executeBlocks (some exec) db n toBlock batchSize wr p = .ok ⟨.blockNotFound, q, db, List.range' n (q + 1 - n)⟩ := by
    unfold executeBlocks
    simp only [hloop]
    unfold executeLoop
    simp only [hmissing, List.append_nil, hlast]
  unfold commandLoop
  rw [if_pos (by omega), hexe]
  simp only [progress_stored]
  rfl

/-- C91 where the code has it right: if none of the blocks is missing, every block is executed exactly once and in order, in
rounds each of which is written, and the last one is stored as progress. Missing: chains that end before the last block asked
for. -/
theorem c91_complete_partial (exec : BlockExecutor) (batchSize toBlock rounds : Nat) (wr : Bool) (db db' : Database) (n p : Nat)
    (executed : List Nat) (hn : n ≤ toBlock + 1) (hto : toBlock < 2 ^ 64)
    (hpresent : ∀ k, n ≤ k → k ≤ toBlock → readBlock db k true ≠ .ok none)
    (h : commandLoop (some exec) batchSize wr toBlock rounds db n p = .ok (.success, db', executed)) :
    Rounds exec wr db n (toBlock + 1) db' ∧ executed = List.range' n (toBlock + 1 - n) ∧
      (n ≤ toBlock → getStageProgress db' (ascii "Execution") = .ok toBlock) := by
  induction rounds generalizing db n p executed with
  | zero => cases h
  | succ rounds ih =>
    unfold commandLoop at h
    by_cases hnt : n ≤ toBlock
    · rw [if_pos hnt] at h
      cases hr : executeBlocks (some exec) db n toBlock batchSize wr p with
      | ub => rw [hr] at h; cases h
      | err x => exact x.elim
      | ok r =>
        rw [hr] at h
        dsimp only at h
        by_cases hs : r.status = .success
        · rw [if_neg (by simp [hs])] at h
          simp only [progress_stored, liftDb, Outcome.ok_bind] at h
          rw [if_neg (by simp [hs])] at h
          obtain ⟨q, hq, h⟩ := Outcome.bind_eq_ok.mp h
          obtain ⟨q1, hqq⟩ := Prod.mk.inj (Outcome.ok.inj h)
          obtain ⟨q2, q3⟩ := Prod.mk.inj hqq
          obtain ⟨b, r1, r2, r3, r4, r5, _, _⟩ := c90_success exec db n toBlock batchSize wr p r hr hs hnt
          rw [r5] at hq
          have hq' : Outcome.ok (ε := StageError) q = .ok (.success, db', q.2.2) := by rw [← q1, ← q2]
          obtain ⟨i1, i2, i3⟩ := ih { b.writeToDb db with
              stageProgress := (b.writeToDb db).stageProgress.upsert (ascii "Execution") (beFixed 8 r.last) } (r.last + 1) r.last
            q.2.2 (by omega) (fun k k1 k2 => hpresent k (by omega) k2) (hq.trans hq')
          refine ⟨.round r1 r4 (progress_stored _ _) i1, ?_, fun _ => ?_⟩
          · rw [← q3, r3, i2]
            have := List.range'_append (s := n) (m := r.last + 1 - n) (n := toBlock + 1 - (r.last + 1)) (step := 1)
            rw [Nat.one_mul, show n + (r.last + 1 - n) = r.last + 1 by omega,
              show r.last + 1 - n + (toBlock + 1 - (r.last + 1)) = toBlock + 1 - n by omega] at this
            exact this
          · by_cases hl : r.last + 1 ≤ toBlock
            · exact i3 hl
            · have hl : r.last = toBlock := by omega
              cases rounds with
              | zero => cases hq
              | succ rounds =>
                unfold commandLoop at hq
                rw [if_neg (by omega)] at hq
                have := Outcome.ok.inj hq
                rw [← q2, ← this, ← hl]
                exact getStageProgress_upsert _ (by decide +kernel) (by omega)
        · by_cases hnf : r.status = .blockNotFound
          · obtain ⟨_, next, b, f1, f2, _, _, _, f6⟩ := c90_failure exec db n toBlock batchSize wr p r hr hs
            rcases f6 with f | f | f
            · exact absurd f.2 (hpresent next f1 f2)
            · rw [f.1] at hnf; cases hnf
            · obtain ⟨_, _, f, _⟩ := f
              exact absurd hnf f
          · rw [if_pos ⟨hs, hnf⟩] at h
            exact absurd (Prod.mk.inj (Outcome.ok.inj h)).1 hs
    · rw [if_neg hnt] at h
      obtain ⟨_, hqq⟩ := Prod.mk.inj (Outcome.ok.inj h)
      obtain ⟨rfl, rfl⟩ := Prod.mk.inj hqq
      have : n = toBlock + 1 := by omega
      subst this
      exact ⟨.none _ _, by rw [Nat.sub_self]; rfl, fun hh => absurd hh hnt⟩

/-- C91: the command always comes to an end; the rounds it is given are enough. -/
theorem c91_ends (exec : BlockExecutor) (batchSize toBlock rounds : Nat) (wr : Bool) (db : Database) (n p : Nat)
    (hread : ∀ k, readBlock db k true ≠ .ub)
    (hexec : ∀ db b k bh, readBlock db k true = .ok (some bh) → ∃ r, exec db b bh.1 = .ok r) (hr : toBlock + 2 ≤ n + rounds) (h0 : 0 < rounds) :
    ∃ r, commandLoop (some exec) batchSize wr toBlock rounds db n p = .ok r := by
  have hloop : ∀ db : Database, (∀ k, readBlock db k true ≠ .ub) → ∀ c n b,
      ∃ x, executeLoop exec batchSize wr db c n b = .ok x := by
    intro db hread c
    induction c with
    | zero => intro n b; exact ⟨_, rfl⟩
    | succ c ih =>
      intro n b
      unfold executeLoop
      cases hb : readBlock db n true with
      | ub => exact absurd hb (hread n)
      | err e => exact ⟨_, rfl⟩
      | ok o =>
        cases o with
        | none => exact ⟨_, rfl⟩
        | some bh =>
          obtain ⟨⟨rs, v, cs⟩, hx⟩ := hexec db b n bh hb
          dsimp only
          rw [hx]
          cases v with
          | some v => exact ⟨_, rfl⟩
          | none =>
            obtain ⟨b1, hb1⟩ := c82_calls cs b
            dsimp only
            rw [hb1]
            dsimp only
            generalize (if wr then b1.insertReceipts n rs else b1) = b2
            split
            · exact ⟨_, rfl⟩
            · obtain ⟨x, hx⟩ := ih (n + 1) b2
              rw [hx]
              exact ⟨_, rfl⟩
  induction rounds generalizing db n p with
  | zero => omega
  | succ rounds ih =>
    unfold commandLoop
    by_cases hnt : n ≤ toBlock
    · rw [if_pos hnt]
      have he : ∃ r, executeBlocks (some exec) db n toBlock batchSize wr p = .ok r := by
        unfold executeBlocks
        obtain ⟨⟨e, tr, b⟩, hx⟩ := hloop db hread (toBlock + 1 - n) n {}
        simp only [hx]
        cases e <;> exact ⟨_, rfl⟩
      obtain ⟨r, he⟩ := he
      rw [he]
      dsimp only
      split
      · exact ⟨_, rfl⟩
      · rename_i hns
        simp only [progress_stored, liftDb, Outcome.ok_bind]
        split
        · exact ⟨_, rfl⟩
        · rename_i hnf
          have hs : r.status = .success := by
            by_cases hs : r.status = .success
            · exact hs
            · exact absurd ⟨hs, hnf⟩ hns
          obtain ⟨b, r1, r2, r3, r4, r5, _⟩ := c90_success exec db n toBlock batchSize wr p r he hs hnt
          obtain ⟨q, hq⟩ := ih { r.db with stageProgress := r.db.stageProgress.upsert (ascii "Execution") (beFixed 8 r.last) }
            (r.last + 1) r.last (fun k => by rw [r5]; exact hread k) (by omega) (by omega)
          rw [hq]
          exact ⟨_, rfl⟩
    · rw [if_neg hnt]
      exact ⟨_, rfl⟩

/-- Progress up to block 4. -/
def exProgressDb : Database := { exBlockDb with stageProgress := [(ascii "Execution", beFixed 8 4)] }

theorem exProgress_executes : Executes exExecutor false exProgressDb 5 6 {} exAfter :=
  .block (b1 := exAfter) exBlock_read rfl rfl (.none _ _)

theorem exProgress_command (config : ChainConfig) :
    executeCommand (fun _ => some config) (fun _ => some exExecutor) 512 (2 ^ 64 - 1) exProgressDb =
      .ok (.success, { exProgressDb with stageProgress := [(ascii "Execution", beFixed 8 5)] }, [5]) := by
  have h1 : getStageProgress exProgressDb (ascii "Execution") = .ok 4 := by decide +kernel
  have h2 : readStorageModeReceipts exProgressDb = false := by decide +kernel
  have h3 : exProgressDb.stageProgress.upsert (ascii "Execution") (beFixed 8 5) = [(ascii "Execution", beFixed 8 5)] := by
    decide +kernel
  unfold executeCommand
  simp only [h1, h2, liftDb, Outcome.ok_bind]
  rw [show 2 ^ 64 - 1 + 2 - (4 + 1) % 2 ^ 64 = (2 ^ 64 - 5) + 1 by decide, show (4 + 1) % 2 ^ 64 = 5 by decide,
    c91_lost_violated exExecutor 512 _ _ false exProgressDb 5 5 4 exAfter (by decide) (by decide) exProgress_executes
      (fun k h1 h2 bk hk => by
        have : k = 5 := by omega
        subst this
        rw [hk.unique exProgress_executes]
        exact (by decide +kernel : exAfter.batchSize < 512)) (by decide +kernel), h3]
  rfl

/-- C91 is violated: of a chain that ends with block 5, block 5 is recorded as executed and its account is lost. -/
theorem c91_violated : ¬ C91_statement := by
  intro h
  have hf : readStorageModeReceipts exProgressDb = false := by decide +kernel
  have := h (fun _ => some kMainnetConfig) exExecutor 512 (2 ^ 64 - 1) exProgressDb _ _ 4 5 (by decide) (by decide +kernel)
    (exProgress_command _) (by decide +kernel)
  rw [hf] at this
  cases this with
  | round some batch stored rest =>
    rename_i db1 k b
    have hk : k = 5 := by
      have := rest.le
      omega
    subst hk
    have hb := batch.unique exProgress_executes
    subst hb
    have h1 : db1.plainState ≠ [] := by
      rw [progress_stored] at stored
      rw [← Outcome.ok.inj stored]
      exact (by decide +kernel : (exAfter.writeToDb exProgressDb).plainState ≠ [])
    have h2 : db1.plainState = [] := by
      cases rest with
      | none => decide +kernel
      | round s b st r => exact absurd r.le (by omega)
    exact h1 h2

example (db' : Database) (executed : List Nat)
    (h : commandLoop (some exExecutor) 512 false 5 2 exProgressDb 5 4 = .ok (.success, db', executed)) :
    Rounds exExecutor false exProgressDb 5 6 db' ∧ executed = [5] ∧ (5 ≤ 5 → getStageProgress db' (ascii "Execution") = .ok 5) :=
  c91_complete_partial exExecutor 512 5 2 false exProgressDb db' 5 4 executed (by decide) (by decide)
    (fun k h1 h2 => by
      have : k = 5 := by omega
      subst this
      rw [show readBlock exProgressDb 5 true = _ from exBlock_read]
      exact fun h => by cases h) h

/-- What the command reports and stores. -/
def exCommand : Outcome StageError (StatusCode × Database × List Nat) → Option (StatusCode × Nat × List Nat)
  | .ok r => some (r.1, r.2.1.plainState.length, r.2.2)
  | _ => none

example : exCommand (commandLoop (some exExecutor) 512 false 5 2 exProgressDb 5 4) = some (.success, 1, [5]) := by decide +kernel

end Silkworm.Properties
