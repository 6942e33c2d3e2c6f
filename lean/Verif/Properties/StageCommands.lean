import Verif.Tools.StageCommandsLemmas
import Verif.Properties.StageBlocks
import Verif.Properties.HistoryIndex
import Verif.Properties.HashState

/-!
# C138–C141: the commands that run one stage, and the list of stages
-/

namespace Silkworm.Properties

open Silkworm.Db Silkworm.Etl Silkworm.Spec Silkworm.Stages Silkworm.Tools

/-! ## C138: `--full` -/

/-- The database with an empty index of accounts, and none of its blocks processed. -/
def noAccountIndex (db : Database) : Database :=
  { db with accountHistory := [], stageProgress := db.stageProgress.upsert (ascii "AccountHistoryIndex") (beFixed 8 0) }

/-- The same for storage. -/
def noStorageIndex (db : Database) : Database :=
  { db with storageHistory := [], stageProgress := db.stageProgress.upsert (ascii "StorageHistoryIndex") (beFixed 8 0) }

/-- The same for logs. -/
def noLogIndex (db : Database) : Database :=
  { db with
    logTopicIndex := [], logAddressIndex := [], stageProgress := db.stageProgress.upsert (ascii "LogIndex") (beFixed 8 0) }

/-- The same for transactions. -/
def noLookup (db : Database) : Database :=
  { db with txLookup := [], stageProgress := db.stageProgress.upsert (ascii "TxLookup") (beFixed 8 0) }

/-- C138 as stated, for accounts: after `--full` with status 0 every block at which an account was changed is listed under it,
whatever the index held before. -/
def C138_statement : Prop :=
  ∀ (d : Disk) (R : Roaring) (order : MapOrder) (db db' : Database), Reads R → (∀ m, (order m).Perm m) →
    MultiOrdered db.accountChangeSet → (∀ e ∈ db.accountChangeSet, e.1.length = 8 ∧ 20 ≤ e.2.length) →
    historyIndexCommand d R order true false db = .ok (0, db') →
    ∀ a x, a.length = 20 → ChangedAt db a x → ∃ n v bm, (a ++ beFixed 8 n, v) ∈ db'.accountHistory ∧ R.read v = some bm ∧ x ∈ bm

theorem full_accounts (d : Disk) (R : Roaring) (order : MapOrder) (db : Database) :
    historyIndexCommand d R order true false db = runStage (noAccountIndex db) (stageAccountHistory d R order (noAccountIndex db)) := by
  unfold historyIndexCommand
  simp only [Bool.false_eq_true, if_false, if_true]
  rw [setStageProgress_known _ (name := ascii "AccountHistoryIndex") (by decide +kernel)]
  rfl

theorem full_storage (d : Disk) (R : Roaring) (order : MapOrder) (db : Database) :
    historyIndexCommand d R order true true db = runStage (noStorageIndex db) (stageStorageHistory d R order (noStorageIndex db)) := by
  unfold historyIndexCommand
  simp only [if_true]
  rw [setStageProgress_known _ (name := ascii "StorageHistoryIndex") (by decide +kernel)]
  rfl

theorem full_logs (d : Nat → Disk) (R : Roaring) (order : MapOrder) (strings : Bytes → List Bytes) (db : Database) :
    logIndexCommand d R order strings true db = runStage (noLogIndex db) (stageLogIndex d R order strings (noLogIndex db)) := by
  unfold logIndexCommand
  simp only [if_true]
  rw [setStageProgress_known _ (name := ascii "LogIndex") (by decide +kernel)]
  rfl

theorem full_lookup (d : Disk) (keccak : Bytes → Bytes) (db : Database) :
    txLookupCommand d keccak true db = runStage (noLookup db) (stageTxLookup d keccak (noLookup db)) := by
  unfold txLookupCommand
  simp only [if_true]
  rw [setStageProgress_known _ (name := ascii "TxLookup") (by decide +kernel)]
  rfl

/-- C138: what `--full` does depends neither on what the index held before nor on the progress that was stored for it, even a
progress that could not be read. -/
theorem c138_fresh (d : Nat → Disk) (R : Roaring) (order : MapOrder) (strings : Bytes → List Bytes) (keccak : Bytes → Bytes)
    (db : Database) (t u : Table) (v : Bytes) :
    historyIndexCommand (d 0) R order true false
        { db with accountHistory := t, stageProgress := db.stageProgress.upsert (ascii "AccountHistoryIndex") v } =
      historyIndexCommand (d 0) R order true false db ∧
    historyIndexCommand (d 0) R order true true
        { db with storageHistory := t, stageProgress := db.stageProgress.upsert (ascii "StorageHistoryIndex") v } =
      historyIndexCommand (d 0) R order true true db ∧
    logIndexCommand d R order strings true
        { db with logTopicIndex := t, logAddressIndex := u, stageProgress := db.stageProgress.upsert (ascii "LogIndex") v } =
      logIndexCommand d R order strings true db ∧
    txLookupCommand (d 0) keccak true { db with txLookup := t, stageProgress := db.stageProgress.upsert (ascii "TxLookup") v } =
      txLookupCommand (d 0) keccak true db := by
  simp only [full_accounts, full_storage, full_logs, full_lookup, noAccountIndex, noStorageIndex, noLogIndex, noLookup,
    Tools.Table.upsert_upsert, and_self]

/-- C138 where the code has it right: if genesis changed an account and every list fits one chunk, then after `--full` with
status 0 the lists are exactly the blocks of the change sets and the progress is the last of them. Missing: databases without a
change in block 0, and lists of several chunks. -/
theorem c138_accounts_partial (d : Disk) (R : Roaring) (order : MapOrder) (db db' : Database) (hR : Reads R)
    (horder : ∀ m, (order m).Perm m) (ho : MultiOrdered db.accountChangeSet)
    (hl : ∀ e ∈ db.accountChangeSet, e.1.length = 8 ∧ 20 ≤ e.2.length) (hgen : ∃ v, (beFixed 8 0, v) ∈ db.accountChangeSet)
    (hsmall : ∀ a bm, a.length = 20 → bm.Pairwise (· < ·) → (∀ x ∈ bm, ChangedAt db a x) →
      (R.write bm).length ≤ 1950 ∧ ∀ x ∈ bm, x < 2 ^ 32)
    (h : historyIndexCommand d R order true false db = .ok (0, db')) :
    (∀ a x, a.length = 20 → (InLastChunk R 8 db'.accountHistory a x ↔ ChangedAt db a x)) ∧
    (∀ j, (∀ a, a.length = 20 → j ≠ a ++ beFixed 8 (256 ^ 8 - 1)) → db'.accountHistory.find j = none) ∧
    ∃ e ∈ db.accountChangeSet, (∀ f ∈ db.accountChangeSet, recordBlock f ≤ recordBlock e) ∧
      getStageProgress db' (ascii "AccountHistoryIndex") = .ok (recordBlock e) := by
  rw [full_accounts] at h
  have hs := (runStage_iff (fun _ => historyIndexStage_result) _).mp h
  have hno : ∀ a x, ¬ InLastChunk R 8 (noAccountIndex db).accountHistory a x := by
    rintro a x ⟨v, bm, h1, _⟩
    cases h1
  obtain ⟨h1, h2, h3⟩ := c97_accounts_partial d R order (noAccountIndex db) db' 0 hR horder ho hl
    (getStageProgress_upsert _ (name := ascii "AccountHistoryIndex") (by decide +kernel) (by decide)) (by decide) hgen
    (fun _ => rfl) (fun a e _ he => by cases he)
    (fun a bm ha hb hx => hsmall a bm ha hb fun x hm => (hx x hm).resolve_right (hno a x)) hs
  refine ⟨fun a x ha => ?_, h2, h3⟩
  rw [h1 a x ha]
  constructor
  · rintro (hc | ⟨_, hc⟩)
    · exact absurd hc (hno a x)
    · exact hc
  · exact fun hc => Or.inr ⟨Nat.zero_le _, hc⟩

/-- C138 fails for accounts whenever block 0 has no change of an account: the index is emptied, nothing is put in, and the status
is 0. -/
theorem c138_accounts_violated (d : Disk) (R : Roaring) (order : MapOrder) (horder : ∀ m, (order m).Perm m) (db : Database)
    (hno : ∀ e ∈ db.accountChangeSet, e.1 ≠ beFixed 8 0) :
    historyIndexCommand d R order true false db = .ok (0, noAccountIndex db) := by
  rw [full_accounts, c97_gap_violated d R order horder (noAccountIndex db) 0
    (getStageProgress_upsert _ (name := ascii "AccountHistoryIndex") (by decide +kernel) (by decide)) hno]
  rfl

/-- C138 fails for storage on every database: the index is emptied and nothing is put in. -/
theorem c138_storage_violated (d : Disk) (R : Roaring) (order : MapOrder) (horder : ∀ m, (order m).Perm m) (db : Database)
    (h36 : ∀ e ∈ db.storageChangeSet, e.1.length = 36) :
    historyIndexCommand d R order true true db = .ok (0, noStorageIndex db) := by
  rw [full_storage, c64_nothing_violated d R order horder (noStorageIndex db) 0
    (getStageProgress_upsert _ (name := ascii "StorageHistoryIndex") (by decide +kernel) (by decide)) h36]
  rfl

/-- C138 fails for logs on every database: both indices are emptied and nothing is put in. -/
theorem c138_logs_violated (d : Nat → Disk) (R : Roaring) (order : MapOrder) (strings : Bytes → List Bytes)
    (horder : ∀ m, (order m).Perm m) (db : Database) (h12 : ∀ e ∈ db.logs, e.1.length = 12) :
    logIndexCommand d R order strings true db = .ok (0, noLogIndex db) := by
  rw [full_logs, c98_nothing_violated d R order strings horder (noLogIndex db) 0
    (getStageProgress_upsert _ (name := ascii "LogIndex") (by decide +kernel) (by decide)) h12]
  simp only [noLogIndex, Tools.Table.upsert_upsert]
  rfl

/-- C138 fails for transactions on every database: the table is emptied and nothing is put in. -/
theorem c138_lookup_violated (d : Disk) (keccak : Bytes → Bytes) (db : Database) (h40 : ∀ e ∈ db.blockBodies, e.1.length = 40) :
    txLookupCommand d keccak true db = .ok (0, noLookup db) := by
  rw [full_lookup, c89_always_violated d keccak (noLookup db) 0
    (getStageProgress_upsert _ (name := ascii "TxLookup") (by decide +kernel) (by decide)) h40]
  rfl

/-- A stage that fails after `--full` leaves the index empty: clearing was committed before. -/
theorem c138_failed_violated (d : Disk) (R : Roaring) (order : MapOrder) (db : Database) (e : StageError)
    (h : stageAccountHistory d R order (noAccountIndex db) = .err e) :
    historyIndexCommand d R order true false db = .ok (-5, noAccountIndex db) := by
  rw [full_accounts, h]
  rfl

/-- Accounts changed by genesis and at block 5, with an index that lists nonsense. -/
def exRebuildDb : Database :=
  { accountChangeSet := [(beFixed 8 0, exAddr 1 ++ [3]), (beFixed 8 5, exAddr 1 ++ [4]), (beFixed 8 5, exAddr 9)]
    accountHistory := [(exAddr 3 ++ beFixed 8 (2 ^ 64 - 1), exRoaring.write [9])]
    stageProgress := [(ascii "AccountHistoryIndex", beFixed 8 9)] }

/-- What `--full` makes of it. -/
def exRebuiltDb : Database :=
  { exRebuildDb with
    accountHistory := [(exAddr 1 ++ beFixed 8 (2 ^ 64 - 1), exRoaring.write [0, 5]),
      (exAddr 9 ++ beFixed 8 (2 ^ 64 - 1), exRoaring.write [5])]
    stageProgress := [(ascii "AccountHistoryIndex", beFixed 8 5)] }

theorem exRebuild_done : historyIndexCommand (exDisks 0) exRoaring id true false exRebuildDb = .ok (0, exRebuiltDb) := by
  decide +kernel

theorem exRebuild_small (a : Bytes) (x : Nat) (h : ChangedAt exRebuildDb a x) : x < 40 := by
  obtain ⟨e, he, rfl, _⟩ := h
  have : ∀ e ∈ exRebuildDb.accountChangeSet, recordBlock e < 40 := by decide +kernel
  exact this e he

example (x : Nat) : InLastChunk exRoaring 8 exRebuiltDb.accountHistory (exAddr 1) x ↔ ChangedAt exRebuildDb (exAddr 1) x :=
  (c138_accounts_partial (exDisks 0) exRoaring id exRebuildDb exRebuiltDb exRoaring_reads (fun m => List.Perm.refl m)
    (by decide +kernel) (by decide +kernel) ⟨exAddr 1 ++ [3], by decide +kernel⟩
    (fun a bm _ hs hb =>
      ⟨Nat.le_trans (exRoaring_small hs fun x hx => exRebuild_small a x (hb x hx)) (by decide),
        fun x hx => Nat.lt_trans (exRebuild_small a x (hb x hx)) (by decide)⟩)
    exRebuild_done).1 (exAddr 1) x (by decide +kernel)

/-- An index with the only change, at block 1. -/
def exIndexedGapDb : Database :=
  { exGapDb with accountHistory := [(exAddr 1 ++ beFixed 8 (2 ^ 64 - 1), exRoaring.write [1])] }

/-- C138 is violated: a correct index is lost by rebuilding it. -/
theorem c138_violated : ¬ C138_statement := by
  intro h
  obtain ⟨n, v, bm, h1, _⟩ := h (exDisks 0) exRoaring id exIndexedGapDb (noAccountIndex exIndexedGapDb) exRoaring_reads
    (fun m => List.Perm.refl m) (by decide +kernel) (by decide +kernel)
    (c138_accounts_violated _ _ _ (fun m => List.Perm.refl m) _ (by decide +kernel)) (exAddr 1) 1 (by decide +kernel)
    ⟨(beFixed 8 1, exAddr 1 ++ [3]), by decide +kernel, by decide +kernel, by decide +kernel⟩
  cases h1

example : historyIndexCommand (exDisks 0) { exRoaring with read := fun _ => none } id true false exRebuildDb =
    .ok (-5, noAccountIndex exRebuildDb) :=
  c138_failed_violated _ _ _ _ .runtime (by decide +kernel)
example : logIndexCommand exDisks exRoaring id (fun _ => []) true
      { logs := [(beFixed 8 0 ++ beFixed 4 0, [])], logTopicIndex := [(exWord 1 ++ beFixed 4 (2 ^ 32 - 1), [1])] } =
    .ok (0, noLogIndex { logs := [(beFixed 8 0 ++ beFixed 4 0, [])] }) :=
  c138_logs_violated exDisks exRoaring id (fun _ => []) (fun m => List.Perm.refl m) _ (by decide +kernel)
example : txLookupCommand (exDisks 0) exHash true { exBlockDb with txLookup := [(exWord 1, [1])] } = .ok (0, noLookup exBlockDb) :=
  c138_lookup_violated (exDisks 0) exHash _ (by decide +kernel)
example : historyIndexCommand (exDisks 0) exRoaring id true true
      { storageChangeSet := [(beFixed 8 0 ++ exAddr 1 ++ beFixed 8 1, exWord 1)], storageHistory := [([1], [2])] } =
    .ok (0, noStorageIndex { storageChangeSet := [(beFixed 8 0 ++ exAddr 1 ++ beFixed 8 1, exWord 1)] }) :=
  c138_storage_violated (exDisks 0) exRoaring id (fun m => List.Perm.refl m) _ (by decide +kernel)
example : historyIndexCommand (exDisks 0) exRoaring id true false
      { exRebuildDb with accountHistory := [([7], [7])], stageProgress := exRebuildDb.stageProgress.upsert (ascii "AccountHistoryIndex") [1] } =
    .ok (0, exRebuiltDb) :=
  ((c138_fresh exDisks exRoaring id (fun _ => []) exHash exRebuildDb [([7], [7])] [] [1]).1).trans exRebuild_done

/-! ## C139: the status -/

/-- C139 as stated: a command ends with status 0 exactly if its stage succeeded. -/
def C139_statement : Prop :=
  ∀ (d : Disk) (db db' : Database), blockHashesCommand d db = .ok (0, db') ↔ stageBlockHashes d db = .ok (.success, db')

/-- C139 for the other commands: status 0 exactly if the stage succeeded (with `--full`, see C138, on the cleared database). -/
theorem c139_status_partial (d : Nat → Disk) (R : Roaring) (order : MapOrder) (strings : Bytes → List Bytes) (keccak : Bytes → Bytes)
    (db db' : Database) (n : Nat) :
    (historyIndexCommand (d 0) R order false false db = .ok (0, db') ↔ stageAccountHistory (d 0) R order db = .ok (.success, db')) ∧
    (historyIndexCommand (d 0) R order false true db = .ok (0, db') ↔ stageStorageHistory (d 0) R order db = .ok (.success, db')) ∧
    (logIndexCommand d R order strings false db = .ok (0, db') ↔ stageLogIndex d R order strings db = .ok (.success, db')) ∧
    (txLookupCommand (d 0) keccak false db = .ok (0, db') ↔ stageTxLookup (d 0) keccak db = .ok (.success, db')) ∧
    (unwindExecutionCommand n db = .ok (0, db') ↔ unwindExecution db n = .ok (.success, db')) ∧
    (unwindHashStateCommand keccak n db = .ok (0, db') ↔ unwindHashState keccak n db = .ok (.success, db')) := by
  refine ⟨?_, ?_, ?_, ?_, ?_, ?_⟩
  · exact runStage_iff (fun _ => historyIndexStage_result) db'
  · exact runStage_iff (fun _ => historyIndexStage_result) db'
  · exact runStage_iff (fun _ => stageLogIndex_result) db'
  · exact runStage_iff (fun _ => stageTxLookup_result) db'
  · unfold unwindExecutionCommand
    rw [if_neg (by omega)]
    exact runStage_iff (fun _ h => by cases unwindExecution_result h) db'
  · exact runStage_iff (fun _ h => by rcases unwindHashState_result h with h | ⟨h, _⟩ <;> cases h) db'

/-- C139: a point of unwinding that is not given or negative ends with -1 and changes nothing; and a command that ends with any
status but 0 leaves the database as it was, unless `--full` was given. -/
theorem c139_failed (d : Nat → Disk) (R : Roaring) (order : MapOrder) (strings : Bytes → List Bytes) (keccak : Bytes → Bytes)
    (db db' : Database) (s n : Int) (m : Nat) (storage : Bool) (hs : s ≠ 0)
    (h : blockHashesCommand (d 0) db = .ok (s, db') ∨ historyIndexCommand (d 0) R order false storage db = .ok (s, db') ∨
      logIndexCommand d R order strings false db = .ok (s, db') ∨ txLookupCommand (d 0) keccak false db = .ok (s, db') ∨
      unwindExecutionCommand n db = .ok (s, db') ∨ unwindHashStateCommand keccak m db = .ok (s, db')) :
    db' = db ∧ (s = -5 ∨ s = -1 ∧ n < 0) := by
  have key : ∀ x : Outcome StageError (StageResult × Database), (∀ r db1, x = .ok (r, db1) → throwsResult r = true → db1 = db) →
      runStage db x = .ok (s, db') → db' = db ∧ s = -5 := by
    intro x hx hr
    unfold runStage at hr
    split at hr
    · rename_i r db1
      injection hr with hr
      obtain ⟨h1, h2⟩ := Prod.mk.inj hr
      by_cases ht : throwsResult r = true
      · rw [if_pos ht] at h1
        exact ⟨h2.symm.trans (hx r db1 rfl ht), h1.symm⟩
      · rw [if_neg ht] at h1
        exact absurd h1.symm hs
    · injection hr with hr
      obtain ⟨h1, h2⟩ := Prod.mk.inj hr
      exact ⟨h2.symm, h1.symm⟩
    · cases hr
  have only : ∀ {x : Outcome StageError (StageResult × Database)}, (∀ r db1, r ≠ .success → x ≠ .ok (r, db1)) →
      ∀ r db1, x = .ok (r, db1) → throwsResult r = true → db1 = db := by
    intro x hx r db1 h1 h2
    by_cases hr : r = .success
    · rw [hr] at h2
      cases h2
    · exact absurd h1 (hx r db1 hr)
  rcases h with h | h | h | h | h | h
  · exact ⟨(key _ (fun r db1 h1 _ => stageBlockHashes_database h1) h).1, Or.inl (key _ (fun r db1 h1 _ => stageBlockHashes_database h1) h).2⟩
  · have hst : ∀ (name : Bytes) (f : Bytes × Bytes → Outcome StageError Bytes) (t u : Table) (rp : Table → Database) (r : StageResult)
        (db1 : Database), r ≠ .success → historyIndexStage (d 0) R order name f t u rp db ≠ .ok (r, db1) := by
      intro name f t u rp r db1 hr
      unfold historyIndexStage
      refine bind_ne fun p => bind_ne fun q => ?_
      dsimp only
      split
      · intro hc; injection hc with hc; exact hr (Prod.mk.inj hc).1.symm
      · exact bind_ne fun a => bind_ne fun x hc => by injection hc with hc; exact hr (Prod.mk.inj hc).1.symm
    cases storage
    · have := key _ (only fun r db1 hr => hst _ _ _ _ _ r db1 hr) h
      exact ⟨this.1, Or.inl this.2⟩
    · have := key _ (only fun r db1 hr => hst _ _ _ _ _ r db1 hr) h
      exact ⟨this.1, Or.inl this.2⟩
  · have := key _ (only fun r db1 hr => by
      unfold stageLogIndex
      exact bind_ne fun p => bind_ne fun q => bind_ne fun a => bind_ne fun b => bind_ne fun x hc => by
        injection hc with hc; exact hr (Prod.mk.inj hc).1.symm) h
    exact ⟨this.1, Or.inl this.2⟩
  · have := key _ (only fun r db1 hr => by
      unfold stageTxLookup
      refine bind_ne fun p => bind_ne fun q => ?_
      obtain ⟨es, number⟩ := q
      dsimp only
      split
      · intro hc; injection hc with hc; exact hr (Prod.mk.inj hc).1.symm
      · exact bind_ne fun a => bind_ne fun x hc => by injection hc with hc; exact hr (Prod.mk.inj hc).1.symm) h
    exact ⟨this.1, Or.inl this.2⟩
  · unfold unwindExecutionCommand at h
    split at h
    · injection h with h
      obtain ⟨h1, h2⟩ := Prod.mk.inj h
      exact ⟨h2.symm, Or.inr ⟨h1.symm, ‹_›⟩⟩
    · have := key _ (fun r db1 h1 h2 => by rw [unwindExecution_result h1] at h2; cases h2) h
      exact ⟨this.1, Or.inl this.2⟩
  · have := key _ (fun r db1 h1 h2 => by
      rcases unwindHashState_result h1 with h3 | ⟨_, h3⟩
      · rw [h3] at h2; cases h2
      · exact h3) h
    exact ⟨this.1, Or.inl this.2⟩

/-- C139: without a point of unwinding nothing is unwound. -/
theorem c139_point (n : Int) (hn : n < 0) (db : Database) : unwindExecutionCommand n db = .ok (-1, db) := by
  unfold unwindExecutionCommand
  rw [if_pos hn]

/-- C139 for the tries: the command ends with 0 and prints a root exactly if the tries were generated with it, without comparing it
to that of a header; otherwise it ends with -5, prints none and leaves the tries. -/
theorem c139_trie (d : Nat → Disk) (keccak : Bytes → Bytes) (db db' : Database) (s : Int) (root : Option Bytes)
    (h : trieCommand d keccak db = .ok (s, root, db')) :
    (s = 0 ∧ ∃ r, root = some r ∧ regenerateDbTries d keccak none db = .ok (r, db')) ∨ s = -5 ∧ root = none ∧ db' = db := by
  unfold trieCommand at h
  split at h
  · injection h with h
    obtain ⟨h1, h2⟩ := Prod.mk.inj h
    obtain ⟨h2, h3⟩ := Prod.mk.inj h2
    rw [← h3]
    exact Or.inl ⟨h1.symm, _, h2.symm, ‹_›⟩
  · injection h with h
    obtain ⟨h1, h2⟩ := Prod.mk.inj h
    obtain ⟨h2, h3⟩ := Prod.mk.inj h2
    exact Or.inr ⟨h1.symm, h2.symm, h3.symm⟩
  · cases h

/-- C139 fails for the hashes of blocks: if the next canonical hash is not one, the stage reports a bad hash of a block and the
command ends with status 0. -/
theorem c139_bad_hash_violated (d : Disk) (db : Database) (p : Nat) (v : Bytes)
    (hp : getStageProgress db (ascii "BlockHashes") = .ok p) (hr : p + 1 < 2 ^ 64)
    (hv : db.canonicalHashes.find (beFixed 8 (p + 1)) = some (beFixed 8 (p + 1), v)) (hb : v.length ≠ 32) :
    stageBlockHashes d db = .ok (.badBlockHash, db) ∧ blockHashesCommand d db = .ok (0, db) := by
  have hload : loadBig64 (beFixed 8 (p + 1)) = .ok (p + 1) := by
    have h64 : (256 : Nat) ^ 8 = 2 ^ 64 := by decide
    unfold loadBig64
    rw [beFixed_length, if_pos (Nat.le_refl _), List.take_of_length_le (by rw [beFixed_length]), beToNat_beFixed (by omega)]
  have hst : stageBlockHashes d db = .ok (.badBlockHash, db) := by
    unfold stageBlockHashes
    simp only [hp, liftDb, Outcome.ok_bind, Nat.mod_eq_of_lt hr]
    rw [show blockKey (p + 1) = beFixed 8 (p + 1) from rfl, hv]
    simp only [blockHashesLoop, hload, Outcome.ok_bind, ne_eq, not_true_eq_false, if_false, hb, not_false_eq_true, if_true]
  refine ⟨hst, ?_⟩
  unfold blockHashesCommand
  rw [hst]
  rfl

/-- C139 fails the other way too: on every canonical chain with a block to index the command ends with -5. -/
theorem c139_chain_violated (d : Disk) (db : Database) (p last : Nat) (hash : Nat → Bytes)
    (hp : getStageProgress db (ascii "BlockHashes") = .ok p) (hc : HashesTo db (p + 1) last hash) (hl : p + 1 ≤ last) :
    blockHashesCommand d db = .ok (-5, db) := by
  unfold blockHashesCommand
  rw [c55_always_violated d db p last hash hp hc hl]
  rfl

/-- A canonical hash of two bytes. -/
def exShortHashDb : Database := { canonicalHashes := [(beFixed 8 1, [1, 2])] }

example : blockHashesCommand (exDisks 0) exShortHashDb = .ok (0, exShortHashDb) :=
  (c139_bad_hash_violated (exDisks 0) exShortHashDb 0 [1, 2] (by decide +kernel) (by decide) (by decide +kernel) (by decide)).2

/-- C139 is violated: a bad hash is reported as success. -/
theorem c139_violated : ¬ C139_statement := by
  intro h
  obtain ⟨h1, h2⟩ := c139_bad_hash_violated (exDisks 0) exShortHashDb 0 [1, 2] (by decide +kernel) (by decide) (by decide +kernel)
    (by decide)
  rw [(h (exDisks 0) exShortHashDb exShortHashDb).mp h2] at h1
  injection h1 with h1
  cases (Prod.mk.inj h1).1

example : blockHashesCommand (exDisks 0) exChainDb = .ok (-5, exChainDb) :=
  c139_chain_violated (exDisks 0) exChainDb 0 1 exWord (by decide +kernel)
    ⟨by decide +kernel, by decide +kernel, fun n => by simp [exWord, Silkworm.beFixed_length], fun n h1 h2 => by
      have : n = 1 := by omega
      subst this
      decide +kernel, fun m n _ _ _ _ _ => by omega, by decide⟩ (by decide)
example : ∃ r, trieCommand exDisks exHash {} = .ok (0, some r, {}) ∧ regenerateDbTries exDisks exHash none {} = .ok (r, {}) := by
  have h : trieCommand exDisks exHash {} = .ok (0, some kEmptyRoot, {}) := by decide +kernel
  rcases c139_trie _ _ _ _ _ _ h with ⟨_, r, h1, h2⟩ | ⟨h1, _⟩
  · exact ⟨r, h1 ▸ h, h2⟩
  · exact absurd h1 (by decide)
example : unwindExecutionCommand (-1) exRebuildDb = .ok (-1, exRebuildDb) := c139_point (-1) (by decide) exRebuildDb
example : stageAccountHistory (exDisks 0) exRoaring id exChangedDb = .ok (.success, exIndexedDb) :=
  (c139_status_partial exDisks exRoaring id (fun _ => []) exHash exChangedDb exIndexedDb 0).1.mp (by decide +kernel)
example : unwindHashStateCommand exHash 3 exHashedDb = .ok (-5, exHashedDb) := by decide +kernel
example (db' : Database) (s : Int) (hs : s ≠ 0) (h : unwindHashStateCommand exHash 3 exHashedDb = .ok (s, db')) : db' = exHashedDb :=
  (c139_failed exDisks exRoaring id (fun _ => []) exHash exHashedDb db' s 0 3 false hs
    (Or.inr (Or.inr (Or.inr (Or.inr (Or.inr h)))))).1

/-! ## C140: hashing the state -/

/-- The database with nothing hashed. -/
def nothingHashed (db : Database) : Database :=
  { db with
    hashedAccounts := [], hashedStorage := [], hashedCodeHash := []
    stageProgress := db.stageProgress.upsert (ascii "HashState") (beFixed 8 0) }

theorem nothingHashed_is (db : Database) : NothingHashed (nothingHashed db) :=
  ⟨getStageProgress_upsert _ (name := ascii "HashState") (by decide +kernel) (by decide), rfl, rfl, rfl⟩

theorem clearHashState_eq (db : Database) : clearHashState db = .ok (nothingHashed db) := by
  unfold clearHashState
  rw [setStageProgress_known _ (name := ascii "HashState") (by decide +kernel)]
  rfl

/-- C140 as stated: after the command with status 0 every account of the plain state is found under its hash, if nothing was
hashed or `--full` was given. -/
def C140_statement : Prop :=
  ∀ (d : Nat → Disk) (keccak : Bytes → Bytes) (incrementally : Bool) (db db' : Database), (∀ x, (keccak x).length = 32) →
    PlainFits db → (∀ e ∈ db.plainState, ∀ f ∈ db.plainState, e.1.length = 20 → f.1.length = 20 → keccak e.1 = keccak f.1 → e = f) →
    hashStateCommand d keccak true incrementally false db = .ok (0, db') →
    ∀ a v, a.length = 20 → (a, v) ∈ db.plainState → db'.hashedAccounts.find (keccak a) = some (keccak a, v)

theorem hashStateBody_stage (d : Nat → Disk) (keccak : Bytes → Bytes) (db db' : Database) :
    hashStateBody d keccak false db = .ok db' ↔ stageHashState d keccak db = .ok (.success, db') := by
  have h : stageHashState d keccak db = (hashStateBody d keccak false db >>= fun x => .ok (.success, x)) := by
    unfold stageHashState hashStateBody
    simp only [Bool.false_eq_true, or_false]
    rw [Outcome.bind_assoc]
    congr 1
    funext p
    split
    · simp only [Outcome.bind_assoc]
    · simp only [Outcome.bind_assoc]
  rw [h]
  cases hashStateBody d keccak false db with
  | ok x =>
    simp only [Outcome.ok_bind]
    constructor
    · intro hx; injection hx with hx; rw [hx]
    · intro hx; injection hx with hx; rw [(Prod.mk.inj hx).2]
  | err e => exact ⟨fun hx => (by cases hx), fun hx => (by cases hx)⟩
  | ub => exact ⟨fun hx => (by cases hx), fun hx => (by cases hx)⟩

theorem hashStateCommand_ok {d : Nat → Disk} {keccak : Bytes → Bytes} {full incrementally : Bool} {db db' : Database}
    (h : hashStateCommand d keccak full incrementally false db = .ok (0, db')) :
    hashStateBody d keccak incrementally (if full = true then nothingHashed db else db) = .ok db' := by
  have hfirst : prepareHashState (full || false) db = .ok (if full = true then nothingHashed db else db) := by
    unfold prepareHashState
    cases full
    · rfl
    · rw [clearHashState_eq]; rfl
  unfold hashStateCommand at h
  have h' := runStage_zero h
  rw [hfirst] at h'
  simp only [Outcome.ok_bind, Bool.false_eq_true, if_false] at h'
  revert h'
  generalize hashStateBody d keccak incrementally (if full = true then nothingHashed db else db) = y
  intro h'
  cases y with
  | ok x =>
    rcases h' with h' | h'
    · injection h' with h'
      rw [(Prod.mk.inj h').2]
    · injection h' with h'
      cases (Prod.mk.inj h').1
  | err e => rcases h' with h' | h' <;> cases h'
  | ub => rcases h' with h' | h' <;> cases h'

/-- C140: without options the command does what the stage does. -/
theorem c140_plain (d : Nat → Disk) (keccak : Bytes → Bytes) (db db' : Database) :
    hashStateCommand d keccak false false false db = .ok (0, db') ↔ stageHashState d keccak db = .ok (.success, db') := by
  constructor
  · exact fun h => (hashStateBody_stage d keccak db db').mp (hashStateCommand_ok h)
  · intro h
    unfold hashStateCommand
    simp only [prepareHashState, Bool.or_self, Bool.false_eq_true, if_false, Outcome.ok_bind, (hashStateBody_stage d keccak db db').mpr h]
    rfl

/-- C140: `--reset` ends with status 0, nothing is hashed afterwards, and nothing else has changed. -/
theorem c140_reset (d : Nat → Disk) (keccak : Bytes → Bytes) (full incrementally : Bool) (db : Database) :
    ∃ db', hashStateCommand d keccak full incrementally true db = .ok (0, db') ∧ NothingHashed db' ∧
      db' = { db with hashedAccounts := [], hashedStorage := [], hashedCodeHash := [], stageProgress := db'.stageProgress } ∧
      ∀ k, k ≠ ascii "HashState" → db'.stageProgress.find k = db.stageProgress.find k := by
  refine ⟨nothingHashed db, ?_, nothingHashed_is db, rfl, fun k hk => Table.find_upsert_other _ _ hk⟩
  unfold hashStateCommand
  simp only [prepareHashState, Bool.or_true, if_true, clearHashState_eq, liftDb, Outcome.ok_bind]
  rfl

/-- C140: whatever goes wrong, the hashed state is left as it was. -/
theorem c140_failed (d : Nat → Disk) (keccak : Bytes → Bytes) (full incrementally reset : Bool) (db db' : Database) (s : Int)
    (h : hashStateCommand d keccak full incrementally reset db = .ok (s, db')) : s = 0 ∨ s = -5 ∧ db' = db := by
  unfold hashStateCommand runStage at h
  split at h
  · rename_i r db1 heq
    injection h with h
    obtain ⟨h1, h2⟩ := Prod.mk.inj h
    by_cases hr : r = .success
    · rw [hr] at h1
      exact Or.inl h1.symm
    · exfalso
      revert heq
      refine bind_ne fun x => ?_
      split
      · intro hc; injection hc with hc; exact hr (Prod.mk.inj hc).1.symm
      · exact bind_ne fun y hc => by injection hc with hc; exact hr (Prod.mk.inj hc).1.symm
  · injection h with h
    obtain ⟨h1, h2⟩ := Prod.mk.inj h
    exact Or.inr ⟨h1.symm, h2.symm⟩
  · cases h

/-- C140 where the code has it right: `--full` alone hashes every account and every code hash of the plain state, whatever was
hashed before, and nothing else is left. Missing: `--increment`, and storage (C56). -/
theorem c140_full_partial (d : Nat → Disk) (keccak : Bytes → Bytes) (db db' : Database) (hk : ∀ x, (keccak x).length = 32)
    (hf : PlainFits db)
    (hcol : ∀ e ∈ db.plainState, ∀ f ∈ db.plainState, e.1.length = 20 → f.1.length = 20 → keccak e.1 = keccak f.1 → e = f)
    (h : hashStateCommand d keccak true false false db = .ok (0, db')) :
    (∀ a v, a.length = 20 → (a, v) ∈ db.plainState → db'.hashedAccounts.find (keccak a) = some (keccak a, v)) ∧
    (∀ e ∈ db'.hashedAccounts, ∃ a, a.length = 20 ∧ (a, e.2) ∈ db.plainState ∧ e.1 = keccak a) ∧
    (Ordered db.plainContractCode →
      (∀ e ∈ db.plainContractCode, ∀ f ∈ db.plainContractCode, keccak (e.1.take 20) = keccak (f.1.take 20) →
        e.1.take 20 = f.1.take 20) →
      ∀ a i v, a.length = 20 → i.length = 8 → (a ++ i, v) ∈ db.plainContractCode →
        db'.hashedCodeHash.find (keccak a ++ i) = some (keccak a ++ i, v)) := by
  have hs := (hashStateBody_stage d keccak (nothingHashed db) db').mp (hashStateCommand_ok h)
  have hf' : PlainFits (nothingHashed db) := ⟨hf.state, hf.code⟩
  obtain ⟨h1, h2, _⟩ := c56_accounts_partial d keccak (nothingHashed db) db' hk hf' (nothingHashed_is db) hs hcol
  exact ⟨h1, h2, fun ho hc => (c56_code_partial d keccak (nothingHashed db) db' hk hf' (nothingHashed_is db) ho hs hc).1⟩

/-- C140 fails for `--full --increment`: the tables are emptied and only what changed after block 0 is hashed. If nothing did,
they stay empty; the status is 0 and the progress is that of the execution. -/
theorem c140_increment_violated (d : Nat → Disk) (keccak : Bytes → Bytes) (db : Database) (n : Nat)
    (hex : getStageProgress db (ascii "Execution") = .ok n) (ha : ∀ e ∈ db.accountChangeSet, lexLt e.1 (beFixed 8 1) = true)
    (hs : ∀ e ∈ db.storageChangeSet, lexLt e.1 (beFixed 8 1) = true) :
    hashStateCommand d keccak true true false db =
      .ok (0, { nothingHashed db with stageProgress := db.stageProgress.upsert (ascii "HashState") (beFixed 8 n) }) := by
  have hnone : ∀ t : Table, (∀ e ∈ t, lexLt e.1 (beFixed 8 1) = true) → fromLowerBound t (blockKey 1) = [] := by
    intro t ht
    unfold fromLowerBound
    exact List.dropWhile_eq_nil_iff.mpr ht
  have hprom : hashStatePromote keccak 0 (nothingHashed db) = .ok (nothingHashed db) := by
    unfold hashStatePromote
    rw [show (0 + 1) % 2 ^ 64 = 1 by decide]
    dsimp only
    rw [show (nothingHashed db).accountChangeSet = db.accountChangeSet from rfl,
      show (nothingHashed db).storageChangeSet = db.storageChangeSet from rfl, hnone _ ha, hnone _ hs]
    rfl
  have hex' : getStageProgress (nothingHashed db) (ascii "Execution") = .ok n := by
    rw [← hex]
    unfold getStageProgress getStageData nothingHashed
    dsimp only
    rw [Table.find_upsert_other _ _ (by decide +kernel)]
  unfold hashStateCommand
  simp only [prepareHashState, Bool.true_or, if_true, clearHashState_eq, liftDb, Outcome.ok_bind, Bool.false_eq_true, if_false]
  unfold hashStateBody
  rw [(nothingHashed_is db).progress]
  simp only [liftDb, Outcome.ok_bind, or_true, if_true, hprom, hex']
  rw [setStageProgress_known _ (name := ascii "HashState") (by decide +kernel)]
  simp only [Outcome.ok_bind, nothingHashed, Tools.Table.upsert_upsert]
  rfl

example : hashStateCommand exDisks exHash false false false exPlainDb = .ok (0, exHashedDb) :=
  (c140_plain exDisks exHash exPlainDb exHashedDb).mpr exPlain_hashed
/-- The plain state of the example, with nonsense hashed. -/
def exNonsenseDb : Database :=
  { exPlainDb with hashedAccounts := [([1], [2])], stageProgress := exPlainDb.stageProgress.upsert (ascii "HashState") (beFixed 8 2) }

theorem exNonsense_done : hashStateCommand exDisks exHash true false false exNonsenseDb = .ok (0, exHashedDb) := by decide +kernel

example : exHashedDb.hashedAccounts.find (exHash (exAddr 1)) = some (exHash (exAddr 1), [7]) :=
  (c140_full_partial exDisks exHash exNonsenseDb exHashedDb exHash_length ⟨by decide +kernel, by decide +kernel⟩ (by decide +kernel)
    exNonsense_done).1 (exAddr 1) [7] (by decide +kernel) (by decide +kernel)
example : ∃ db', hashStateCommand exDisks exHash true true true exNonsenseDb = .ok (0, db') ∧ NothingHashed db' :=
  let ⟨db', h, hn, _⟩ := c140_reset exDisks exHash true true exNonsenseDb
  ⟨db', h, hn⟩
/-- A progress of the execution that cannot be read. -/
def exUnreadDb : Database := { exPlainDb with hashedAccounts := [([1], [2])], stageProgress := [(ascii "Execution", [1])] }

example : hashStateCommand exDisks exHash true false false exUnreadDb = .ok (-5, exUnreadDb) := by decide +kernel
example (db' : Database) (h : hashStateCommand exDisks exHash true false false exUnreadDb = .ok (-5, db')) : db' = exUnreadDb :=
  ((c140_failed _ _ _ _ _ _ _ _ h).resolve_left (by decide)).2

/-- C140 is violated: with `--full --increment` an account that was never changed is not hashed. -/
theorem c140_violated : ¬ C140_statement := by
  intro h
  have := h exDisks exHash true exNonsenseDb _ exHash_length ⟨by decide +kernel, by decide +kernel⟩ (by decide +kernel)
    (c140_increment_violated exDisks exHash exNonsenseDb 3 (by decide +kernel) (by decide +kernel) (by decide +kernel)) (exAddr 1) [7]
    (by decide +kernel) (by decide +kernel)
  cases this

/-! ## C141: the list of stages -/

/-- The function that undoes a stage. -/
def undoes : StageFunction → UnwindFunction
  | .headers => .noUnwind
  | .blockhashes => .noUnwind
  | .bodies => .noUnwind
  | .senders => .senders
  | .execution => .execution
  | .hashstate => .hashstate
  | .interhashes => .interhashes
  | .accountHistory => .accountHistory
  | .storageHistory => .storageHistory
  | .logIndex => .logIndex
  | .txLookup => .txLookup

/-- C141 as stated: every stage of the list is undone by its own function. -/
def C141_statement : Prop := ∀ s ∈ defaultStages, s.2.1 = undoes s.1

/-- C141 where the code has it right: every stage is listed once, numbered from 1 in the order of the list, and undone by its own
function. Missing: the intermediate hashes. -/
theorem c141_list_partial :
    (∀ f : StageFunction, (defaultStages.filter fun s => s.1 = f).length = 1) ∧
    (∀ i s, defaultStages[i]? = some s → s.2.2 = i + 1) ∧
    ∀ s ∈ defaultStages, s.1 ≠ .interhashes → s.2.1 = undoes s.1 := by
  refine ⟨fun f => by cases f <;> decide, fun i s h => ?_, by decide⟩
  have hi : i < 11 := by
    obtain ⟨hi, _⟩ := List.getElem?_eq_some_iff.mp h
    exact hi
  have : ∀ i : Fin 11, defaultStages[i.val].2.2 = i.val + 1 := by decide
  obtain ⟨hi', he⟩ := List.getElem?_eq_some_iff.mp h
  rw [← he]
  exact this ⟨i, hi⟩

/-- C141 is violated: the intermediate hashes are undone by the function for the hashed state. -/
theorem c141_interhashes_violated : ¬ C141_statement := by
  intro h
  exact absurd (h (.interhashes, .hashstate, 7) (by decide)) (by decide)

/-- What follows for undoing the stages one after another: the hashed state is undone twice to the same block, and the second time
is always aborted. -/
theorem c141_twice_violated (keccak : Bytes → Bytes) (n : Nat) (hn : n < 2 ^ 64) (db db' : Database)
    (h : unwindHashState keccak n db = .ok (.success, db')) :
    unwindHashState keccak n db' = .ok (.aborted, db') ∧ unwindHashStateCommand keccak n db' = .ok (-5, db') := by
  have hp : getStageProgress db' (ascii "HashState") = .ok n := by
    unfold unwindHashState orAborted at h
    split at h
    · injection h with h; cases (Prod.mk.inj h).1
    · obtain ⟨p, _, h⟩ := Outcome.bind_eq_ok.mp h
      split at h
      · injection h with h; cases (Prod.mk.inj h).1
      · obtain ⟨x, _, h⟩ := Outcome.bind_eq_ok.mp h
        rw [setStageProgress_known _ (name := ascii "HashState") (by decide +kernel)] at h
        simp only [liftDb, Outcome.ok_bind] at h
        injection h with h
        rw [← (Prod.mk.inj h).2]
        exact getStageProgress_upsert _ (name := ascii "HashState") (by decide +kernel) hn
  have hst : unwindHashState keccak n db' = .ok (.aborted, db') := by
    unfold unwindHashState
    simp only [hp, liftDb, Outcome.ok_bind, Nat.le_refl, if_true]
    rfl
  refine ⟨hst, ?_⟩
  unfold unwindHashStateCommand
  rw [hst]
  rfl

example : defaultStages[6]? = some (.interhashes, .hashstate, 7) := rfl
example : ((.txLookup, .txLookup, 11) : StageFunction × UnwindFunction × Nat).2.2 = 10 + 1 := c141_list_partial.2.1 10 _ rfl
/-- The hashed state of the example, undone to block 1. -/
def exUndoneDb : Database := { exHashedDb with stageProgress := [(ascii "Execution", beFixed 8 3), (ascii "HashState", beFixed 8 1)] }

example : unwindHashState exHash 1 exUndoneDb = .ok (.aborted, exUndoneDb) :=
  (c141_twice_violated exHash 1 (by decide) exHashedDb exUndoneDb (by decide +kernel)).1

end Silkworm.Properties
