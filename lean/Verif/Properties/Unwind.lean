import Verif.Stages.UnwindLemmas
import Verif.Properties.DbState
import Mathlib.Data.List.TakeWhile

/-!
# C53: unwinding the execution stage
-/

namespace Silkworm.Properties

open Silkworm.Db Silkworm.Spec Silkworm.Stages

/-- The tables are in order, and the keys of the change sets have the lengths they always have. -/
structure ChangeSetsFit (db : Database) : Prop where
  state : MultiOrdered db.plainState
  code : Ordered db.plainContractCode
  accounts : MultiOrdered db.accountChangeSet ∧ ∀ e ∈ db.accountChangeSet, e.1.length = 8
  storage : MultiOrdered db.storageChangeSet ∧ ∀ e ∈ db.storageChangeSet, e.1.length = 36

/-- `h` is the code hash of the account `x` at the address `a`; records of contracts leave it out. -/
def CodeHashAt (code : Table) (a : Bytes) (x : Account) (h : Bytes) : Prop :=
  if 0 < x.incarnation ∧ x.codeHash = kEmptyHash then ∃ w, (a ++ beFixed 8 x.incarnation, w) ∈ code ∧ h = w.take 32
  else h = x.codeHash

/-- In `db'` the account is the one recorded by `v`. -/
def AccountIs (db db' : Database) (a v : Bytes) : Prop :=
  ∃ x h, decodeAccountFromStorage v = .ok x ∧ CodeHashAt db.plainContractCode a x h ∧
    stored db'.plainState a = [{ x with codeHash := h }.encodeForStorage]

/-- In `db'` the account is as it was after block `n` of `db`. -/
def AccountRestored (db db' : Database) (n : Nat) (a : Bytes) : Prop :=
  match (accountRecords db.accountChangeSet n a).head? with
  | none => stored db'.plainState a = stored db.plainState a
  | some v => if v = [] then stored db'.plainState a = [] else AccountIs db db' a v

/-- The values of a slot. -/
def slotValues (db : Database) (contract location : Bytes) : List Bytes :=
  (stored db.plainState contract).filter fun v => decide (v.take 32 = location)

/-- In `db'` the slot is as it was after block `n` of `db`. -/
def SlotRestored (db db' : Database) (n : Nat) (contract location : Bytes) : Prop :=
  slotValues db' contract location =
    match (slotRecords db.storageChangeSet n contract location).head? with
    | none => slotValues db contract location
    | some v => if v = [] then [] else [location ++ v]

/-- C53 as stated: if unwinding succeeds, all accounts and slots are as they were after the target block. -/
def C53_statement : Prop :=
  ∀ (db db' : Database) (p n : Nat), ChangeSetsFit db → getStageProgress db (ascii "Execution") = .ok p → n < p →
    unwindExecution db n = .ok (.success, db') →
    (∀ a, a.length = 20 → AccountRestored db db' n a) ∧
      ∀ k l, k.length = 28 → l.length = 32 → SlotRestored db db' n k l

/-- What unwinding to a block before the progress consists of. -/
theorem unwind_parts {db db' : Database} {p n : Nat} (hp : getStageProgress db (ascii "Execution") = .ok p) (h0 : 0 < n)
    (hn : n < p) (h : unwindExecution db n = .ok (.success, db')) :
    ∃ q r, walkCollect n db.accountChangeSet.reverse ⟨db.plainState, db.plainContractCode⟩ = .ok q ∧
      walkCollect n db.storageChangeSet.reverse q = .ok r ∧
      db' = { db with
        plainState := r.state
        plainContractCode := r.code
        accountChangeSet := unwindTableFrom db.accountChangeSet (beFixed 8 ((n + 1) % 2 ^ 64))
        storageChangeSet := unwindTableFrom db.storageChangeSet (beFixed 8 ((n + 1) % 2 ^ 64))
        blockReceipts := unwindTableFrom db.blockReceipts (beFixed 8 ((n + 1) % 2 ^ 64))
        logs := unwindTableFrom db.logs (beFixed 8 ((n + 1) % 2 ^ 64))
        stageProgress := db.stageProgress.upsert (ascii "Execution") (beFixed 8 n) } := by
  unfold unwindExecution at h
  simp only [hp, liftDb, Outcome.ok_bind] at h
  rw [if_neg (by omega), if_neg (by omega)] at h
  obtain ⟨q, hq, h⟩ := Outcome.bind_eq_ok.mp h
  obtain ⟨r, hr, h⟩ := Outcome.bind_eq_ok.mp h
  rw [setStageProgress_known _ (name := ascii "Execution") (by decide +kernel)] at h
  refine ⟨q, r, hq, hr, ?_⟩
  have := (Prod.mk.inj (Outcome.ok.inj h)).2
  exact this.symm

/-- The accounts after unwinding, exactly: each is what the earliest record that is not empty says, of those the walk reaches;
the walk goes back to the last record of the target block itself, or to the very first one if there is none. -/
theorem unwind_accounts {db db' : Database} {p n : Nat} (hf : ChangeSetsFit db)
    (hp : getStageProgress db (ascii "Execution") = .ok p) (h0 : 0 < n) (hn : n < p)
    (h : unwindExecution db n = .ok (.success, db')) (a : Bytes) (ha : a.length = 20) :
    match ((((db.accountChangeSet.reverse.takeWhile fun e => decide (recordBlock e ≠ n)).reverse).filter fun e =>
        decide (e.2.take 20 = a ∧ e.2.drop 20 ≠ [])).map fun e => e.2.drop 20).head? with
    | none => stored db'.plainState a = stored db.plainState a
    | some v => AccountIs db db' a v := by
  obtain ⟨q, r, hq, hr, hdb⟩ := unwind_parts hp h0 hn h
  rw [walkCollect_fold n _ (fun e he => by rw [hf.accounts.2 e (List.mem_reverse.mp he)])] at hq
  rw [walkCollect_fold n _ (fun e he => by rw [hf.storage.2 e (List.mem_reverse.mp he)]; decide)] at hr
  obtain ⟨q1, _, _, q4⟩ := fold_accounts a db.plainContractCode hf.code _
    (fun e he => hf.accounts.2 e (List.mem_reverse.mp ((List.takeWhile_sublist _).subset he))) _ _ hf.state
    (List.Sublist.refl _) hq
  obtain ⟨_, _, r3, _⟩ := fold_slots (List.replicate 28 0) List.length_replicate _
    (fun e he => hf.storage.2 e (List.mem_reverse.mp ((List.takeWhile_sublist _).subset he))) _ _ q1 hr
  have hst : stored db'.plainState a = stored q.state a := by rw [hdb]; exact r3 a ha
  unfold AccountIs
  rw [hst]
  cases hh : ((((db.accountChangeSet.reverse.takeWhile fun e => decide (recordBlock e ≠ n)).reverse).filter fun e =>
        decide (e.2.take 20 = a ∧ e.2.drop 20 ≠ [])).map fun e => e.2.drop 20).head? with
  | none => rw [hh] at q4; exact q4
  | some v =>
    rw [hh] at q4
    obtain ⟨x, y, k1, k2, k3⟩ := q4
    unfold restoreForUnwind at k2
    by_cases hi : 0 < x.incarnation ∧ x.codeHash = kEmptyHash
    · rw [if_pos hi] at k2
      cases hfi : db.plainContractCode.find (a ++ beFixed 8 x.incarnation) with
      | none => rw [hfi] at k2; cases k2
      | some e =>
        rw [hfi] at k2
        dsimp only at k2
        by_cases he : e.2.length < 32
        · rw [if_pos he] at k2; cases k2
        · rw [if_neg he] at k2
          have hy := Outcome.ok.inj k2
          have hk : e.1 = a ++ beFixed 8 x.incarnation := by simpa using List.find?_some hfi
          refine ⟨x, e.2.take 32, k1, ?_, ?_⟩
          · unfold CodeHashAt
            rw [if_pos hi]
            exact ⟨e.2, hk ▸ List.mem_of_find?_eq_some hfi, rfl⟩
          · rw [k3, ← hy]
    · rw [if_neg hi] at k2
      have hy := Outcome.ok.inj k2
      refine ⟨x, x.codeHash, k1, ?_, ?_⟩
      · unfold CodeHashAt
        rw [if_neg hi]
      · rw [k3, ← hy]

/-- C53 for accounts where the code has it right: if the target block has a record, or all records are later, then accounts
without later records stay, and accounts whose earliest later record is not empty, which existed after the target block, are
restored, with their code hash. Missing: accounts that did not exist then; target blocks without a record. -/
theorem c53_accounts_partial (db db' : Database) (p n : Nat) (hf : ChangeSetsFit db)
    (hp : getStageProgress db (ascii "Execution") = .ok p) (h0 : 0 < n) (hn : n < p)
    (h : unwindExecution db n = .ok (.success, db'))
    (hblock : (∃ e ∈ db.accountChangeSet, recordBlock e = n) ∨ ∀ e ∈ db.accountChangeSet, n < recordBlock e)
    (a : Bytes) (ha : a.length = 20) (hne : (accountRecords db.accountChangeSet n a).head? ≠ some []) :
    AccountRestored db db' n a := by
  have hx := unwind_accounts hf hp h0 hn h a ha
  rw [undone_filter (ordered_blocks hf.accounts.1 fun e he => by rw [hf.accounts.2 e he]) hblock, List.filter_filter] at hx
  unfold AccountRestored accountRecords at *
  generalize db.accountChangeSet = t at hx hne ⊢
  induction t with
  | nil => exact hx
  | cons e t ih =>
    by_cases h1 : n < recordBlock e ∧ e.2.take 20 = a
    · have hd : e.2.drop 20 ≠ [] := by
        intro hd
        apply hne
        rw [List.filter_cons, decide_eq_true h1, if_pos rfl, List.map_cons, List.head?_cons, hd]
      rw [List.filter_cons, decide_eq_true h1, if_pos rfl, List.map_cons, List.head?_cons]
      rw [List.filter_cons, decide_eq_true (⟨h1.2, hd⟩ : e.2.take 20 = a ∧ e.2.drop 20 ≠ []), decide_eq_true h1.1,
        Bool.and_true, if_pos rfl, List.map_cons, List.head?_cons] at hx
      simp only [if_neg hd]
      exact hx
    · have h2 : (decide (e.2.take 20 = a ∧ e.2.drop 20 ≠ []) && decide (n < recordBlock e)) = false := by
        rw [Bool.and_eq_false_iff, decide_eq_false_iff_not, decide_eq_false_iff_not]
        by_cases h3 : n < recordBlock e
        · exact .inl fun h4 => h1 ⟨h3, h4.1⟩
        · exact .inr h3
      rw [List.filter_cons, h2, if_neg (by simp)] at hx
      rw [List.filter_cons, decide_eq_false h1, if_neg (by simp)] at hne
      rw [List.filter_cons, decide_eq_false h1, if_neg (by simp)]
      exact ih hx hne

/-- C53 fails for every account that was created after the target block and not changed since: it stays. -/
theorem c53_created_violated (db db' : Database) (p n : Nat) (hf : ChangeSetsFit db)
    (hp : getStageProgress db (ascii "Execution") = .ok p) (h0 : 0 < n) (hn : n < p)
    (h : unwindExecution db n = .ok (.success, db')) (a : Bytes) (ha : a.length = 20)
    (hcreated : ∀ e ∈ db.accountChangeSet, e.2.take 20 = a → e.2.drop 20 = []) :
    stored db'.plainState a = stored db.plainState a := by
  have hx := unwind_accounts hf hp h0 hn h a ha
  rw [List.filter_eq_nil_iff.mpr] at hx
  · exact hx
  · intro e he
    rw [decide_eq_true_eq]
    rintro ⟨h1, h2⟩
    exact h2 (hcreated e (List.mem_reverse.mp ((List.takeWhile_sublist _).subset (List.mem_reverse.mp he))) h1)

/-- C53 fails if the target block has no record: then everything ever recorded is undone, and an account is what its very
first record that is not empty says. -/
theorem c53_gap_violated (db db' : Database) (p n : Nat) (hf : ChangeSetsFit db)
    (hp : getStageProgress db (ascii "Execution") = .ok p) (h0 : 0 < n) (hn : n < p)
    (h : unwindExecution db n = .ok (.success, db')) (hgap : ∀ e ∈ db.accountChangeSet, recordBlock e ≠ n)
    (e : Bytes × Bytes) (t u : Table) (ht : db.accountChangeSet = t ++ e :: u) (ha : (e.2.take 20).length = 20) (hv : e.2.drop 20 ≠ [])
    (hfirst : ∀ f ∈ t, f.2.take 20 = e.2.take 20 → f.2.drop 20 = []) :
    AccountIs db db' (e.2.take 20) (e.2.drop 20) := by
  have hx := unwind_accounts hf hp h0 hn h (e.2.take 20) ha
  have hall : db.accountChangeSet.reverse.takeWhile (fun e => decide (recordBlock e ≠ n)) = db.accountChangeSet.reverse := by
    refine List.takeWhile_eq_self_iff.mpr fun f hf => ?_
    rw [decide_eq_true_eq]
    exact hgap f (List.mem_reverse.mp hf)
  rw [hall, List.reverse_reverse, ht, List.filter_append, List.filter_eq_nil_iff.mpr (fun f hf => by
      rw [decide_eq_true_eq]
      rintro ⟨h1, h2⟩
      exact h2 (hfirst f hf h1)), List.nil_append, List.filter_cons,
    decide_eq_true (⟨rfl, hv⟩ : e.2.take 20 = e.2.take 20 ∧ e.2.drop 20 ≠ []), if_pos rfl, List.map_cons, List.head?_cons] at hx
  exact hx

/-- C53 for storage where the code has it right: if the target block has a storage record, or all of them are later, then the
only slot of a contract is restored. Missing: contracts with more than one slot; target blocks without a record. -/
theorem c53_storage_partial (db db' : Database) (p n : Nat) (hf : ChangeSetsFit db)
    (hp : getStageProgress db (ascii "Execution") = .ok p) (h0 : 0 < n) (hn : n < p)
    (h : unwindExecution db n = .ok (.success, db'))
    (hblock : (∃ e ∈ db.storageChangeSet, recordBlock e = n) ∨ ∀ e ∈ db.storageChangeSet, n < recordBlock e)
    (k l : Bytes) (hk : k.length = 28) (hl : l.length = 32) (hone : (stored db.plainState k).length ≤ 1)
    (hsame : ∀ r ∈ contractRecords db.storageChangeSet n k, r.1 = l) :
    SlotRestored db db' n k l := by
  obtain ⟨q, r, hq, hr, hdb⟩ := unwind_parts hp h0 hn h
  rw [walkCollect_fold n _ (fun e he => by rw [hf.accounts.2 e (List.mem_reverse.mp he)])] at hq
  rw [walkCollect_fold n _ (fun e he => by rw [hf.storage.2 e (List.mem_reverse.mp he)]; decide)] at hr
  obtain ⟨q1, _, q3, _⟩ := fold_accounts [] db.plainContractCode hf.code _
    (fun e he => hf.accounts.2 e (List.mem_reverse.mp ((List.takeWhile_sublist _).subset he))) _ _ hf.state
    (List.Sublist.refl _) hq
  have hqk : stored q.state k = stored db.plainState k := q3 k (by rw [hk]; decide)
  obtain ⟨_, _, _, r4⟩ := fold_slots k hk _
    (fun e he => hf.storage.2 e (List.mem_reverse.mp ((List.takeWhile_sublist _).subset he))) _ _ q1 hr
  have r4 := r4 (by rw [hqk]; exact hone)
  rw [undone_filter (ordered_blocks hf.storage.1 fun e he => by rw [hf.storage.2 e he]; decide) hblock, List.filter_filter] at r4
  have hrec : ((db.storageChangeSet.filter fun e => decide (e.1.drop 8 = k) && decide (n < recordBlock e)).map fun e =>
      (e.2.take 32, e.2.drop 32)) = contractRecords db.storageChangeSet n k := by
    unfold contractRecords
    congr 1
    refine List.filter_congr fun e _ => ?_
    rw [Bool.and_comm, Bool.decide_and]
  rw [hrec] at r4
  have hst : stored db'.plainState k = stored r.state k := by rw [hdb]
  have hslot : slotRecords db.storageChangeSet n k l = (contractRecords db.storageChangeSet n k).map (·.2) := by
    unfold slotRecords
    rw [List.filter_eq_self.mpr]
    intro x hx
    rw [decide_eq_true_eq]
    exact hsame x hx
  unfold SlotRestored slotValues
  rw [hslot, hst]
  cases hc : contractRecords db.storageChangeSet n k with
  | nil =>
    rw [hc] at r4
    simp only [List.head?_nil, List.map_nil] at r4 ⊢
    rw [r4, hqk]
  | cons x xs =>
    rw [hc] at r4
    simp only [List.head?_cons, List.map_cons] at r4 ⊢
    have hxl : x.1 = l := hsame x (by rw [hc]; exact List.mem_cons_self)
    rw [r4]
    by_cases hx : x.2 = []
    · rw [if_pos hx, if_pos hx]; rfl
    · rw [if_neg hx, if_neg hx, hxl, List.filter_cons, decide_eq_true (List.take_left' hl), if_pos rfl]
      rfl

/-- C53 fails with an exception if the latest storage record is about a contract without slots: unwinding cannot bring back
the last slot that was cleared. -/
theorem c53_cleared_violated (db : Database) (p n : Nat) (hp : getStageProgress db (ascii "Execution") = .ok p) (h0 : 0 < n)
    (hn : n < p) (ha : db.accountChangeSet = []) (e : Bytes × Bytes) (hl : db.storageChangeSet.getLast? = some e)
    (he : e.1.length = 36 ∧ 32 ≤ e.2.length) (hb : recordBlock e ≠ n) (hs : stored db.plainState (e.1.drop 8) = []) :
    unwindExecution db n = .err (.db .notFound) := by
  obtain ⟨t, ht⟩ := List.getLast?_eq_some_iff.mp hl
  have hd8 : (e.1.drop 8).length = 28 := by rw [List.length_drop]; omega
  have htk : (e.1.drop 8).take 28 = e.1.drop 8 := List.take_of_length_le (by omega)
  have hlen : ((e.1.drop 8).take 28 ++ e.2.take 32).length = 60 := by
    rw [List.length_append, htk, hd8, List.length_take]; omega
  have hk1 : ((e.1.drop 8).take 28 ++ e.2.take 32).take 28 = e.1.drop 8 := by
    rw [htk, ← hd8, List.take_left]
  unfold unwindExecution
  simp only [hp, liftDb, Outcome.ok_bind, ha]
  rw [if_neg (by omega), if_neg (by omega), ht, List.reverse_append]
  show walkCollect n (e :: t.reverse) ⟨db.plainState, db.plainContractCode⟩ >>= _ = _
  have hb : ¬ beToNat (e.1.take 8) = n := hb
  unfold walkCollect loadBig64 convertToDbFormat
  rw [if_pos (by omega), Outcome.ok_bind, if_neg hb, if_neg (by omega), if_neg (by omega), Outcome.ok_bind]
  unfold collectForUnwind unwindSlot Table.findMultivalue
  dsimp only
  rw [if_neg (by omega), if_neg (by omega), hk1, find_stored, hs]
  rfl

/-- C53 fails for block zero: everything is deleted, whatever the state was at the beginning. -/
theorem c53_genesis_violated (db : Database) (p : Nat) (hp : getStageProgress db (ascii "Execution") = .ok p) :
    ∃ db', unwindExecution db 0 = .ok (.success, db') ∧ db'.plainState = [] ∧ getStageProgress db' (ascii "Execution") = .ok 0 := by
  unfold unwindExecution
  simp only [hp, liftDb, Outcome.ok_bind]
  rw [if_pos trivial, setStageProgress_known _ (name := ascii "Execution") (by decide +kernel)]
  exact ⟨_, rfl, rfl, getStageProgress_upsert _ (name := ascii "Execution") (by decide +kernel) (by decide)⟩

/-- C53: a target that is not below the progress leaves everything as it is. -/
theorem c53_nothing (db : Database) (p n : Nat) (hp : getStageProgress db (ascii "Execution") = .ok p) (h0 : 0 < n) (hn : p ≤ n) :
    unwindExecution db n = .ok (.success, db) := by
  unfold unwindExecution
  simp only [hp, liftDb, Outcome.ok_bind]
  rw [if_neg (by omega), if_pos hn]

theorem takeWhile_before {t : Table} {n : Nat} {v : Bytes} (hn : n + 1 < 2 ^ 64) (ht : MultiOrdered t) (h8 : ∀ e ∈ t, e.1.length = 8)
    (hm : (beFixed 8 (n + 1), v) ∈ t) :
    (t.takeWhile fun e => e.1 != beFixed 8 (n + 1)) = t.filter fun e => decide (beToNat e.1 ≤ n) := by
  have h64 : (256 : Nat) ^ 8 = 2 ^ 64 := by decide
  have hb : beToNat (beFixed 8 (n + 1)) = n + 1 := beToNat_beFixed (by omega)
  induction t with
  | nil => cases hm
  | cons e t ih =>
    obtain ⟨h1, h2⟩ := List.pairwise_cons.mp ht
    rw [List.takeWhile_cons, List.filter_cons]
    by_cases he : e.1 = beFixed 8 (n + 1)
    · rw [he, hb, decide_eq_false (by omega)]
      simp only [bne_self_eq_false, Bool.false_eq_true, if_false]
      symm
      rw [List.filter_eq_nil_iff]
      intro f hf
      rw [decide_eq_true_eq]
      rcases h1 f hf with h | ⟨h, _⟩
      · rw [key_lt (h8 e List.mem_cons_self) (h8 f (List.mem_cons_of_mem _ hf)), he, hb] at h
        omega
      · rw [← h, he, hb]; omega
    · have hm : (beFixed 8 (n + 1), v) ∈ t := by
        rcases List.mem_cons.mp hm with h | h
        · rw [← h] at he; exact absurd rfl he
        · exact h
      have hlt : beToNat e.1 ≤ n := by
        rcases h1 _ hm with h | ⟨h, _⟩
        · rw [key_lt (h8 e List.mem_cons_self) (h8 _ (List.mem_cons_of_mem _ hm)), hb] at h
          omega
        · exact absurd h he
      rw [decide_eq_true hlt, if_pos rfl, if_pos (by simpa using he), ih h2 (fun f hf => h8 f (List.mem_cons_of_mem _ hf)) hm]

/-- C53 for the tables of account changes and receipts where the code has it right: if the block after the target has an
entry, exactly the entries up to the target block remain; the progress is the target block. Missing: blocks without entries. -/
theorem c53_tables_partial (db db' : Database) (p n : Nat) (hp : getStageProgress db (ascii "Execution") = .ok p) (h0 : 0 < n)
    (hn : n < p) (hp64 : p < 2 ^ 64) (h : unwindExecution db n = .ok (.success, db')) :
    getStageProgress db' (ascii "Execution") = .ok n ∧
    (ChangeSetsFit db → (∃ v, (beFixed 8 (n + 1), v) ∈ db.accountChangeSet) →
      db'.accountChangeSet = db.accountChangeSet.filter fun e => decide (beToNat e.1 ≤ n)) ∧
    (Ordered db.blockReceipts → (∀ e ∈ db.blockReceipts, e.1.length = 8) → (∃ v, (beFixed 8 (n + 1), v) ∈ db.blockReceipts) →
      db'.blockReceipts = db.blockReceipts.filter fun e => decide (beToNat e.1 ≤ n)) := by
  obtain ⟨q, r, hq, hr, hdb⟩ := unwind_parts hp h0 hn h
  have hmod : (n + 1) % 2 ^ 64 = n + 1 := Nat.mod_eq_of_lt (by omega)
  have hcut : ∀ {t : Table} {v : Bytes}, MultiOrdered t → (∀ e ∈ t, e.1.length = 8) → (beFixed 8 (n + 1), v) ∈ t →
      unwindTableFrom t (beFixed 8 (n + 1)) = t.filter fun e => decide (beToNat e.1 ≤ n) := by
    intro t v ho h8 hm
    unfold unwindTableFrom
    have : (t.find (beFixed 8 (n + 1))).isSome := by
      unfold Table.find
      rw [List.find?_isSome]
      exact ⟨_, hm, by simp⟩
    rw [if_pos this, takeWhile_before (by omega) ho h8 hm]
  refine ⟨?_, fun hf ⟨v, hv⟩ => ?_, fun ho h8 ⟨v, hv⟩ => ?_⟩
  · rw [hdb]
    exact getStageProgress_upsert _ (by decide +kernel) (by omega)
  · rw [hdb]
    show unwindTableFrom db.accountChangeSet _ = _
    rw [hmod, hcut hf.accounts.1 hf.accounts.2 hv]
  · rw [hdb]
    show unwindTableFrom db.blockReceipts _ = _
    rw [hmod, hcut (ho.imp fun h => .inl h) h8 hv]

/-- Storage records and logs of the blocks that are undone always remain, since their keys are longer than the one that is
looked for. -/
theorem c53_leftovers_violated (db db' : Database) (p n : Nat) (hp : getStageProgress db (ascii "Execution") = .ok p) (h0 : 0 < n)
    (hn : n < p) (h : unwindExecution db n = .ok (.success, db')) (hs : ∀ e ∈ db.storageChangeSet, e.1.length = 36)
    (hl : ∀ e ∈ db.logs, e.1.length = 12) : db'.storageChangeSet = db.storageChangeSet ∧ db'.logs = db.logs := by
  obtain ⟨q, r, hq, hr, hdb⟩ := unwind_parts hp h0 hn h
  have hkeep : ∀ (t : Table), (∀ e ∈ t, e.1.length ≠ 8) → ∀ m, unwindTableFrom t (beFixed 8 m) = t := by
    intro t ht m
    unfold unwindTableFrom
    have : t.find (beFixed 8 m) = none := by
      unfold Table.find
      rw [List.find?_eq_none]
      intro e he hk
      have hk : e.1 = beFixed 8 m := by simpa using hk
      exact ht e he (by rw [hk, beFixed_length])
    rw [this]
    rfl
  rw [hdb]
  exact ⟨hkeep _ (fun e he => by rw [hs e he]; decide) _, hkeep _ (fun e he => by rw [hl e he]; decide) _⟩

/-- Accounts one and two as they are after block five, and the contract three with two slots. Block three changed account one;
block five changed it again, created account two and changed both slots of the contract. -/
def exUnwindDb : Database :=
  { plainState :=
      [(exAddr 1, ({ balance := 9 } : Account).encodeForStorage), (exAddr 2, ({ balance := 4 } : Account).encodeForStorage),
       (exAddr 3 ++ beFixed 8 1, exWord 1 ++ [7]), (exAddr 3 ++ beFixed 8 1, exWord 2 ++ [8])]
    accountChangeSet :=
      [(beFixed 8 3, exAddr 1 ++ ({ balance := 1 } : Account).encodeForStorage),
       (beFixed 8 5, exAddr 1 ++ ({ balance := 2 } : Account).encodeForStorage), (beFixed 8 5, exAddr 2)]
    storageChangeSet :=
      [(beFixed 8 3 ++ exAddr 3 ++ beFixed 8 1, exWord 2 ++ [4]), (beFixed 8 5 ++ exAddr 3 ++ beFixed 8 1, exWord 2 ++ [5])]
    stageProgress := [(ascii "Execution", beFixed 8 5)] }

theorem exUnwind_fits : ChangeSetsFit exUnwindDb := by
  constructor <;> decide +kernel

/-- What unwinding leaves of the plain state, if it succeeds. -/
def exUnwound (db : Database) (n : Nat) : Option Table :=
  match unwindExecution db n with
  | .ok (.success, db') => some db'.plainState
  | _ => none

/-- Unwinding to block three: account one is restored, account two stays although it did not exist, and instead of the second
slot of the contract, the first one is lost. -/
example : exUnwound exUnwindDb 3 =
    some [(exAddr 1, ({ balance := 2 } : Account).encodeForStorage), (exAddr 2, ({ balance := 4 } : Account).encodeForStorage),
      (exAddr 3 ++ beFixed 8 1, exWord 2 ++ [5]), (exAddr 3 ++ beFixed 8 1, exWord 2 ++ [8])] := by decide +kernel

/-- Unwinding to block four, which has no records, undoes block three, too. -/
example : (exUnwound exUnwindDb 4).map (·.head?) =
    some (some (exAddr 1, ({ balance := 1 } : Account).encodeForStorage)) := by decide +kernel

theorem exUnwound_ok {db : Database} {n : Nat} {t : Table} (h : exUnwound db n = some t) :
    ∃ db', unwindExecution db n = .ok (.success, db') ∧ db'.plainState = t := by
  unfold exUnwound at h
  split at h
  · rename_i db' h1
    exact ⟨db', h1, Option.some.inj h⟩
  · cases h

/-- C53 fails: the storage of the contract is not as it was, since the record of one slot erases another one. -/
theorem c53_slots_violated : ∃ db', ChangeSetsFit exUnwindDb ∧ getStageProgress exUnwindDb (ascii "Execution") = .ok 5 ∧
    unwindExecution exUnwindDb 3 = .ok (.success, db') ∧ ¬ SlotRestored exUnwindDb db' 3 (exAddr 3 ++ beFixed 8 1) (exWord 1) ∧
    ¬ SlotRestored exUnwindDb db' 3 (exAddr 3 ++ beFixed 8 1) (exWord 2) := by
  obtain ⟨db', h1, h2⟩ := exUnwound_ok (db := exUnwindDb) (n := 3) rfl
  refine ⟨db', exUnwind_fits, by decide +kernel, h1, ?_, ?_⟩ <;>
  · unfold SlotRestored slotValues
    rw [h2]
    decide +kernel

/-- C53 does not hold. -/
theorem c53_violated : ¬ C53_statement := by
  intro h
  obtain ⟨db', h1, h2, h3, h4, _⟩ := c53_slots_violated
  exact h4 ((h _ _ 5 3 h1 h2 (by decide) h3).2 _ _ (by decide +kernel) (by decide +kernel))

/-- The theorem on accounts, for account one. -/
example : ∃ db', unwindExecution exUnwindDb 3 = .ok (.success, db') ∧ AccountRestored exUnwindDb db' 3 (exAddr 1) := by
  obtain ⟨db', h1, _⟩ := exUnwound_ok (db := exUnwindDb) (n := 3) rfl
  exact ⟨db', h1, c53_accounts_partial _ _ 5 3 exUnwind_fits (by decide +kernel) (by decide) (by decide) h1
    (.inl ⟨_, List.mem_cons_self, by decide +kernel⟩) _ (by decide +kernel) (by decide +kernel)⟩

/-- A contract with a single slot, changed by blocks five and six. -/
def exUnwindSlot : Database :=
  { plainState := [(exAddr 3 ++ beFixed 8 1, exWord 2 ++ [8])]
    storageChangeSet :=
      [(beFixed 8 5 ++ exAddr 3 ++ beFixed 8 1, exWord 2 ++ [5]), (beFixed 8 6 ++ exAddr 3 ++ beFixed 8 1, exWord 2 ++ [6])]
    stageProgress := [(ascii "Execution", beFixed 8 6)] }

theorem exUnwindSlot_fits : ChangeSetsFit exUnwindSlot := by
  constructor <;> decide +kernel

example : exUnwound exUnwindSlot 4 = some [(exAddr 3 ++ beFixed 8 1, exWord 2 ++ [5])] := by decide +kernel

example : ∃ db', unwindExecution exUnwindSlot 5 = .ok (.success, db') ∧
    SlotRestored exUnwindSlot db' 5 (exAddr 3 ++ beFixed 8 1) (exWord 2) := by
  obtain ⟨db', h1, _⟩ := exUnwound_ok (db := exUnwindSlot) (n := 5) rfl
  exact ⟨db', h1, c53_storage_partial _ _ 6 5 exUnwindSlot_fits (by decide +kernel) (by decide) (by decide) h1
    (.inl ⟨_, List.mem_cons_self, by decide +kernel⟩) _ _ (by decide +kernel) (by decide +kernel) (by decide +kernel)
    (by decide +kernel)⟩

/-- The last slot of the contract was cleared: unwinding ends with an exception. -/
example : unwindExecution { exUnwindSlot with plainState := [] } 5 = .err (.db .notFound) :=
  c53_cleared_violated _ 6 5 (by decide +kernel) (by decide) (by decide) rfl _ rfl (by decide +kernel) (by decide +kernel)
    (by decide +kernel)

end Silkworm.Properties
