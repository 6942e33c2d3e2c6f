import Verif.Tools.StageCommands
import Verif.Stages.Lemmas

/-!
# Lemmas about the commands that run one stage
-/

namespace Silkworm.Tools

open Silkworm.Db Silkworm.Etl
open Silkworm.Stages

theorem runStage_zero {db db' : Database} {x : Outcome StageError (StageResult × Database)} (h : runStage db x = .ok (0, db')) :
    x = .ok (.success, db') ∨ x = .ok (.badBlockHash, db') := by
  unfold runStage at h
  split at h
  · rename_i r db1
    injection h with h
    obtain ⟨h1, h2⟩ := Prod.mk.inj h
    subst h2
    cases r
    · exact Or.inl rfl
    · exact Or.inr rfl
    all_goals exact absurd h1 (by decide)
  · injection h with h
    exact absurd (Prod.mk.inj h).1 (by decide)
  · cases h

theorem runStage_status {db db' : Database} {s : Int} {x : Outcome StageError (StageResult × Database)}
    (h : runStage db x = .ok (s, db')) : s = 0 ∨ s = -5 := by
  unfold runStage at h
  split at h
  · injection h with h
    rw [← (Prod.mk.inj h).1]
    split
    · exact Or.inr rfl
    · exact Or.inl rfl
  · injection h with h
    exact Or.inr (Prod.mk.inj h).1.symm
  · cases h

/-- With a result that is never a bad hash, the status tells whether the stage succeeded. -/
theorem runStage_iff {db : Database} {x : Outcome StageError (StageResult × Database)}
    (hx : ∀ db', x ≠ .ok (.badBlockHash, db')) (db' : Database) : runStage db x = .ok (0, db') ↔ x = .ok (.success, db') := by
  constructor
  · intro h
    rcases runStage_zero h with h | h
    · exact h
    · exact absurd h (hx db')
  · intro h
    rw [h]
    rfl

theorem bind_ne {ε α β : Type} {x : Outcome ε α} {f : α → Outcome ε β} {y : β} (h : ∀ a, f a ≠ .ok y) : (x >>= f) ≠ .ok y := by
  cases x with
  | ok a => exact h a
  | err e => intro hc; cases hc
  | ub => intro hc; cases hc

theorem historyIndexStage_result {d : Disk} {R : Roaring} {order : MapOrder} {name : Bytes}
    {key : Bytes × Bytes → Outcome StageError Bytes} {records index : Table} {replace : Table → Database} {db db' : Database} :
    historyIndexStage d R order name key records index replace db ≠ .ok (.badBlockHash, db') := by
  unfold historyIndexStage
  refine bind_ne fun p => bind_ne fun r => ?_
  dsimp only
  split
  · intro h; cases h
  · exact bind_ne fun t => bind_ne fun x h => by cases h

theorem stageLogIndex_result {d : Nat → Disk} {R : Roaring} {order : MapOrder} {strings : Bytes → List Bytes} {db db' : Database} :
    stageLogIndex d R order strings db ≠ .ok (.badBlockHash, db') := by
  unfold stageLogIndex
  exact bind_ne fun p => bind_ne fun r => bind_ne fun t => bind_ne fun a => bind_ne fun x h => by cases h

theorem stageTxLookup_result {d : Disk} {keccak : Bytes → Bytes} {db db' : Database} :
    stageTxLookup d keccak db ≠ .ok (.badBlockHash, db') := by
  unfold stageTxLookup
  refine bind_ne fun p => bind_ne fun r => ?_
  obtain ⟨es, number⟩ := r
  dsimp only
  split
  · intro h; cases h
  · exact bind_ne fun t => bind_ne fun x h => by cases h

theorem unwindExecution_result {db db' : Database} {n : Nat} {r : StageResult} (h : unwindExecution db n = .ok (r, db')) :
    r = .success := by
  by_cases hr : r = .success
  · exact hr
  · exfalso
    revert h
    unfold unwindExecution
    refine bind_ne fun p => ?_
    split
    · exact bind_ne fun x h => by injection h with h; exact hr (Prod.mk.inj h).1.symm
    · split
      · intro h; injection h with h; exact hr (Prod.mk.inj h).1.symm
      · exact bind_ne fun x => bind_ne fun y => bind_ne fun z h => by injection h with h; exact hr (Prod.mk.inj h).1.symm

/-- Unwinding the hashed state succeeds, or is aborted and leaves the database. -/
theorem unwindHashState_result {keccak : Bytes → Bytes} {db db' : Database} {n : Nat} {r : StageResult}
    (h : unwindHashState keccak n db = .ok (r, db')) : r = .success ∨ r = .aborted ∧ db' = db := by
  by_cases hr : r = .success
  · exact Or.inl hr
  · refine Or.inr ?_
    unfold unwindHashState orAborted at h
    split at h
    · injection h with h
      obtain ⟨h1, h2⟩ := Prod.mk.inj h
      exact ⟨h1.symm, h2.symm⟩
    · by_cases hd : r = .aborted ∧ db' = db
      · exact hd
      · exfalso
        revert h
        refine bind_ne fun p => ?_
        split
        · intro h
          injection h with h
          obtain ⟨h1, h2⟩ := Prod.mk.inj h
          exact hd ⟨h1.symm, h2.symm⟩
        · exact bind_ne fun x => bind_ne fun z h => by injection h with h; exact hr (Prod.mk.inj h).1.symm

/-- The only results of the stage of hashes: nothing to do, a bad sequence or a bad hash; the database is left. -/
theorem stageBlockHashes_database {d : Disk} {db db' : Database} {r : StageResult} (h : stageBlockHashes d db = .ok (r, db')) :
    db' = db := by
  by_cases hd : db' = db
  · exact hd
  · exfalso
    revert h
    unfold stageBlockHashes
    refine bind_ne fun p => ?_
    dsimp only
    split
    · intro h; injection h with h; exact hd (Prod.mk.inj h).2.symm
    · exact bind_ne fun x h => by injection h with h; exact hd (Prod.mk.inj h).2.symm

theorem Table.upsert_upsert (t : Table) (k v w : Bytes) : (t.upsert k v).upsert k w = t.upsert k w := by
  induction t with
  | nil => simp [Table.upsert]
  | cons e t ih =>
    obtain ⟨k', v'⟩ := e
    simp only [Table.upsert]
    split
    · simp only [Table.upsert, if_pos trivial]
    · split
      · rename_i h1 h2
        simp only [Table.upsert, if_pos trivial]
      · rename_i h1 h2
        simp only [Table.upsert, if_neg h1, h2, ih]
        rfl

end Silkworm.Tools
