import Verif.Db.ChangeSetLemmas
import Verif.Properties.DbState

/-!
# C84: change sets, C86: progress of stages
-/

namespace Silkworm.Properties

open Silkworm.Db Silkworm.Spec State

theorem Reached.records {calls : List BufferCall} {b : Db.Buffer} (h : Reached calls b) : b.ChangesWF ∧
    (∀ n a, b.accountChange? n a = accountEntry n a 0 false none calls) ∧
    (∀ n a i k, b.slotChange? n a i k = slotEntry n a i k 0 none calls) := by
  obtain ⟨b', h1, h2, h3, h4⟩ := Buffer.applyAll_records calls {} Buffer.changesWF_empty h.1
  rw [h.2] at h1
  cases Outcome.ok.inj h1
  exact ⟨h2, h3, h4⟩

/-- C84: what calls record of accounts is read from the change set of each block after writing, if the database had no change
set for the block. -/
theorem c84_account_changes (calls : List BufferCall) (b : Db.Buffer) (hb : Reached calls b) (db : Database)
    (n : Nat) (hn : n < 2 ^ 64) (hnew : stored db.accountChangeSet (blockKey n) = []) :
    ∃ m, readAccountChanges (b.writeToDb db) n = .ok m ∧ ∀ a, a.length = 20 → m.get? a = accountEntry n a 0 false none calls := by
  obtain ⟨hw, hrec, _⟩ := hb.records
  have hmem : ∀ v, (blockKey n, v) ∈ (b.writeToDb db).accountChangeSet ↔
      ∃ a x, b.accountChange? n a = some x ∧ v = a ++ x := by
    intro v
    show (blockKey n, v) ∈ Buffer.writeAccountChanges db.accountChangeSet b.accountChanges ↔ _
    rw [mem_writeAccountChanges]
    have hno : (blockKey n, v) ∉ db.accountChangeSet := by
      intro h
      have := mem_stored.mpr h
      rw [hnew] at this
      cases this
    simp only [hno, false_or]
    constructor
    · rintro ⟨m, hm, e, he, heq⟩
      have hg := AMap.get?_of_mem hw.accounts hm
      obtain ⟨h1, h2, _⟩ := hw.account _ _ hg
      have hk := ((c46_block_key_order n m.1 hn h1).2.1).mp (Prod.mk.inj heq).1
      refine ⟨e.1, e.2, ?_, (Prod.mk.inj heq).2⟩
      unfold Buffer.accountChange?
      rw [hk, hg, Option.getD_some]
      exact AMap.get?_of_mem h2 he
    · rintro ⟨a, x, hx, rfl⟩
      unfold Buffer.accountChange? at hx
      cases hm : b.accountChanges.get? n with
      | none => rw [hm] at hx; cases hx
      | some m =>
        rw [hm, Option.getD_some] at hx
        exact ⟨(n, m), AMap.mem_of_get? hm, (a, x), AMap.mem_of_get? hx, rfl⟩
  have hlen : ∀ a x, b.accountChange? n a = some x → a.length = 20 := by
    intro a x hx
    unfold Buffer.accountChange? at hx
    cases hm : b.accountChanges.get? n with
    | none => rw [hm] at hx; cases hx
    | some m =>
      rw [hm, Option.getD_some] at hx
      refine (hw.account n m hm).2.2 a ?_
      by_contra hc
      rw [AMap.get?_eq_none_iff.mpr hc] at hx
      cases hx
  have hf : ∀ e, e ∈ (b.writeToDb db).accountChangeSet.filter (fun e => e.1 == blockKey n) ↔
      e.1 = blockKey n ∧ ∃ a x, b.accountChange? n a = some x ∧ e.2 = a ++ x := by
    rintro ⟨k, v⟩
    rw [List.mem_filter]
    constructor
    · rintro ⟨h1, h2⟩
      have : k = blockKey n := by simpa using h2
      subst this
      exact ⟨rfl, (hmem v).mp h1⟩
    · rintro ⟨h1, h2⟩
      simp only at h1 h2
      subst h1
      exact ⟨(hmem v).mpr h2, by simp⟩
  obtain ⟨m, h1, h2⟩ := collectAccountChanges_spec ((b.writeToDb db).accountChangeSet.filter (fun e => e.1 == blockKey n)) []
    (by
      intro e he
      obtain ⟨_, a, x, hx, hv⟩ := (hf e).mp he
      rw [hv, List.length_append, hlen a x hx]
      omega)
  refine ⟨m, h1, ?_⟩
  intro a ha
  obtain ⟨g1, g2⟩ := h2 a ha
  have hinj : ∀ x y, (∃ e ∈ (b.writeToDb db).accountChangeSet.filter (fun e => e.1 == blockKey n), e.2 = a ++ x) →
      b.accountChange? n a = some y ∨ b.accountChange? n a = none → b.accountChange? n a = some x := by
    rintro x y ⟨e, he, hx⟩ _
    obtain ⟨_, a', x', h, hv⟩ := (hf e).mp he
    rw [hv] at hx
    obtain ⟨rfl, rfl⟩ := List.append_inj hx ((hlen _ _ h).trans ha.symm)
    exact h
  rw [← hrec n a]
  cases hc : b.accountChange? n a with
  | none =>
    rw [g1]
    · rfl
    · intro x e he hx
      have := hinj x [] ⟨e, he, hx⟩ (Or.inr hc)
      rw [hc] at this
      cases this
  | some v =>
    refine g2 v ⟨(blockKey n, a ++ v), (hf _).mpr ⟨rfl, a, v, hc, rfl⟩, rfl⟩ ?_
    intro x hx
    have := hinj x v hx (Or.inl hc)
    rw [hc] at this
    exact (Option.some.inj this).symm

/-- C84: what calls record of storage is read from the change set of each block after writing, if the database had no change
set for the block. -/
theorem c84_storage_changes (calls : List BufferCall) (b : Db.Buffer) (hb : Reached calls b) (db : Database)
    (ho : MultiOrdered db.storageChangeSet) (n : Nat) (hn : n < 2 ^ 64)
    (hnew : ∀ e ∈ db.storageChangeSet, ¬ blockKey n <+: e.1) :
    ∃ m, readStorageChanges (b.writeToDb db) n = .ok m ∧ ∀ a i k, a.length = 20 → i < 2 ^ 64 → k.length = 32 →
      MemoryBuffer.nestedGet? m a i k = slotEntry n a i k 0 none calls := by
  obtain ⟨hw, _, hrec⟩ := hb.records
  have ho2 : MultiOrdered (b.writeToDb db).storageChangeSet := ordered_writeStorageChanges ho _
  have hfit : ∀ a i k v, b.slotChange? n a i k = some v → a.length = 20 ∧ i < 2 ^ 64 ∧ k.length = 32 := by
    intro a i k v hv
    unfold Buffer.slotChange? at hv
    cases hm : b.storageChanges.get? n with
    | none => rw [hm] at hv; cases hv
    | some m =>
      rw [hm, Option.getD_some] at hv
      exact (hw.slots n m hm).2.2 a i k v hv
  have hf : ∀ e, e ∈ (b.writeToDb db).storageChangeSet.filter (fun e => (blockKey n).isPrefixOf e.1) ↔
      ∃ a i k v, b.slotChange? n a i k = some v ∧ e = (storageChangeKey n a i, k ++ v) := by
    intro e
    rw [List.mem_filter]
    show (e ∈ Buffer.writeStorageChanges db.storageChangeSet b.storageChanges ∧ _) ↔ _
    rw [mem_writeStorageChanges]
    constructor
    · rintro ⟨h1 | ⟨m, hm, x, hx, rfl⟩, h2⟩
      · exact absurd (List.isPrefixOf_iff_prefix.mp h2) (hnew e h1)
      · have hg := AMap.get?_of_mem hw.storage hm
        obtain ⟨k1, k2, _⟩ := hw.slots _ _ hg
        obtain ⟨s, hs⟩ := List.isPrefixOf_iff_prefix.mp h2
        have hnm : n = m.1 := by
          have hs : blockKey n ++ s = blockKey m.1 ++ (x.1 ++ beFixed 8 x.2.1) := by
            rw [hs]; simp [storageChangeKey, blockKey]
          have := (List.append_inj hs (by simp [blockKey])).1
          exact ((c46_block_key_order n m.1 hn k1).2.1).mp this
        refine ⟨x.1, x.2.1, x.2.2.1, x.2.2.2, ?_, by rw [hnm]⟩
        unfold Buffer.slotChange?
        rw [hnm, hg, Option.getD_some]
        exact (MemoryBuffer.mem_nestedEntries k2 x.1 x.2.1 x.2.2.1 x.2.2.2).mp hx
    · rintro ⟨a, i, k, v, hv, rfl⟩
      have hpre : (blockKey n).isPrefixOf (storageChangeKey n a i) = true := by
        rw [List.isPrefixOf_iff_prefix]
        exact ⟨a ++ beFixed 8 i, by simp [storageChangeKey, blockKey]⟩
      refine ⟨Or.inr ?_, hpre⟩
      unfold Buffer.slotChange? at hv
      cases hm : b.storageChanges.get? n with
      | none => rw [hm] at hv; cases hv
      | some m =>
        rw [hm, Option.getD_some] at hv
        exact ⟨(n, m), AMap.mem_of_get? hm, (a, i, k, v),
          (MemoryBuffer.mem_nestedEntries (hw.slots n m hm).2.1 a i k v).mpr hv, rfl⟩
  obtain ⟨m, h1, h2⟩ := collectStorageChanges_spec n
    ((b.writeToDb db).storageChangeSet.filter (fun e => (blockKey n).isPrefixOf e.1)) []
    (by
      intro e he
      obtain ⟨a, i, k, v, hv, rfl⟩ := (hf e).mp he
      exact ⟨a, i, (hfit a i k v hv).1, (hfit a i k v hv).2.1, rfl⟩)
    (by
      intro e he
      obtain ⟨a, i, k, v, hv, rfl⟩ := (hf e).mp he
      rw [List.length_append, (hfit a i k v hv).2.2]
      omega)
  refine ⟨m, ?_, ?_⟩
  · unfold readStorageChanges
    rw [collectStorageChanges_takeWhile, walk_prefix ho2]
    exact h1
  · intro a i k ha hi hk
    obtain ⟨g1, g2⟩ := h2 a i k ha hi hk
    have hin : ∀ x, (storageChangeKey n a i, k ++ x) ∈
        (b.writeToDb db).storageChangeSet.filter (fun e => (blockKey n).isPrefixOf e.1) → b.slotChange? n a i k = some x := by
      intro x hx
      obtain ⟨a', i', k', x', hv, heq⟩ := (hf _).mp hx
      obtain ⟨f1, f2, f3⟩ := hfit a' i' k' x' hv
      obtain ⟨q1, q2⟩ := Prod.mk.inj heq
      obtain ⟨_, rfl, rfl⟩ := (c46_storage_change_key_order n n a a' i i' hn hn ha f1 hi f2).2.mp q1
      obtain ⟨rfl, rfl⟩ := List.append_inj q2 (hk.trans f3.symm)
      exact hv
    rw [← hrec n a i k]
    cases hc : b.slotChange? n a i k with
    | none =>
      rw [g1]
      · rfl
      · intro x hx
        have := hin x hx
        rw [hc] at this
        cases this
    | some v =>
      refine g2 v ((hf _).mpr ⟨a, i, k, v, hc, rfl⟩) ?_
      intro x hx
      have := hin x hx
      rw [hc] at this
      exact (Option.some.inj this).symm

example : readAccountChanges (exDbBuffer.writeToDb exDb0) 9 =
    .ok [(exAddr 9, exAcc1.encodeForStorage false), (exAddr 8, exAcc2.encodeForStorage true), (exAddr 7, [])] := by
  decide +kernel
example : accountEntry 9 (exAddr 8) 0 false none exDbCalls = some (exAcc2.encodeForStorage true) ∧
    accountEntry 10 (exAddr 8) 0 false none exDbCalls = none ∧
    slotEntry 9 (exAddr 7) 2 (exWord 5) 0 none exDbCalls = some [] ∧
    slotEntry 10 (exAddr 7) 2 (exWord 5) 0 none exDbCalls = some [0x01, 0x2c] := by decide +kernel
example : (readStorageChanges (exDbBuffer.writeToDb exDb0) 10 >>= fun m =>
    .ok (MemoryBuffer.nestedGet? m (exAddr 7) 2 (exWord 5))) = .ok (some [0x01, 0x2c]) := by decide +kernel
example : ∃ m, readStorageChanges (exDbBuffer.writeToDb exDb0) 10 = .ok m ∧
    ∀ a i k, a.length = 20 → i < 2 ^ 64 → k.length = 32 →
      MemoryBuffer.nestedGet? m a i k = slotEntry 10 a i k 0 none exDbCalls :=
  c84_storage_changes exDbCalls exDbBuffer exReached exDb0 (by decide) 10 (by decide) (by intro e he; cases he)

/-! ## C86 -/

/-- C86: the progress of a known stage is read as it was written last, and the other stages keep theirs. -/
theorem c86_progress (db : Database) (name : Bytes) (n : Nat) (hk : name ∈ kAllStages) (hn : n < 2 ^ 64) :
    ∃ db', setStageProgress db name n = .ok db' ∧ getStageProgress db' name = .ok n ∧
      (∀ other, other ≠ name → getStageProgress db' other = getStageProgress db other) ∧
      (∀ other, getStageUnwind db' other = getStageUnwind db other) := by
  have hkn : isKnownStage name = true := by
    unfold isKnownStage
    rw [Bool.and_eq_true]
    refine ⟨?_, List.contains_iff_mem.mpr hk⟩
    revert hk
    generalize name = x
    have : ∀ x ∈ kAllStages, (!x.isEmpty) = true := by decide +kernel
    exact this x
  refine ⟨{ db with stageProgress := db.stageProgress.upsert name (beFixed 8 n) }, ?_, ?_, ?_, fun _ => rfl⟩
  · unfold setStageProgress setStageData
    rw [hkn]; rfl
  · unfold getStageProgress getStageData
    simp only [hkn, Bool.not_true, Bool.false_eq_true, if_false, Table.find_upsert_same, Silkworm.beFixed_length, ne_eq,
      not_true_eq_false]
    rw [Silkworm.beToNat_beFixed (u64 hn)]
  · intro other ho
    unfold getStageProgress getStageData
    simp only [Table.find_upsert_other _ _ ho]

/-- C86: the same for the point to unwind to; clearing sets it to zero. -/
theorem c86_unwind (db : Database) (name : Bytes) (n : Nat) (hk : name ∈ kAllStages) (hn : n < 2 ^ 64) :
    (∃ db', setStageUnwind db name n = .ok db' ∧ getStageUnwind db' name = .ok n ∧
      (∀ other, other ≠ name → getStageUnwind db' other = getStageUnwind db other) ∧
      (∀ other, getStageProgress db' other = getStageProgress db other)) ∧
    (∃ db', clearStageUnwind db name = .ok db' ∧ getStageUnwind db' name = .ok 0) := by
  have hkn : isKnownStage name = true := by
    unfold isKnownStage
    rw [Bool.and_eq_true]
    refine ⟨?_, List.contains_iff_mem.mpr hk⟩
    revert hk
    generalize name = x
    have : ∀ x ∈ kAllStages, (!x.isEmpty) = true := by decide +kernel
    exact this x
  have key : ∀ n, n < 2 ^ 64 → ∃ db', setStageUnwind db name n = .ok db' ∧ getStageUnwind db' name = .ok n ∧
      (∀ other, other ≠ name → getStageUnwind db' other = getStageUnwind db other) ∧
      (∀ other, getStageProgress db' other = getStageProgress db other) := by
    intro n hn
    refine ⟨{ db with stageUnwind := db.stageUnwind.upsert name (beFixed 8 n) }, ?_, ?_, ?_, fun _ => rfl⟩
    · unfold setStageUnwind setStageData
      rw [hkn]; rfl
    · unfold getStageUnwind getStageData
      simp only [hkn, Bool.not_true, Bool.false_eq_true, if_false, Table.find_upsert_same, Silkworm.beFixed_length, ne_eq,
        not_true_eq_false]
      rw [Silkworm.beToNat_beFixed (u64 hn)]
    · intro other ho
      unfold getStageUnwind getStageData
      simp only [Table.find_upsert_other _ _ ho]
  refine ⟨key n hn, ?_⟩
  obtain ⟨db', h1, h2, _⟩ := key 0 (by decide)
  exact ⟨db', h1, h2⟩

/-- C86: names that are not those of stages are rejected, and a stage that was never set is at zero. -/
theorem c86_unknown (db : Database) (name : Bytes) :
    (name ∉ kAllStages → getStageProgress db name = .err .unknownStage ∧ getStageUnwind db name = .err .unknownStage ∧
      ∀ n, setStageProgress db name n = .err .unknownStage ∧ setStageUnwind db name n = .err .unknownStage) ∧
    (name ∈ kAllStages → stored db.stageProgress name = [] → getStageProgress db name = .ok 0) := by
  constructor
  · intro h
    have hkn : isKnownStage name = false := by
      unfold isKnownStage
      rw [Bool.and_eq_false_iff]
      exact Or.inr (by rw [← Bool.not_eq_true, List.contains_iff_mem]; exact h)
    refine ⟨?_, ?_, fun n => ⟨?_, ?_⟩⟩ <;>
      simp [getStageProgress, getStageUnwind, setStageProgress, setStageUnwind, getStageData, setStageData, hkn] <;> rfl
  · intro h hs
    have hkn : isKnownStage name = true := by
      have : ∀ x ∈ kAllStages, isKnownStage x = true := by decide +kernel
      exact this name h
    unfold getStageProgress getStageData
    rw [hkn, find_stored, hs]; rfl

/-- C86: a record that does not have eight bytes is reported, not taken for a number. -/
theorem c86_bad_record (db : Database) (name v : Bytes) (hk : name ∈ kAllStages) (hv : v.length ≠ 8) :
    (stored db.stageProgress name = [v] → getStageProgress db name = .err .badLength) ∧
    (stored db.stageUnwind name = [v] → getStageUnwind db name = .err .badLength) := by
  have hkn : isKnownStage name = true := by
    have : ∀ x ∈ kAllStages, isKnownStage x = true := by decide +kernel
    exact this name hk
  unfold getStageProgress getStageUnwind getStageData
  rw [hkn, find_stored, find_stored]
  constructor <;> intro h <;> rw [h] <;> simp [hv]

example : getStageProgress { stageProgress := [(ascii "Senders", [1])] } (ascii "Senders") = .err .badLength := by decide +kernel
example : (setStageProgress {} (ascii "Senders") 7 >>= fun db => setStageProgress db (ascii "Headers") 300 >>= fun db =>
    getStageProgress db (ascii "Senders")) = .ok 7 := by decide +kernel
example : getStageProgress {} (ascii "Sender") = .err .unknownStage := by decide +kernel

end Silkworm.Properties
