import Verif.Db.HistoryLemmas
import Verif.Properties.DbState

/-!
# C48: historical reads
-/

namespace Silkworm.Properties

open Silkworm.Db Silkworm.Spec State

/-- C48 for accounts: at every block the current account is returned, so that the answer is right if the account has not
changed since. In full the condition that it has not changed would be absent. -/
theorem c48_account_partial (r : Bytes → Option (List Nat)) (db : Database) (a : Bytes) (value : Nat → Option Account)
    (last n : Nat) (ha : a.length = 20) (hc : ∀ e ∈ db.code, e.1.length = 32)
    (h : AccountRecorded r db.plainState db.accountChangeSet db.accountHistory a value last)
    (hcode : ∀ acc, value (last + 1) = some acc → acc.incarnation ≠ 0 → acc.codeHash = kEmptyHash →
      db.plainContractCode.find (storagePrefix a acc.incarnation) = none) :
    Db.readAccount r db a (some n) = .ok (value (last + 1)) ∧
    (value n = value (last + 1) → Db.readAccount r db a (some n) = .ok (value n)) := by
  have key : Db.readAccount r db a (some n) = .ok (value (last + 1)) := by
    unfold Db.readAccount
    simp only [historicalAccount_none hc ha, Outcome.ok_bind]
    rw [find_stored, h.current]
    cases hv : value (last + 1) with
    | none => rfl
    | some acc =>
      simp only [List.head?_cons, Option.map_some]
      have hdec := (c16_account_roundtrip acc (h.fits _ _ hv)).1
      obtain ⟨y, ys, hy⟩ := encodeForStorage_cons acc
      rw [hy] at hdec
      simp only [hy, hdec, liftDec, Outcome.ok_bind]
      have hrest : restoreCodeHash db a acc = acc := by
        unfold restoreCodeHash
        split
        · rename_i hc
          rw [hcode acc hv (by omega) hc.2]
        · rfl
      rw [hrest]
  exact ⟨key, fun he => by rw [he]; exact key⟩

/-- C48 for storage: at the number of a chunk of the index the value at that block is returned, and at all others the current
value, which is right if the slot has not changed since. In full the value at the block would be returned at all numbers. -/
theorem c48_storage_partial (r : Bytes → Option (List Nat)) (db : Database) (a : Bytes) (i : Nat) (loc : Bytes)
    (value : Nat → Bytes) (last n : Nat) (ha : a.length = 20) (hloc : loc.length = 32) (hn : n < 2 ^ 64 - 1)
    (h : SlotRecorded r db.plainState db.storageChangeSet db.storageHistory a i loc value last) :
    (stored db.storageHistory (storageHistoryKey a loc n) ≠ [] → Db.readStorage r db a i loc (some n) = .ok (value n)) ∧
    (stored db.storageHistory (storageHistoryKey a loc n) = [] →
      Db.readStorage r db a i loc (some n) = .ok (value (last + 1)) ∧
      (value n = value (last + 1) → Db.readStorage r db a i loc (some n) = .ok (value n))) := by
  constructor
  · intro hne
    cases hs : stored db.storageHistory (storageHistoryKey a loc n) with
    | nil => exact absurd hs hne
    | cons v l =>
      have hv : v ∈ stored db.storageHistory (storageHistoryKey a loc n) := by rw [hs]; simp
      obtain ⟨bm, h1, _, h3, h4⟩ := h.index.listed n v (by omega) hv
      have hmem : n ∈ bm := by rcases h4 with h4 | h4 <;> [omega; exact h4]
      have hk1 : (storageHistoryKey a loc n).take 20 = a := by
        unfold storageHistoryKey
        rw [List.append_assoc, ← ha, List.take_left]
      have hk2 : ((storageHistoryKey a loc n).drop 20).take 32 = loc := by
        unfold storageHistoryKey
        rw [List.append_assoc, ← ha, List.drop_left, ← hloc, List.take_left]
      unfold Db.readStorage historicalStorage
      simp only
      rw [find_stored, hs]
      simp only [List.head?_cons, Option.map_some, hk1, hk2, ne_eq, not_true_eq_false, or_self, if_false, h1,
        bitmapSeek_last hmem (fun b hb => (h3 b hb).2), Outcome.ok_bind]
      rw [findValueSuffix_unique h.ordered.2 (h.changes n (h3 n hmem).1)]
      exact Buffer.padded_zeroless (h.fits n)
  · intro he
    have key : Db.readStorage r db a i loc (some n) = .ok (value (last + 1)) := by
      unfold Db.readStorage historicalStorage
      simp only
      rw [find_stored, he]
      simp only [List.head?_nil, Option.map_none, Outcome.ok_bind]
      exact readStorage_current (r := r) h.ordered.1 (h.fits _) h.current
    exact ⟨key, fun hv => by rw [hv]; exact key⟩

/-! ## A slot and an account changed in block 4 and block 9 -/

/-- Bitmaps in the example are lists of bytes. -/
def exReadBitmap (v : Bytes) : Option (List Nat) := some (v.map UInt8.toNat)

def exSlotValue (n : Nat) : Bytes := if n ≤ 4 then exWord 1 else if n ≤ 9 then exWord 2 else exWord 3
def exAccountValue (n : Nat) : Option Account :=
  if n ≤ 4 then none else if n ≤ 9 then some { balance := 5 } else some { balance := 6 }

/-- The slot and the account with an index in one chunk. -/
def exHistoryDb : Database :=
  { plainState := [(exAddr 7, ({ balance := 6 } : Account).encodeForStorage), (storagePrefix (exAddr 7) 1, exWord 2 ++ [7]),
      (storagePrefix (exAddr 7) 1, exWord 5 ++ [3])]
    storageChangeSet := [(storageChangeKey 4 (exAddr 7) 1, exWord 5 ++ [1]), (storageChangeKey 9 (exAddr 7) 1, exWord 5 ++ [2])]
    storageHistory := [(storageHistoryKey (exAddr 7) (exWord 5) (2 ^ 64 - 1), [4, 9])]
    accountChangeSet := [(blockKey 4, exAddr 7), (blockKey 9, exAddr 7 ++ ({ balance := 5 } : Account).encodeForStorage)]
    accountHistory := [(accountHistoryKey (exAddr 7) (2 ^ 64 - 1), [4, 9])] }

/-- The same with an index in two chunks. -/
def exHistoryDb2 : Database :=
  { exHistoryDb with
    storageHistory := [(storageHistoryKey (exAddr 7) (exWord 5) 4, [4]),
      (storageHistoryKey (exAddr 7) (exWord 5) (2 ^ 64 - 1), [9])] }

theorem exSlot_changed {b : Nat} : ChangedAt exSlotValue 12 b ↔ b = 4 ∨ b = 9 := by
  unfold ChangedAt exSlotValue
  constructor
  · rintro ⟨h1, h2⟩
    by_contra hn
    apply h2
    by_cases h4 : b ≤ 4
    · rw [if_pos h4, if_pos (by omega)]
    · by_cases h9 : b ≤ 9
      · rw [if_neg h4, if_pos h9, if_neg (show ¬ b + 1 ≤ 4 by omega), if_pos (show b + 1 ≤ 9 by omega)]
      · rw [if_neg h4, if_neg h9, if_neg (show ¬ b + 1 ≤ 4 by omega), if_neg (show ¬ b + 1 ≤ 9 by omega)]
  · rintro (rfl | rfl) <;> decide

theorem exAccount_changed {b : Nat} : ChangedAt exAccountValue 12 b ↔ b = 4 ∨ b = 9 := by
  unfold ChangedAt exAccountValue
  constructor
  · rintro ⟨h1, h2⟩
    by_contra hn
    apply h2
    by_cases h4 : b ≤ 4
    · rw [if_pos h4, if_pos (by omega)]
    · by_cases h9 : b ≤ 9
      · rw [if_neg h4, if_pos h9, if_neg (show ¬ b + 1 ≤ 4 by omega), if_pos (show b + 1 ≤ 9 by omega)]
      · rw [if_neg h4, if_neg h9, if_neg (show ¬ b + 1 ≤ 4 by omega), if_neg (show ¬ b + 1 ≤ 9 by omega)]
  · rintro (rfl | rfl) <;> decide

theorem exSlotValue_length (n : Nat) : (exSlotValue n).length = 32 := by
  unfold exSlotValue exWord
  split
  · simp
  · split <;> simp

theorem exSlot_tables (db : Database) (h : db = exHistoryDb ∨ db = exHistoryDb2) :
    MultiOrdered db.plainState ∧ MultiOrdered db.storageChangeSet ∧
    stored db.plainState (storagePrefix (exAddr 7) 1) = [exWord 2 ++ [7], exWord 5 ++ [3]] ∧
    stored db.storageChangeSet (storageChangeKey 4 (exAddr 7) 1) = [exWord 5 ++ [1]] ∧
    stored db.storageChangeSet (storageChangeKey 9 (exAddr 7) 1) = [exWord 5 ++ [2]] := by
  rcases h with rfl | rfl <;> decide +kernel

theorem exSlot_recorded (db : Database) (h : db = exHistoryDb ∨ db = exHistoryDb2)
    (hi : Indexed exReadBitmap (fun n => stored db.storageHistory (storageHistoryKey (exAddr 7) (exWord 5) n))
      (ChangedAt exSlotValue 12)) :
    SlotRecorded exReadBitmap db.plainState db.storageChangeSet db.storageHistory (exAddr 7) 1 (exWord 5) exSlotValue 12 := by
  obtain ⟨t1, t2, t3, t4, t5⟩ := exSlot_tables db h
  refine ⟨⟨t1, t2⟩, exSlotValue_length, ?_, ?_, hi⟩
  · intro x
    rw [t3]
    have hz : zerolessView (exSlotValue 13) = [3] ∧ exSlotValue 13 ≠ zero32 := by decide +kernel
    have hne : exWord 5 ++ x ≠ exWord 2 ++ [7] := by
      intro h
      exact absurd (List.append_inj h (by simp [exWord])).1 (by decide +kernel)
    rw [hz.1]
    simp only [List.mem_cons, List.not_mem_nil, or_false, List.append_cancel_left_eq]
    exact ⟨fun h => ⟨hz.2, h.resolve_left hne⟩, fun h => Or.inr h.2⟩
  · intro b hb x
    have hz : zerolessView (exSlotValue 4) = [1] ∧ zerolessView (exSlotValue 9) = [2] := by decide +kernel
    rcases exSlot_changed.mp hb with rfl | rfl
    · rw [t4, hz.1]; simp
    · rw [t5, hz.2]; simp

theorem exHistory_recorded :
    SlotRecorded exReadBitmap exHistoryDb.plainState exHistoryDb.storageChangeSet exHistoryDb.storageHistory (exAddr 7) 1
      (exWord 5) exSlotValue 12 := by
  refine exSlot_recorded _ (Or.inl rfl) ⟨?_, ?_⟩
  · intro n v hn hv
    have hm := mem_stored.mp hv
    simp only [exHistoryDb, List.mem_cons, List.not_mem_nil, or_false, Prod.mk.injEq] at hm
    have hk := ((c46_storage_history_key_order (exAddr 7) (exAddr 7) (exWord 5) (exWord 5) n (2 ^ 64 - 1) (by decide) (by decide)
      (by decide) (by decide) hn (by decide)).2.mp hm.1).2.2
    refine ⟨[4, 9], by rw [hm.2]; rfl, by decide, ?_, Or.inl hk⟩
    intro b hb
    simp only [List.mem_cons, List.not_mem_nil, or_false] at hb
    exact ⟨exSlot_changed.mpr hb, by omega⟩
  · intro b hb
    refine ⟨2 ^ 64 - 1, [4, 9], [4, 9], ?_, by decide, by decide +kernel, rfl, ?_⟩
    · rcases exSlot_changed.mp hb with rfl | rfl <;> decide
    · simpa using exSlot_changed.mp hb

theorem exHistory2_recorded :
    SlotRecorded exReadBitmap exHistoryDb2.plainState exHistoryDb2.storageChangeSet exHistoryDb2.storageHistory (exAddr 7) 1
      (exWord 5) exSlotValue 12 := by
  refine exSlot_recorded _ (Or.inr rfl) ⟨?_, ?_⟩
  · intro n v hn hv
    have hm := mem_stored.mp hv
    simp only [exHistoryDb2, List.mem_cons, List.not_mem_nil, or_false, Prod.mk.injEq] at hm
    have hk : ∀ m, m < 2 ^ 64 → storageHistoryKey (exAddr 7) (exWord 5) n = storageHistoryKey (exAddr 7) (exWord 5) m → n = m :=
      fun m hm he => ((c46_storage_history_key_order (exAddr 7) (exAddr 7) (exWord 5) (exWord 5) n m (by decide) (by decide)
        (by decide) (by decide) hn hm).2.mp he).2.2
    rcases hm with ⟨h1, rfl⟩ | ⟨h1, rfl⟩
    · have := hk 4 (by decide) h1
      subst this
      refine ⟨[4], rfl, by decide, ?_, Or.inr (by decide)⟩
      intro b hb
      simp only [List.mem_cons, List.not_mem_nil, or_false] at hb
      exact ⟨exSlot_changed.mpr (Or.inl hb), by omega⟩
    · have := hk (2 ^ 64 - 1) (by decide) h1
      refine ⟨[9], rfl, by decide, ?_, Or.inl this⟩
      intro b hb
      simp only [List.mem_cons, List.not_mem_nil, or_false] at hb
      exact ⟨exSlot_changed.mpr (Or.inr hb), by omega⟩
  · intro b hb
    rcases exSlot_changed.mp hb with rfl | rfl
    · exact ⟨4, [4], [4], by decide, by decide, by decide +kernel, rfl, by decide⟩
    · exact ⟨2 ^ 64 - 1, [9], [9], by decide, by decide, by decide +kernel, rfl, by decide⟩

theorem exAccount_recorded :
    AccountRecorded exReadBitmap exHistoryDb.plainState exHistoryDb.accountChangeSet exHistoryDb.accountHistory (exAddr 7)
      exAccountValue 12 := by
  refine ⟨?_, by decide +kernel, ?_, ?_, ?_⟩
  · intro n acc h
    unfold exAccountValue at h
    split at h
    · cases h
    · split at h <;> cases h <;> exact ⟨by decide, by decide, by decide, by decide⟩
  · intro b hb x
    rcases exAccount_changed.mp hb with rfl | rfl
    · rw [show stored exHistoryDb.accountChangeSet (blockKey 4) = [exAddr 7 ++ []] by decide +kernel,
        show recordOf (exAccountValue 4) (exAccountValue (4 + 1)) = [] by decide +kernel]
      simp
    · rw [show stored exHistoryDb.accountChangeSet (blockKey 9) =
          [exAddr 7 ++ recordOf (exAccountValue 9) (exAccountValue (9 + 1))] by decide +kernel]
      simp
  · intro n v hn hv
    have hm := mem_stored.mp hv
    simp only [exHistoryDb, List.mem_cons, List.not_mem_nil, or_false, Prod.mk.injEq] at hm
    have hk := ((c46_account_history_key_order (exAddr 7) (exAddr 7) n (2 ^ 64 - 1) (by decide) (by decide) hn
      (by decide)).2.mp hm.1).2
    refine ⟨[4, 9], by rw [hm.2]; rfl, by decide, ?_, Or.inl hk⟩
    intro b hb
    simp only [List.mem_cons, List.not_mem_nil, or_false] at hb
    exact ⟨exAccount_changed.mpr hb, by omega⟩
  · intro b hb
    refine ⟨2 ^ 64 - 1, [4, 9], [4, 9], ?_, by decide, by decide +kernel, rfl, ?_⟩
    · rcases exAccount_changed.mp hb with rfl | rfl <;> decide
    · simpa using exAccount_changed.mp hb

example : Db.readStorage exReadBitmap exHistoryDb2 (exAddr 7) 1 (exWord 5) (some 4) = .ok (exWord 1) :=
  (c48_storage_partial exReadBitmap exHistoryDb2 (exAddr 7) 1 (exWord 5) exSlotValue 12 4 (by decide) (by decide) (by decide)
    exHistory2_recorded).1 (by decide +kernel)
example : Db.readStorage exReadBitmap exHistoryDb (exAddr 7) 1 (exWord 5) (some 11) = .ok (exSlotValue 11) :=
  ((c48_storage_partial exReadBitmap exHistoryDb (exAddr 7) 1 (exWord 5) exSlotValue 12 11 (by decide) (by decide) (by decide)
    exHistory_recorded).2 (by decide +kernel)).2 (by decide +kernel)
example : Db.readAccount exReadBitmap exHistoryDb (exAddr 7) (some 11) = .ok (some { balance := 6 }) :=
  (c48_account_partial exReadBitmap exHistoryDb (exAddr 7) exAccountValue 12 11 (by decide) (by decide) exAccount_recorded
    (by intro acc h h2; cases (show some ({ balance := 6 } : Account) = some acc from h); exact absurd rfl h2)).2 (by decide +kernel)

/-- C48 does not hold for storage: in a database that records the history a slot is read as of block 5, and the value after
block 9 is returned. -/
theorem c48_storage_violated : ¬ ∀ (db : Database) (a : Bytes) (i : Nat) (loc : Bytes) (value : Nat → Bytes) (last n : Nat),
    a.length = 20 → loc.length = 32 → n ≤ last → last < 2 ^ 64 - 1 →
    SlotRecorded exReadBitmap db.plainState db.storageChangeSet db.storageHistory a i loc value last →
    Db.readStorage exReadBitmap db a i loc (some n) = .ok (value n) := by
  intro h
  have := h exHistoryDb (exAddr 7) 1 (exWord 5) exSlotValue 12 5 (by decide) (by decide) (by decide) (by decide) exHistory_recorded
  revert this
  decide +kernel

/-- C48 does not hold for accounts: in a database that records the history an account is read as of block 3, at which it did
not exist, and the account after block 9 is returned. -/
theorem c48_account_violated : ¬ ∀ (db : Database) (a : Bytes) (value : Nat → Option Account) (last n : Nat),
    a.length = 20 → n ≤ last → last < 2 ^ 64 - 1 →
    AccountRecorded exReadBitmap db.plainState db.accountChangeSet db.accountHistory a value last →
    Db.readAccount exReadBitmap db a (some n) = .ok (value n) := by
  intro h
  have := h exHistoryDb (exAddr 7) exAccountValue 12 3 (by decide) (by decide) (by decide) exAccount_recorded
  revert this
  decide +kernel

end Silkworm.Properties
