import Verif.Db.HistoryLemmas
import Verif.Spec.ChangeSets
import Verif.Properties.DbKeys

/-!
# Lemmas on change sets
-/

namespace Silkworm.Db

open Silkworm.Spec State
open Silkworm.Properties (c46_block_key_order c46_storage_change_key_order u64)

namespace Buffer

/-- The changes recorded in a buffer have keys of the right sizes. -/
structure ChangesWF (b : Buffer) : Prop where
  block : b.blockNumber < 2 ^ 64
  accounts : AMap.WF b.accountChanges
  account : ∀ n m, b.accountChanges.get? n = some m → n < 2 ^ 64 ∧ AMap.WF m ∧ ∀ a ∈ m.keys, a.length = 20
  storage : AMap.WF b.storageChanges
  slots : ∀ n m, b.storageChanges.get? n = some m → n < 2 ^ 64 ∧ MemoryBuffer.NWF m ∧
    ∀ a i k v, MemoryBuffer.nestedGet? m a i k = some v → a.length = 20 ∧ i < 2 ^ 64 ∧ k.length = 32

theorem changesWF_empty : ChangesWF {} :=
  ⟨by decide, AMap.WF_nil, fun _ _ h => by (cases h), AMap.WF_nil, fun _ _ h => by (cases h)⟩

theorem apply_changes {b b' : Buffer} {c : BufferCall} (h : b.apply c = .ok b') (hb : b.ChangesWF) (hc : CallFits c) :
    b'.ChangesWF := by
  cases c with
  | beginBlock n =>
    cases Outcome.ok.inj h
    exact ⟨hc, hb.accounts, hb.account, hb.storage, hb.slots⟩
  | updateAccount a i c =>
    obtain ⟨b2, h1, _, _, _, _, _, h2, h3, h4, h5⟩ := updateAccount_spec b a i c
    have h : b.updateAccount a i c = .ok b' := h
    rw [h] at h1
    cases Outcome.ok.inj h1
    refine ⟨by rw [h3]; exact hb.block, ?_, ?_, by rw [h2]; exact hb.storage, by rw [h2]; exact hb.slots⟩
    · rw [h5]
      split
      · exact hb.accounts
      · exact AMap.WF_set hb.accounts ..
    · rw [h5]
      split
      · exact hb.account
      · intro n m hm
        rw [AMap.get?_set] at hm
        split at hm
        · rename_i hn
          cases Option.some.inj hm
          have hold : AMap.WF ((b.accountChanges.get? b.blockNumber).getD []) ∧
              ∀ x ∈ ((b.accountChanges.get? b.blockNumber).getD []).keys, x.length = 20 := by
            cases hx : b.accountChanges.get? b.blockNumber with
            | none => exact ⟨AMap.WF_nil, fun _ h => by cases h⟩
            | some m => exact (hb.account _ _ hx).2
          refine ⟨by rw [hn]; exact hb.block, AMap.WF_set hold.1 .., ?_⟩
          intro x hx
          rcases AMap.mem_keys_set.mp hx with h | h
          · rw [h]; exact hc.1
          · exact hold.2 x h
        · exact hb.account n m hm
  | updateAccountCode a n k code =>
    cases Outcome.ok.inj h
    exact ⟨hb.block, hb.accounts, hb.account, hb.storage, hb.slots⟩
  | updateStorage a n k i c =>
    cases Outcome.ok.inj h
    unfold updateStorage
    split
    · exact hb
    · refine ⟨hb.block, hb.accounts, hb.account, AMap.WF_set hb.storage .., ?_⟩
      intro p m hm
      simp only [AMap.get?_set] at hm
      split at hm
      · rename_i hp
        cases Option.some.inj hm
        have hold : MemoryBuffer.NWF ((b.storageChanges.get? b.blockNumber).getD []) ∧
            ∀ a i k v, MemoryBuffer.nestedGet? ((b.storageChanges.get? b.blockNumber).getD []) a i k = some v →
              a.length = 20 ∧ i < 2 ^ 64 ∧ k.length = 32 := by
          cases hx : b.storageChanges.get? b.blockNumber with
          | none => exact ⟨MemoryBuffer.NWF_nil, fun _ _ _ _ h => by cases h⟩
          | some m => exact (hb.slots _ _ hx).2
        refine ⟨by rw [hp]; exact hb.block, MemoryBuffer.NWF_nestedSet hold.1 .., ?_⟩
        intro x j l v hv
        rw [MemoryBuffer.nestedGet?_nestedSet] at hv
        split at hv
        · rename_i he
          rw [he.1, he.2.1, he.2.2]
          exact ⟨hc.1, hc.2.1, hc.2.2.1⟩
        · exact hold.2 x j l v hv
      · exact hb.slots p m hm

/-- The recorded change of an account. -/
def accountChange? (b : Buffer) (n : Nat) (a : Bytes) : Option Bytes := ((b.accountChanges.get? n).getD []).get? a

/-- The recorded change of a slot. -/
def slotChange? (b : Buffer) (n : Nat) (a : Bytes) (i : Nat) (k : Bytes) : Option Bytes :=
  MemoryBuffer.nestedGet? ((b.storageChanges.get? n).getD []) a i k

theorem encodedInitial_eq (i c : Option Account) : encodedInitial i c = recordOf i c := by
  unfold encodedInitial recordOf
  cases i <;> rfl

theorem accountEntry_storage (n : Nat) (a : Bytes) (cur : Nat) (tou : Bool) (r : Option Bytes) (x : Bytes) (j : Nat)
    (k i c : Bytes) (l : List BufferCall) : accountEntry n a cur tou r (.updateStorage x j k i c :: l) =
      if x = a ∧ i ≠ c then accountEntry n a cur true r l else accountEntry n a cur tou r l := rfl

theorem accountEntry_account (n : Nat) (a : Bytes) (cur : Nat) (tou : Bool) (r : Option Bytes) (x : Bytes)
    (i c : Option Account) (l : List BufferCall) : accountEntry n a cur tou r (.updateAccount x i c :: l) =
      if x = a ∧ cur = n ∧ (i ≠ c ∨ c = none ∨ tou = true) then accountEntry n a cur tou (some (recordOf i c)) l
      else accountEntry n a cur tou r l := rfl

theorem slotEntry_storage (n : Nat) (a : Bytes) (p : Nat) (q : Bytes) (cur : Nat) (r : Option Bytes) (x : Bytes) (j : Nat)
    (k i c : Bytes) (l : List BufferCall) : slotEntry n a p q cur r (.updateStorage x j k i c :: l) =
      if x = a ∧ j = p ∧ k = q ∧ cur = n ∧ i ≠ c then slotEntry n a p q cur (some (zerolessView i)) l
      else slotEntry n a p q cur r l := rfl

/-- The buffer records what the specification says. -/
theorem applyAll_records (calls : List BufferCall) (b : Buffer) (hb : b.ChangesWF) (hc : ∀ c ∈ calls, CallFits c) :
    ∃ b', b.applyAll calls = .ok b' ∧ b'.ChangesWF ∧
      (∀ n a, b'.accountChange? n a =
        accountEntry n a b.blockNumber (b.changedStorage.contains a) (b.accountChange? n a) calls) ∧
      (∀ n a i k, b'.slotChange? n a i k = slotEntry n a i k b.blockNumber (b.slotChange? n a i k) calls) := by
  induction calls generalizing b with
  | nil => exact ⟨b, rfl, hb, fun _ _ => rfl, fun _ _ _ _ => rfl⟩
  | cons c calls ih =>
    obtain ⟨b1, h1, _⟩ := apply_spec b c
    have hb1 := apply_changes h1 hb (hc c (List.mem_cons_self ..))
    obtain ⟨b2, h2, h3, h4, h5⟩ := ih b1 hb1 (fun x hx => hc x (List.mem_cons_of_mem _ hx))
    have hall : b.applyAll (c :: calls) = .ok b2 := by
      unfold applyAll at *
      rw [List.foldlM_cons, h1]
      exact h2
    refine ⟨b2, hall, h3, ?_, ?_⟩
    · intro n a
      rw [h4 n a]
      cases c with
      | beginBlock m => cases Outcome.ok.inj h1; rfl
      | updateAccountCode => cases Outcome.ok.inj h1; rfl
      | updateStorage x j k before after =>
        cases Outcome.ok.inj h1
        rw [accountEntry_storage]
        unfold updateStorage
        by_cases he : after = before
        · rw [if_pos he, if_neg (fun h => h.2 he.symm)]
        · rw [if_neg he]
          by_cases hx : x = a
          · rw [if_pos ⟨hx, fun h => he h.symm⟩]
            have : (setInsert b.changedStorage x).contains a = true := by
              rw [List.contains_iff_mem, mem_setInsert]; exact Or.inl hx.symm
            simp only [this]
            rfl
          · rw [if_neg (fun h => hx h.1)]
            have : (setInsert b.changedStorage x).contains a = b.changedStorage.contains a := by
              rw [Bool.eq_iff_iff, List.contains_iff_mem, List.contains_iff_mem, mem_setInsert]
              exact ⟨fun h => h.resolve_left (fun h => hx h.symm), Or.inr⟩
            simp only [this]
            rfl
      | updateAccount x before after =>
        obtain ⟨b', g1, _, _, _, _, _, _, g3, g4, g5⟩ := updateAccount_spec b x before after
        have h1 : b.updateAccount x before after = .ok b1 := h1
        rw [h1] at g1
        cases Outcome.ok.inj g1
        rw [accountEntry_account, g3, g4]
        have hch : b1.accountChange? n a =
            if x = a ∧ b.blockNumber = n ∧ (before ≠ after ∨ after = none ∨ b.changedStorage.contains a = true) then
              some (recordOf before after) else b.accountChange? n a := by
          unfold accountChange?
          rw [g5]
          by_cases hq : after = before ∧ after.isSome ∧ !b.changedStorage.contains x
          · rw [if_pos hq, if_neg]
            rintro ⟨rfl, _, h | h | h⟩
            · exact h hq.1.symm
            · rw [h] at hq; exact absurd hq.2.1 (by simp)
            · rw [h] at hq; exact absurd hq.2.2 (by simp)
          · rw [if_neg hq, AMap.get?_set]
            by_cases hn : n = b.blockNumber
            · rw [if_pos hn, Option.getD_some, AMap.get?_set]
              by_cases hx : a = x
              · rw [if_pos hx, if_pos, encodedInitial_eq]
                refine ⟨hx.symm, hn.symm, ?_⟩
                by_cases e1 : before = after
                · by_cases e2 : after = none
                  · exact Or.inr (Or.inl e2)
                  · refine Or.inr (Or.inr ?_)
                    cases hcs : b.changedStorage.contains a with
                    | true => rfl
                    | false =>
                      rw [hx] at hcs
                      exact absurd ⟨e1.symm, Option.isSome_iff_ne_none.mpr e2, by rw [hcs]; rfl⟩ hq
                · exact Or.inl e1
              · rw [if_neg hx, if_neg (fun h => hx h.1.symm), hn]
            · rw [if_neg hn, if_neg (fun h => hn h.2.1.symm)]
        rw [hch]
        split <;> rfl
    · intro n a i k
      rw [h5 n a i k]
      cases c with
      | beginBlock m => cases Outcome.ok.inj h1; rfl
      | updateAccountCode => cases Outcome.ok.inj h1; rfl
      | updateAccount x before after =>
        obtain ⟨b', g1, _, _, _, _, _, g2, g3, _⟩ := updateAccount_spec b x before after
        have h1 : b.updateAccount x before after = .ok b1 := h1
        rw [h1] at g1
        cases Outcome.ok.inj g1
        have hs : b1.slotChange? n a i k = b.slotChange? n a i k := by unfold slotChange?; rw [g2]
        rw [hs, g3]; rfl
      | updateStorage x j l before after =>
        cases Outcome.ok.inj h1
        rw [slotEntry_storage]
        unfold updateStorage
        by_cases he : after = before
        · rw [if_pos he, if_neg (fun h => h.2.2.2.2 he.symm)]
        · rw [if_neg he]
          have hsl : ∀ (b' : Buffer), b'.storageChanges = b.storageChanges.set b.blockNumber
              (MemoryBuffer.nestedSet ((b.storageChanges.get? b.blockNumber).getD []) x j l (zerolessView before)) →
              b'.slotChange? n a i k = if x = a ∧ j = i ∧ l = k ∧ b.blockNumber = n ∧ before ≠ after then
                some (zerolessView before) else b.slotChange? n a i k := by
            intro b' hb'
            unfold slotChange?
            rw [hb', AMap.get?_set]
            by_cases hn : n = b.blockNumber
            · rw [if_pos hn, Option.getD_some, MemoryBuffer.nestedGet?_nestedSet]
              by_cases hx : a = x ∧ i = j ∧ k = l
              · rw [if_pos hx, if_pos ⟨hx.1.symm, hx.2.1.symm, hx.2.2.symm, hn.symm, fun h => he h.symm⟩]
              · rw [if_neg hx, if_neg (fun h => hx ⟨h.1.symm, h.2.1.symm, h.2.2.1.symm⟩), hn]
            · rw [if_neg hn, if_neg (fun h => hn h.2.2.2.1.symm)]
          rw [hsl _ rfl]
          simp only
          split <;> rfl

end Buffer

/-! ## Writing -/

theorem mem_foldl_upsert {α : Type} (f : α → Bytes × Bytes) (l : List α) (t : Table) (e : Bytes × Bytes) :
    e ∈ l.foldl (fun t x => t.upsertMultivalue (f x).1 (f x).2) t ↔ e ∈ t ∨ ∃ x ∈ l, e = f x := by
  induction l generalizing t with
  | nil => simp
  | cons x l ih =>
    rw [List.foldl_cons, ih, mem_upsertMultivalue]
    simp only [List.mem_cons, exists_eq_or_imp]
    tauto

theorem ordered_foldl_upsert {α : Type} (f : α → Bytes × Bytes) (l : List α) {t : Table} (ht : MultiOrdered t) :
    MultiOrdered (l.foldl (fun (t : Table) x => t.upsertMultivalue (f x).1 (f x).2) t) := by
  induction l generalizing t with
  | nil => exact ht
  | cons x l ih => exact ih (ordered_upsertMultivalue ht ..)

theorem mem_writeAccountChanges (t : Table) (ch : AMap Nat (AMap Bytes Bytes)) (e : Bytes × Bytes) :
    e ∈ Buffer.writeAccountChanges t ch ↔ e ∈ t ∨ ∃ m ∈ ch, ∃ x ∈ m.2, e = (blockKey m.1, x.1 ++ x.2) := by
  unfold Buffer.writeAccountChanges
  induction ch generalizing t with
  | nil => simp
  | cons m ch ih =>
    rw [List.foldl_cons, ih, mem_foldl_upsert (fun x : Bytes × Bytes => (blockKey m.1, x.1 ++ x.2))]
    simp only [List.mem_cons, exists_eq_or_imp, or_assoc]

theorem ordered_writeAccountChanges {t : Table} (ht : MultiOrdered t) (ch : AMap Nat (AMap Bytes Bytes)) :
    MultiOrdered (Buffer.writeAccountChanges t ch) := by
  unfold Buffer.writeAccountChanges
  induction ch generalizing t with
  | nil => exact ht
  | cons m ch ih =>
    exact ih (ordered_foldl_upsert (fun x : Bytes × Bytes => (blockKey m.1, x.1 ++ x.2)) _ ht)

theorem mem_writeStorageChanges (t : Table) (ch : AMap Nat (AMap Bytes (AMap Nat (AMap Bytes Bytes)))) (e : Bytes × Bytes) :
    e ∈ Buffer.writeStorageChanges t ch ↔ e ∈ t ∨ ∃ m ∈ ch, ∃ x ∈ MemoryBuffer.nestedEntries m.2,
      e = (storageChangeKey m.1 x.1 x.2.1, x.2.2.1 ++ x.2.2.2) := by
  unfold Buffer.writeStorageChanges
  induction ch generalizing t with
  | nil => simp
  | cons m ch ih =>
    rw [List.foldl_cons, ih,
      mem_foldl_upsert (fun x : Bytes × Nat × Bytes × Bytes => (storageChangeKey m.1 x.1 x.2.1, x.2.2.1 ++ x.2.2.2))]
    simp only [List.mem_cons, exists_eq_or_imp, or_assoc]

theorem ordered_writeStorageChanges {t : Table} (ht : MultiOrdered t) (ch : AMap Nat (AMap Bytes (AMap Nat (AMap Bytes Bytes)))) :
    MultiOrdered (Buffer.writeStorageChanges t ch) := by
  unfold Buffer.writeStorageChanges
  induction ch generalizing t with
  | nil => exact ht
  | cons m ch ih =>
    exact ih (ordered_foldl_upsert
      (fun x : Bytes × Nat × Bytes × Bytes => (storageChangeKey m.1 x.1 x.2.1, x.2.2.1 ++ x.2.2.2)) _ ht)

/-! ## Reading -/

/-- If the values are of addresses, and one for each at most, they are read. -/
theorem collectAccountChanges_spec (t : Table) (m : AMap Bytes Bytes) (hl : ∀ e ∈ t, 20 ≤ e.2.length) :
    ∃ m', collectAccountChanges m t = .ok m' ∧ ∀ a, a.length = 20 →
      ((∀ x, ∀ e ∈ t, e.2 ≠ a ++ x) → m'.get? a = m.get? a) ∧
      (∀ v, (∃ e ∈ t, e.2 = a ++ v) → (∀ x, (∃ e ∈ t, e.2 = a ++ x) → x = v) → m'.get? a = some v) := by
  induction t generalizing m with
  | nil => exact ⟨m, rfl, fun a _ => ⟨fun _ => rfl, fun v ⟨e, he, _⟩ => by cases he⟩⟩
  | cons e t ih =>
    have hle := hl e (List.mem_cons_self ..)
    obtain ⟨m', h1, h2⟩ := ih (m.set (e.2.take 20) (e.2.drop 20)) (fun x hx => hl x (List.mem_cons_of_mem _ hx))
    refine ⟨m', by unfold collectAccountChanges; rw [if_neg (by omega)]; exact h1, ?_⟩
    intro a ha
    obtain ⟨g1, g2⟩ := h2 a ha
    have hsplit : ∀ v, e.2 = a ++ v → e.2.take 20 = a ∧ e.2.drop 20 = v := by
      intro v hv
      rw [hv, ← ha]; simp
    refine ⟨?_, ?_⟩
    · intro hn
      rw [g1 (fun x y hy => hn x y (List.mem_cons_of_mem _ hy)), AMap.get?_set_ne]
      intro h
      exact hn (e.2.drop 20) e (List.mem_cons_self ..) (by rw [h, List.take_append_drop])
    · rintro v ⟨e', he', hv⟩ hu
      by_cases hlater : ∃ y ∈ t, y.2 = a ++ v
      · exact g2 v hlater (fun x ⟨y, hy, hx⟩ => hu x ⟨y, List.mem_cons_of_mem _ hy, hx⟩)
      · rcases List.mem_cons.mp he' with rfl | he'
        · obtain ⟨k1, k2⟩ := hsplit v hv
          rw [g1, k1, k2, AMap.get?_set_self]
          intro x y hy hx
          have := hu x ⟨y, List.mem_cons_of_mem _ hy, hx⟩
          subst this
          exact hlater ⟨y, hy, hx⟩
        · exact absurd ⟨e', he', hv⟩ hlater

/-- In an ordered table the entries whose keys begin with a prefix follow one another. -/
theorem walk_prefix {t : Table} (ht : MultiOrdered t) (p : Bytes) :
    (t.dropWhile fun e => lexLt e.1 p).takeWhile (fun e => p.isPrefixOf e.1) = t.filter fun e => p.isPrefixOf e.1 := by
  have hle : ∀ {e f : Bytes × Bytes}, (e.1 < f.1 ∨ (e.1 = f.1 ∧ e.2 < f.2)) → lexLt f.1 e.1 = false := by
    intro e f h
    rw [Etl.lexLt_false_iff]
    rcases h with h | h
    · exact List.le_of_lt h
    · rw [h.1]; exact List.le_refl _
  have hpre : ∀ {k : Bytes}, p.isPrefixOf k = true → lexLt k p = false := by
    intro k h
    obtain ⟨s, rfl⟩ := List.isPrefixOf_iff_prefix.mp h
    exact Buffer.not_lexLt_append p s
  -- once past the prefix no entry has it
  have htake : ∀ (t : Table), MultiOrdered t → (∀ e ∈ t, lexLt e.1 p = false) →
      t.takeWhile (fun e => p.isPrefixOf e.1) = t.filter fun e => p.isPrefixOf e.1 := by
    intro t ht hge
    induction t with
    | nil => rfl
    | cons e t ih =>
      have ht' := List.pairwise_cons.mp ht
      by_cases he : p.isPrefixOf e.1 = true
      · rw [List.takeWhile_cons_of_pos (p := fun e : Bytes × Bytes => p.isPrefixOf e.1) he, List.filter_cons_of_pos (p := fun e : Bytes × Bytes => p.isPrefixOf e.1) he,
          ih ht'.2 (fun x hx => hge x (List.mem_cons_of_mem _ hx))]
      · rw [List.takeWhile_cons_of_neg (p := fun e : Bytes × Bytes => p.isPrefixOf e.1) he, List.filter_cons_of_neg (p := fun e : Bytes × Bytes => p.isPrefixOf e.1) he, eq_comm, List.filter_eq_nil_iff]
        intro f hf h
        obtain ⟨s, hs⟩ := List.isPrefixOf_iff_prefix.mp h
        have h1 := hle (ht'.1 f hf)
        rw [← hs] at h1
        exact he (List.isPrefixOf_iff_prefix.mpr (prefix_of_between (hge e (List.mem_cons_self ..)) h1))
  induction t with
  | nil => rfl
  | cons e t ih =>
    have ht' := List.pairwise_cons.mp ht
    by_cases he : lexLt e.1 p = true
    · rw [List.dropWhile_cons_of_pos (p := fun e : Bytes × Bytes => lexLt e.1 p) he, ih ht'.2, List.filter_cons_of_neg]
      intro h
      rw [hpre h] at he
      cases he
    · rw [List.dropWhile_cons_of_neg (p := fun e : Bytes × Bytes => lexLt e.1 p) he]
      apply htake _ ht
      intro f hf
      rcases List.mem_cons.mp hf with rfl | hf
      · simpa using he
      · have h1 := hle (ht'.1 f hf)
        have h2 : lexLt e.1 p = false := by simpa using he
        rw [Etl.lexLt_false_iff] at *
        exact List.le_trans h2 h1

theorem collectStorageChanges_takeWhile (p : Bytes) (t : Table) (m : AMap Bytes (AMap Nat (AMap Bytes Bytes))) :
    collectStorageChanges p m t = collectStorageChanges p m (t.takeWhile fun e => p.isPrefixOf e.1) := by
  induction t generalizing m with
  | nil => rfl
  | cons e t ih =>
    by_cases he : p.isPrefixOf e.1 = true
    · rw [List.takeWhile_cons_of_pos (p := fun e : Bytes × Bytes => p.isPrefixOf e.1) he]
      unfold collectStorageChanges
      simp only [he, ih]
    · rw [List.takeWhile_cons_of_neg (p := fun e : Bytes × Bytes => p.isPrefixOf e.1) he]
      unfold collectStorageChanges
      simp [he]

/-- Likewise for the entries of storage changes. -/
theorem collectStorageChanges_spec (n : Nat) (t : Table) (m : AMap Bytes (AMap Nat (AMap Bytes Bytes)))
    (hk : ∀ e ∈ t, ∃ a i, a.length = 20 ∧ i < 2 ^ 64 ∧ e.1 = storageChangeKey n a i) (hl : ∀ e ∈ t, 32 ≤ e.2.length) :
    ∃ m', collectStorageChanges (blockKey n) m t = .ok m' ∧ ∀ a i k, a.length = 20 → i < 2 ^ 64 → k.length = 32 →
      ((∀ x, (storageChangeKey n a i, k ++ x) ∉ t) → MemoryBuffer.nestedGet? m' a i k = MemoryBuffer.nestedGet? m a i k) ∧
      (∀ v, (storageChangeKey n a i, k ++ v) ∈ t → (∀ x, (storageChangeKey n a i, k ++ x) ∈ t → x = v) →
        MemoryBuffer.nestedGet? m' a i k = some v) := by
  induction t generalizing m with
  | nil => exact ⟨m, rfl, fun _ _ _ _ _ _ => ⟨fun _ => rfl, fun v h => by cases h⟩⟩
  | cons e t ih =>
    obtain ⟨b, j, hb, hj, hbk⟩ := hk e (List.mem_cons_self ..)
    have hle := hl e (List.mem_cons_self ..)
    obtain ⟨m', h1, h2⟩ := ih (MemoryBuffer.nestedSet m b j (e.2.take 32) (e.2.drop 32))
      (fun x hx => hk x (List.mem_cons_of_mem _ hx)) (fun x hx => hl x (List.mem_cons_of_mem _ hx))
    have hkey : e.1 = blockKey n ++ (b ++ beFixed 8 j) := by rw [hbk]; simp [storageChangeKey, blockKey]
    have hdrop : e.1.drop (blockKey n).length = b ++ beFixed 8 j := by rw [hkey, List.drop_left]
    refine ⟨m', ?_, ?_⟩
    · unfold collectStorageChanges
      have hp : (blockKey n).isPrefixOf e.1 = true := by rw [hkey]; exact Buffer.isPrefixOf_append_self ..
      simp only [hp, Bool.not_true, Bool.false_eq_true, if_false, hdrop]
      rw [if_neg (by simp [hb]), if_neg (by omega)]
      have e1 : (b ++ beFixed 8 j).take 20 = b := by rw [← hb, List.take_left]
      have e2 : (b ++ beFixed 8 j).drop 20 = beFixed 8 j := by rw [← hb, List.drop_left]
      rw [e1, e2, Silkworm.beToNat_beFixed (u64 hj)]
      exact h1
    · intro a i k ha hi hk'
      obtain ⟨g1, g2⟩ := h2 a i k ha hi hk'
      refine ⟨?_, ?_⟩
      · intro hn
        rw [g1 (fun x hx => hn x (List.mem_cons_of_mem _ hx)), MemoryBuffer.nestedGet?_nestedSet, if_neg]
        rintro ⟨rfl, rfl, rfl⟩
        exact hn (e.2.drop 32) (List.mem_cons.mpr (Or.inl (by rw [List.take_append_drop, ← hbk])))
      · intro v hv hu
        by_cases hlater : (storageChangeKey n a i, k ++ v) ∈ t
        · exact g2 v hlater (fun x hx => hu x (List.mem_cons_of_mem _ hx))
        · rcases List.mem_cons.mp hv with rfl | hv
          · have hsame : a = b ∧ i = j := by
              have h : blockKey n ++ (a ++ beFixed 8 i) = blockKey n ++ (b ++ beFixed 8 j) := by
                rw [← hkey]; simp [storageChangeKey, blockKey]
              have h := List.append_inj (List.append_cancel_left h) (ha.trans hb.symm)
              exact ⟨h.1, beFixed_inj (u64 hi) (u64 hj) h.2⟩
            rw [g1, MemoryBuffer.nestedGet?_nestedSet, if_pos]
            · simp only; rw [← hk', List.drop_left]
            · refine ⟨hsame.1, hsame.2, ?_⟩
              simp only; rw [← hk', List.take_left]
            · intro x hx
              have := hu x (List.mem_cons_of_mem _ hx)
              subst this
              exact hlater hx
          · exact absurd hv hlater

end Silkworm.Db
