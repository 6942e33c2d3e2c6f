import Verif.Db.HistoryLemmas

/-!
# C47, C82: state in the database
-/

namespace Silkworm.Properties

open Silkworm.Db Silkworm.Spec State

/-! ## C47 -/

/-- C47 for contracts with one slot each: whatever is written, reading a slot returns the last value written to it, and
slots that were not written keep their values. In full the slot of a contract could be any. -/
theorem c47_one_slot_partial (r : Bytes → Option (List Nat)) (slot : Bytes → Nat → Bytes)
    (hslot : ∀ a i, (slot a i).length = 32) (db : Database) (ho : MultiOrdered db.plainState)
    (h1 : OneSlot slot db.plainState) (ws : List SlotWrite) (hw : ∀ w ∈ ws, w.Fits)
    (hs : ∀ w ∈ ws, w.location = slot w.address w.incarnation)
    (a : Bytes) (i : Nat) (k : Bytes) (ha : a.length = 20) (hi : i < 2 ^ 64) (hk : k.length = 32) :
    Db.readStorage r (ws.foldl writeSlot db) a i k none =
      match lastWritten a i k ws with
      | some v => .ok v
      | none => Db.readStorage r db a i k none := by
  induction ws generalizing db with
  | nil => rfl
  | cons w ws ih =>
    obtain ⟨g1, g2, g3⟩ := writeSlot_spec r hslot ho h1 (hw w (List.mem_cons_self ..)) (hs w (List.mem_cons_self ..))
    rw [List.foldl_cons, ih (writeSlot db w) g1 g2 (fun x hx => hw x (List.mem_cons_of_mem _ hx))
      (fun x hx => hs x (List.mem_cons_of_mem _ hx))]
    have hl : lastWritten a i k (w :: ws) = match lastWritten a i k ws with
        | some v => some v
        | none => if w.address = a ∧ w.incarnation = i ∧ w.location = k then some w.value else none := rfl
    rw [hl]
    cases lastWritten a i k ws with
    | some v => rfl
    | none =>
      simp only
      rw [g3 a i k ha hi hk]
      by_cases hc : w.address = a ∧ w.incarnation = i ∧ w.location = k
      · rw [if_pos hc, if_pos hc]
      · rw [if_neg hc, if_neg hc]

/-- C47 for a contract with any slots: a write to the first stored slot, or to a contract without slots, changes what is read
from that slot and nothing else. In full the slot written could be any. -/
theorem c47_first_slot_partial (r : Bytes → Option (List Nat)) (db : Database) (ho : MultiOrdered db.plainState)
    (w : SlotWrite) (hw : w.Fits)
    (hu : ∀ k y z, k ++ y ∈ stored db.plainState (storagePrefix w.address w.incarnation) →
      k ++ z ∈ stored db.plainState (storagePrefix w.address w.incarnation) → k.length = 32 → y = z)
    (hf : stored db.plainState (storagePrefix w.address w.incarnation) = [] ∨
      ∃ x l, stored db.plainState (storagePrefix w.address w.incarnation) = (w.location ++ x) :: l)
    (a : Bytes) (i : Nat) (k : Bytes) (ha : a.length = 20) (hi : i < 2 ^ 64) (hk : k.length = 32) :
    Db.readStorage r (writeSlot db w) a i k none =
      if w.address = a ∧ w.incarnation = i ∧ w.location = k then .ok w.value else Db.readStorage r db a i k none := by
  obtain ⟨hw1, hw2, hw3, hw4⟩ := hw
  have ho2 : MultiOrdered (writeSlot db w).plainState := Db.Buffer.upsertStorageValue_ordered ho ..
  have hinj := (c46_storage_prefix_order a w.address i w.incarnation (ha.trans hw1.symm) hi hw2).2
  have hst : stored (writeSlot db w).plainState (storagePrefix a i) =
      if a = w.address ∧ i = w.incarnation then
        Db.Buffer.updateValues (stored db.plainState (storagePrefix a i)) w.location w.value
      else stored db.plainState (storagePrefix a i) := by
    unfold writeSlot
    simp only
    rw [Db.Buffer.upsertStorageValue_stored ho]
    simp only [hinj]
    split
    · rename_i h; rw [h.1, h.2]
    · rfl
  unfold Db.readStorage
  simp only [Outcome.ok_bind]
  by_cases hp : a = w.address ∧ i = w.incarnation
  · obtain ⟨rfl, rfl⟩ := hp
    rw [if_pos ⟨rfl, rfl⟩] at hst
    -- the values other than those of the slot stay
    have hold := ordered_stored ho (storagePrefix w.address w.incarnation)
    have htail : ∀ j y, j.length = 32 → (j ++ y ∈ (stored db.plainState (storagePrefix w.address w.incarnation)).tail ↔
        j ≠ w.location ∧ j ++ y ∈ stored db.plainState (storagePrefix w.address w.incarnation)) := by
      intro j y hj
      rcases hf with h | ⟨x, l, h⟩
      · rw [h]; simp
      · rw [h] at hold hu
        rw [h]
        simp only [List.tail_cons, List.mem_cons]
        rw [List.pairwise_cons] at hold
        constructor
        · intro hm
          refine ⟨?_, Or.inr hm⟩
          rintro rfl
          have := hu w.location x y (by simp) (by simp [hm]) hw3
          subst this
          exact absurd (hold.1 _ hm) (List.lt_irrefl _)
        · rintro ⟨h1, h2 | h2⟩
          · exact absurd (List.append_inj h2 (hj.trans hw3.symm)).1 h1
          · exact h2
    have hnew : ∀ j y, j.length = 32 → (j ++ y ∈ stored (writeSlot db w).plainState (storagePrefix w.address w.incarnation) ↔
        (j = w.location ∧ w.value ≠ zero32 ∧ y = zerolessView w.value) ∨
        (j ≠ w.location ∧ j ++ y ∈ stored db.plainState (storagePrefix w.address w.incarnation))) := by
      intro j y hj
      rw [hst]
      unfold Db.Buffer.updateValues
      split
      · rename_i hz
        rw [htail j y hj]
        simp [hz]
      · rename_i hz
        rw [mem_insertKey, htail j y hj]
        constructor
        · rintro (h | h)
          · have := List.append_inj h (hj.trans hw3.symm)
            exact Or.inl ⟨this.1, hz, this.2⟩
          · exact Or.inr h
        · rintro (⟨h1, _, h2⟩ | h)
          · exact Or.inl (by rw [h1, h2])
          · exact Or.inr h
    by_cases hkl : w.location = k
    · subst hkl
      rw [if_pos ⟨rfl, rfl, rfl⟩]
      exact readStorage_current (r := r) ho2 hw4 (fun y => by rw [hnew _ y hw3]; simp)
    · rw [if_neg (fun h => hkl h.2.2)]
      congr 1
      by_cases he : ∃ y, k ++ y ∈ stored db.plainState (storagePrefix w.address w.incarnation)
      · obtain ⟨y, hy⟩ := he
        have hiff : ∀ z, k ++ z ∈ stored db.plainState (storagePrefix w.address w.incarnation) ↔ z = y :=
          fun z => ⟨fun hz => hu k z y hz hy hk, fun h => by rw [h]; exact hy⟩
        rw [findValueSuffix_unique ho hiff, findValueSuffix_unique ho2 (x := y)]
        intro z
        rw [hnew k z hk, hiff z]
        exact ⟨fun h => h.elim (fun h => absurd h.1.symm hkl) (·.2), fun h => Or.inr ⟨fun h => hkl h.symm, h⟩⟩
      · rw [findValueSuffix_none (fun y hy => he ⟨y, hy⟩), findValueSuffix_none]
        intro y hy
        rcases (hnew k y hk).mp hy with h | h
        · exact hkl h.1.symm
        · exact he ⟨y, h.2⟩
  · rw [if_neg (fun h => hp ⟨h.1.symm, h.2.1.symm⟩)]
    rw [if_neg hp] at hst
    rw [Db.Buffer.findValueSuffix_stored, Db.Buffer.findValueSuffix_stored, hst]

def exAddr (n : Nat) : Bytes := beFixed 20 n
def exWord (n : Nat) : Bytes := beFixed 32 n
def exNoBitmap : Bytes → Option (List Nat) := fun _ => none

def exWrites : List SlotWrite :=
  [⟨exAddr 7, 1, exWord 5, exWord 0x1000⟩, ⟨exAddr 7, 2, exWord 6, exWord 3⟩, ⟨exAddr 8, 1, exWord 5, exWord 9⟩,
    ⟨exAddr 7, 1, exWord 5, exWord 0x0101⟩, ⟨exAddr 8, 1, exWord 5, exWord 0⟩]

example : Db.readStorage exNoBitmap (exWrites.foldl writeSlot {}) (exAddr 7) 1 (exWord 5) none = .ok (exWord 0x0101) ∧
    Db.readStorage exNoBitmap (exWrites.foldl writeSlot {}) (exAddr 7) 2 (exWord 6) none = .ok (exWord 3) ∧
    Db.readStorage exNoBitmap (exWrites.foldl writeSlot {}) (exAddr 8) 1 (exWord 5) none = .ok zero32 ∧
    (exWrites.foldl writeSlot {}).plainState.length = 2 := by decide +kernel
example : Db.readStorage exNoBitmap (exWrites.foldl writeSlot {}) (exAddr 7) 1 (exWord 5) none =
    match lastWritten (exAddr 7) 1 (exWord 5) exWrites with
    | some v => .ok v
    | none => Db.readStorage exNoBitmap {} (exAddr 7) 1 (exWord 5) none :=
  c47_one_slot_partial exNoBitmap (fun _ i => if i = 2 then exWord 6 else exWord 5)
    (by intro a i; by_cases h : i = 2 <;> simp [h, exWord]) {} (by decide) (fun _ _ _ _ => Or.inl rfl) exWrites
    (by unfold SlotWrite.Fits; decide +kernel) (by decide +kernel) _ _ _ (by decide) (by decide) (by decide)

/-- C47 does not hold: a write to a second slot of a contract removes the first one. -/
theorem c47_violated : ¬ ∀ (ws : List SlotWrite) (a : Bytes) (i : Nat) (k : Bytes), (∀ w ∈ ws, w.Fits) →
    Db.readStorage exNoBitmap (ws.foldl writeSlot {}) a i k none = .ok ((lastWritten a i k ws).getD zero32) := by
  intro h
  have := h [⟨exAddr 7, 1, exWord 1, exWord 11⟩, ⟨exAddr 7, 1, exWord 2, exWord 12⟩] (exAddr 7) 1 (exWord 1)
    (by unfold SlotWrite.Fits; decide +kernel)
  revert this
  decide +kernel

/-- A plain state with two slots of one contract, as another program leaves it. -/
def exTwoSlots : Database :=
  { plainState := [(storagePrefix (exAddr 7) 1, exWord 1 ++ [11]), (storagePrefix (exAddr 7) 1, exWord 2 ++ [12])] }

example : Db.readStorage exNoBitmap (writeSlot exTwoSlots ⟨exAddr 7, 1, exWord 1, exWord 13⟩) (exAddr 7) 1 (exWord 1) none =
      .ok (exWord 13) ∧
    Db.readStorage exNoBitmap (writeSlot exTwoSlots ⟨exAddr 7, 1, exWord 1, exWord 13⟩) (exAddr 7) 1 (exWord 2) none =
      .ok (exWord 12) := by decide +kernel

/-- C47 does not hold: after a write to the second slot of a contract the old value is still returned. -/
theorem c47_overwrite_violated : MultiOrdered exTwoSlots.plainState ∧
    Db.readStorage exNoBitmap exTwoSlots (exAddr 7) 1 (exWord 2) none = .ok (exWord 12) ∧
    Db.readStorage exNoBitmap (writeSlot exTwoSlots ⟨exAddr 7, 1, exWord 2, exWord 13⟩) (exAddr 7) 1 (exWord 2) none =
      .ok (exWord 12) ∧
    Db.readStorage exNoBitmap (writeSlot exTwoSlots ⟨exAddr 7, 1, exWord 2, exWord 13⟩) (exAddr 7) 1 (exWord 1) none =
      .ok zero32 := by decide +kernel

/-! ## C82 -/

/-- The buffer after calls on an empty one. -/
def Reached (calls : List BufferCall) (b : Db.Buffer) : Prop :=
  (∀ c ∈ calls, CallFits c) ∧ Db.Buffer.applyAll {} calls = .ok b

theorem Reached.wf {calls : List BufferCall} {b : Db.Buffer} (h : Reached calls b) : b.WF := by
  obtain ⟨b', h1, h2⟩ := Db.Buffer.applyAll_spec calls {}
  rw [h.2] at h1
  cases Outcome.ok.inj h1
  exact h2 Db.Buffer.wf_empty h.1

/-- C82: calls on a buffer never fail. -/
theorem c82_calls (calls : List BufferCall) (b : Db.Buffer) : ∃ b', b.applyAll calls = .ok b' := by
  obtain ⟨b', h, _⟩ := Db.Buffer.applyAll_spec calls b
  exact ⟨b', h⟩

/-- C82: after writing a buffer to the database accounts are read from there as they were read through the buffer. Assumed
is that a contract without code has no record of a code hash, and that codes are set together with accounts. -/
theorem c82_accounts_partial (r : Bytes → Option (List Nat)) (calls : List BufferCall) (b : Db.Buffer) (hb : Reached calls b)
    (db : Database) (ho : MultiOrdered db.plainState) (a : Bytes) (ha : a.length = 20)
    (hone : (stored db.plainState a).length ≤ 1)
    (hcode : ∀ acc, b.accounts.get? a = some (some acc) → acc.incarnation ≠ 0 → acc.codeHash = kEmptyHash →
      b.storagePrefixToCodeHash.get? (storagePrefix a acc.incarnation) = none ∧
      db.plainContractCode.find (storagePrefix a acc.incarnation) = none)
    (hnew : b.accounts.get? a = none → ∀ i, b.storagePrefixToCodeHash.get? (storagePrefix a i) = none) :
    Db.Buffer.readAccount r (b.writeToDb db) none {} a = Db.Buffer.readAccount r db none b a := by
  have hw := hb.wf
  obtain ⟨_, hs, _⟩ := Db.Buffer.writeToStateTable_spec hw ho
  have hs := hs a ha
  have htail : (stored db.plainState a).tail = [] := by
    cases h : stored db.plainState a with
    | nil => rfl
    | cons x xs =>
      rw [h, List.length_cons] at hone
      exact List.length_eq_zero_iff.mp (show xs.length = 0 by omega)
  have hfind : (b.writeToDb db).plainState.find a = (Db.Buffer.accountValues (b.accounts.get? a) (stored db.plainState a)).head?.map
      fun v => (a, v) := by
    rw [find_stored]
    show (stored (Db.Buffer.writeToStateTable b db.plainState) a).head?.map _ = _
    rw [hs]
  unfold Db.Buffer.readAccount
  show Db.Buffer.noexcept _ = _
  cases hx : b.accounts.get? a with
  | none =>
    rw [hx] at hfind
    simp only
    congr 1
    unfold Db.readAccount
    simp only [Outcome.ok_bind]
    have he : (b.writeToDb db).plainState.find a = db.plainState.find a := by
      rw [hfind, find_stored]; rfl
    rw [he]
    have hr : ∀ acc, restoreCodeHash (b.writeToDb db) a acc = restoreCodeHash db a acc := by
      intro acc
      unfold restoreCodeHash
      rw [storagePrefixes_find b hw, hnew hx]
    simp only [hr]
  | some x =>
    rw [hx] at hfind
    cases x with
    | none =>
      unfold Db.Buffer.accountValues at hfind
      simp only [htail, List.head?_nil, Option.map_none] at hfind
      unfold Db.readAccount
      simp only [Outcome.ok_bind, hfind]
      rfl
    | some acc =>
      unfold Db.Buffer.accountValues at hfind
      simp only [htail, insertKey, List.head?_cons, Option.map_some] at hfind
      unfold Db.readAccount
      simp only [Outcome.ok_bind, hfind, Option.map_some]
      have hdec := (c16_account_roundtrip acc (hw.accounts a acc hx)).1
      obtain ⟨y, ys, hy⟩ := encodeForStorage_cons acc
      rw [hy] at hdec
      simp only [hy, hdec, liftDec, Outcome.ok_bind]
      have hrest : restoreCodeHash (b.writeToDb db) a acc = acc := by
        unfold restoreCodeHash
        split
        · rename_i hc
          obtain ⟨c1, c2⟩ := hcode acc hx (by omega) hc.2
          rw [storagePrefixes_find b hw, c1, c2]
        · rfl
      rw [hrest]; rfl

/-- C82: after writing a buffer to the database codes are read from there as they were read through the buffer. -/
theorem c82_code (calls : List BufferCall) (b : Db.Buffer) (hb : Reached calls b) (db : Database) (h : Bytes) :
    Db.Buffer.readCode (b.writeToDb db) {} h = Db.Buffer.readCode db b h := by
  have hw := hb.wf
  have hf : (b.writeToDb db).code.find h = match b.hashToCode.get? h with
      | some v => some (h, v)
      | none => db.code.find h := upsertAll_find _ _ hw.code _
  unfold Db.Buffer.readCode
  show (Db.readCode (b.writeToDb db) h).getD [] = _
  unfold Db.readCode
  rw [hf]
  cases b.hashToCode.get? h <;> rfl

/-- C82: after writing a buffer to the database the previous incarnations are read from there as they were read through the
buffer. -/
theorem c82_incarnations (calls : List BufferCall) (b : Db.Buffer) (hb : Reached calls b) (db : Database) (a : Bytes) :
    Db.Buffer.previousIncarnation (b.writeToDb db) none {} a = Db.Buffer.previousIncarnation db none b a := by
  have hw := hb.wf
  have hm : AMap.WF (b.incarnations.map fun e => (e.1, beFixed 8 e.2)) := by
    have := hw.incarnations
    unfold AMap.WF AMap.keys at this ⊢
    rw [List.map_map]
    exact this
  have hf : (b.writeToDb db).incarnationMap.find a = match (b.incarnations.get? a).map (beFixed 8) with
      | some v => some (a, v)
      | none => db.incarnationMap.find a := by
    rw [← map_get?]
    exact upsertAll_find _ _ hm _
  unfold Db.Buffer.previousIncarnation
  show (Db.Buffer.noexcept (Db.readPreviousIncarnation (b.writeToDb db) a none) >>= _) = _
  unfold Db.readPreviousIncarnation
  simp only
  rw [hf]
  cases hx : b.incarnations.get? a with
  | none => rfl
  | some n =>
    simp only [Option.map_some, Silkworm.beFixed_length, if_true, Db.Buffer.noexcept, Outcome.ok_bind, Option.getD_some]
    rw [Silkworm.beToNat_beFixed (u64 (hw.incarnationValues a n hx))]

/-- C82: for a contract of which one slot was changed, and no other is stored, storage is read from the database after
writing as it was read through the buffer. -/
theorem c82_storage_partial (r : Bytes → Option (List Nat)) (calls : List BufferCall) (b : Db.Buffer) (hb : Reached calls b)
    (db : Database) (ho : MultiOrdered db.plainState) (a : Bytes) (i : Nat) (k loc : Bytes) (ha : a.length = 20)
    (hi : i < 2 ^ 64) (hk : k.length = 32) (hloc : loc.length = 32)
    (hone : ∀ j v, MemoryBuffer.nestedGet? b.storage a i j = some v → j = loc)
    (hst : stored db.plainState (storagePrefix a i) = [] ∨ ∃ x, stored db.plainState (storagePrefix a i) = [loc ++ x]) :
    Db.Buffer.readStorage r (b.writeToDb db) none {} a i k = Db.Buffer.readStorage r db none b a i k := by
  have hw := hb.wf
  obtain ⟨_, _, hs⟩ := Db.Buffer.writeToStateTable_spec hw ho
  have hs := hs a i ha hi
  unfold Db.Buffer.readStorage
  show Db.Buffer.noexcept _ = _
  have hmk : ∀ j, MemoryBuffer.nestedGet? b.storage a i j =
      match ((b.storage.get? a).getD []).get? i with
      | none => none
      | some m => m.get? j := by
    intro j
    unfold MemoryBuffer.nestedGet?
    cases b.storage.get? a <;> rfl
  rw [hmk]
  cases hm : ((b.storage.get? a).getD []).get? i with
  | none =>
    rw [hm] at hs
    simp only
    congr 1
    unfold Db.readStorage
    simp only [Outcome.ok_bind]
    rw [Db.Buffer.findValueSuffix_stored, Db.Buffer.findValueSuffix_stored]
    have hs' : stored (b.writeToDb db).plainState (storagePrefix a i) = stored db.plainState (storagePrefix a i) := hs
    rw [hs']
  | some m =>
    rw [hm] at hs
    simp only at hs ⊢
    have htail : (stored db.plainState (storagePrefix a i)).tail = [] := by
      rcases hst with h | ⟨x, h⟩ <;> rw [h] <;> rfl
    have hkeys : ∀ j ∈ sortKeys m.keys, j = loc := by
      intro j hj
      have hj := mem_sortKeys.mp hj
      cases hv : m.get? j with
      | none => exact absurd hj (AMap.get?_eq_none_iff.mp hv)
      | some v => exact hone j v (by rw [hmk, hm]; exact hv)
    have hcases : sortKeys m.keys = [] ∨ sortKeys m.keys = [loc] := by
      have hnd := nodup_sortKeys m.keys
      match hl : sortKeys m.keys with
      | [] => exact Or.inl rfl
      | [x] => exact Or.inr (by rw [hkeys x (by rw [hl]; simp)])
      | x :: y :: l =>
        rw [hl] at hnd hkeys
        have h1 := hkeys x (by simp)
        have h2 := hkeys y (by simp)
        rw [h1, h2] at hnd
        simp at hnd
    have hs' : stored (b.writeToDb db).plainState (storagePrefix a i) =
        Db.Buffer.contractValues m (stored db.plainState (storagePrefix a i)) := hs
    rcases hcases with hc | hc
    · have hnone : m.get? k = none := by
        rw [AMap.get?_eq_none_iff]
        intro h
        have := mem_sortKeys.mpr h
        rw [hc] at this
        cases this
      rw [hnone]
      simp only
      congr 1
      unfold Db.readStorage
      simp only [Outcome.ok_bind]
      rw [Db.Buffer.findValueSuffix_stored, Db.Buffer.findValueSuffix_stored, hs']
      unfold Db.Buffer.contractValues
      rw [hc]; rfl
    · have hmem : loc ∈ m.keys := mem_sortKeys.mp (by rw [hc]; simp)
      obtain ⟨v, hv⟩ : ∃ v, m.get? loc = some v := by
        cases h : m.get? loc with
        | none => exact absurd hmem (AMap.get?_eq_none_iff.mp h)
        | some v => exact ⟨v, rfl⟩
      have hvl := hw.values a i loc v (by rw [hmk, hm]; exact hv)
      have hst' : stored (b.writeToDb db).plainState (storagePrefix a i) =
          if v = zero32 then [] else [loc ++ zerolessView v] := by
        rw [hs']
        unfold Db.Buffer.contractValues
        rw [hc, List.foldl_cons, List.foldl_nil, hv]
        unfold Db.Buffer.updateValues
        rw [htail]; rfl
      obtain ⟨r1, r2⟩ := readStorage_one r (b.writeToDb db) (hloc.trans hk.symm) hst'
      by_cases hkl : k = loc
      · subst hkl
        rw [hv]
        simp only
        by_cases hz : v = zero32
        · rw [r1 (by rw [if_pos hz]), hz]; rfl
        · rw [r2 _ (by rw [if_neg hz]), if_pos rfl, Db.Buffer.padded_zeroless hvl.2]; rfl
      · have hnone : m.get? k = none := by
          rw [AMap.get?_eq_none_iff]
          intro h
          exact hkl (hkeys k (mem_sortKeys.mpr h))
        rw [hnone]
        simp only
        have hold : Db.readStorage r db a i k none = .ok zero32 := by
          rcases hst with h | ⟨x, h⟩
          · exact (readStorage_one r db rfl h (k := k)).1 rfl
          · rw [(readStorage_one r db (hloc.trans hk.symm) h).2 x rfl, if_neg hkl]
        rw [hold]
        by_cases hz : v = zero32
        · rw [r1 (by rw [if_pos hz])]
        · rw [r2 _ (by rw [if_neg hz]), if_neg hkl]

def exAcc1 : Account := { nonce := 3, balance := 10 ^ 20, codeHash := exWord 77, incarnation := 2 }
def exAcc2 : Account := { balance := 5 }
def exDbCalls : List BufferCall :=
  [.beginBlock 9, .updateAccount (exAddr 7) none (some exAcc1), .updateAccountCode (exAddr 7) 2 (exWord 77) [0x60, 0x00],
    .updateStorage (exAddr 7) 2 (exWord 5) zero32 (exWord 300), .updateAccount (exAddr 9) (some exAcc1) none,
    .updateAccount (exAddr 8) (some exAcc2) (some { exAcc2 with balance := 6 }), .beginBlock 10,
    .updateStorage (exAddr 7) 2 (exWord 5) (exWord 300) (exWord 301)]
def exDbBuffer : Db.Buffer := match Db.Buffer.applyAll {} exDbCalls with | .ok b => b | _ => {}
def exDb0 : Database :=
  { plainState := [(exAddr 8, exAcc2.encodeForStorage), (exAddr 9, exAcc1.encodeForStorage)] }

theorem exAcc1_wf : exAcc1.WF := ⟨by decide, by decide, by decide, by decide⟩
theorem exAcc2_wf : exAcc2.WF := ⟨by decide, by decide, by decide, by decide⟩

theorem exReached : Reached exDbCalls exDbBuffer := by
  refine ⟨?_, ?_⟩
  · intro c hc
    simp only [exDbCalls, List.mem_cons, List.not_mem_nil, or_false] at hc
    rcases hc with rfl | rfl | rfl | rfl | rfl | rfl | rfl | rfl
    · show 9 < 2 ^ 64; decide
    · refine ⟨by decide, ?_, ?_⟩
      · intro x h; cases h
      · intro x h; cases h; exact exAcc1_wf
    · exact ⟨by decide, by decide, by decide⟩
    · exact ⟨by decide, by decide, by decide, by decide, by decide⟩
    · refine ⟨by decide, ?_, ?_⟩
      · intro x h; cases h; exact exAcc1_wf
      · intro x h; cases h
    · refine ⟨by decide, ?_, ?_⟩
      · intro x h; cases h; exact exAcc2_wf
      · intro x h; cases h; exact ⟨by decide, by decide, by decide, by decide⟩
    · show 10 < 2 ^ 64; decide
    · exact ⟨by decide, by decide, by decide, by decide, by decide⟩
  · obtain ⟨b, hb⟩ := c82_calls exDbCalls {}
    unfold exDbBuffer
    rw [hb]

example : Db.Buffer.readAccount exNoBitmap (exDbBuffer.writeToDb exDb0) none {} (exAddr 7) = .ok (some exAcc1) ∧
    Db.Buffer.readAccount exNoBitmap (exDbBuffer.writeToDb exDb0) none {} (exAddr 8) = .ok (some { exAcc2 with balance := 6 }) ∧
    Db.Buffer.readAccount exNoBitmap (exDbBuffer.writeToDb exDb0) none {} (exAddr 9) = .ok none ∧
    Db.Buffer.readCode (exDbBuffer.writeToDb exDb0) {} (exWord 77) = [0x60, 0x00] ∧
    Db.Buffer.previousIncarnation (exDbBuffer.writeToDb exDb0) none {} (exAddr 9) = .ok 2 ∧
    Db.Buffer.readStorage exNoBitmap (exDbBuffer.writeToDb exDb0) none {} (exAddr 7) 2 (exWord 5) = .ok (exWord 301) := by
  decide +kernel
example : Db.Buffer.readAccount exNoBitmap (exDbBuffer.writeToDb exDb0) none {} (exAddr 7) =
    Db.Buffer.readAccount exNoBitmap exDb0 none exDbBuffer (exAddr 7) :=
  c82_accounts_partial exNoBitmap exDbCalls exDbBuffer exReached exDb0 (by decide +kernel) _ (by decide) (by decide +kernel)
    (by
      intro acc h _ hc
      have : exDbBuffer.accounts.get? (exAddr 7) = some (some exAcc1) := by decide +kernel
      rw [this] at h
      cases h
      exact absurd hc (by decide +kernel))
    (by
      intro h
      exact absurd h (by decide +kernel))

def exHeader1 : BlockHeader :=
  { parentHash := exWord 1, ommersHash := exWord 2, beneficiary := exAddr 3, stateRoot := exWord 4, transactionsRoot := exWord 5,
    receiptsRoot := exWord 6, logsBloom := beFixed 256 0, difficulty := 17, number := 0, gasLimit := 1, gasUsed := 0,
    timestamp := 1, extraData := [], mixHash := exWord 7, nonce := beFixed 8 0 }
def exBlock1 : Block := { transactions := [], ommers := [], header := exHeader1 }
def exInserted : Db.Buffer := match Db.Buffer.insertBlock {} {} exBlock1 (exWord 9) with | .ok b => b | _ => {}

/-- C82 does not hold for blocks: headers, bodies and total difficulties are not written to the database. -/
theorem c82_blocks_violated :
    Db.Buffer.readHeader {} exInserted 0 (exWord 9) = .ok (some exHeader1) ∧
    Db.Buffer.totalDifficulty {} exInserted 0 (exWord 9) = .ok (some 17) ∧
    Db.Buffer.readBody {} exInserted 0 (exWord 9) = .ok (some { transactions := [], ommers := [] }) ∧
    Db.Buffer.readHeader (exInserted.writeToDb {}) {} 0 (exWord 9) = .ok none ∧
    Db.Buffer.totalDifficulty (exInserted.writeToDb {}) {} 0 (exWord 9) = .ok none ∧
    Db.Buffer.readBody (exInserted.writeToDb {}) {} 0 (exWord 9) = .ok none := by decide +kernel

end Silkworm.Properties
