import Verif.Db.BufferInvariant
import Verif.Spec.Db

/-!
# Lemmas on state in the database
-/

namespace Silkworm.Db

open Silkworm.Spec State
open Silkworm.Properties (c46_storage_prefix_order)

/-- A slot is written in the database as `write_to_db` does it. -/
def writeSlot (db : Database) (w : SlotWrite) : Database :=
  { db with
    plainState := Db.Buffer.upsertStorageValue db.plainState (storagePrefix w.address w.incarnation) w.location w.value }

/-- For every contract at most one value is stored, and it belongs to the given slot. -/
def OneSlot (slot : Bytes → Nat → Bytes) (t : Table) : Prop :=
  ∀ a i, a.length = 20 → i < 2 ^ 64 →
    stored t (storagePrefix a i) = [] ∨ ∃ x, stored t (storagePrefix a i) = [slot a i ++ x] ∧ x.length ≤ 32

/-- What is read when at most one value is stored. -/
theorem readStorage_one (r : Bytes → Option (List Nat)) (db : Database) {a : Bytes} {i : Nat} {loc k : Bytes}
    (hl : loc.length = k.length) {vs : List Bytes} (hs : stored db.plainState (storagePrefix a i) = vs) :
    (vs = [] → Db.readStorage r db a i k none = .ok zero32) ∧
    (∀ x, vs = [loc ++ x] → Db.readStorage r db a i k none = if k = loc then storageValue (some x) else .ok zero32) := by
  constructor
  · rintro rfl
    unfold Db.readStorage
    simp only [Outcome.ok_bind]
    rw [Db.Buffer.findValueSuffix_stored, hs]; rfl
  · rintro x rfl
    unfold Db.readStorage
    simp only [Outcome.ok_bind]
    rw [Db.Buffer.findValueSuffix_stored, hs, Db.Buffer.suffix_one hl]
    split <;> rfl

/-- One write to the only slot of a contract. -/
theorem writeSlot_spec (r : Bytes → Option (List Nat)) {slot : Bytes → Nat → Bytes}
    (hslot : ∀ a i, (slot a i).length = 32) {db : Database} (ho : MultiOrdered db.plainState) (h1 : OneSlot slot db.plainState)
    {w : SlotWrite} (hw : w.Fits) (hs : w.location = slot w.address w.incarnation) :
    MultiOrdered (writeSlot db w).plainState ∧ OneSlot slot (writeSlot db w).plainState ∧
    ∀ a i k, a.length = 20 → i < 2 ^ 64 → k.length = 32 →
      Db.readStorage r (writeSlot db w) a i k none =
        if w.address = a ∧ w.incarnation = i ∧ w.location = k then .ok w.value else Db.readStorage r db a i k none := by
  obtain ⟨hw1, hw2, hw3, hw4⟩ := hw
  have hst : ∀ a i, a.length = 20 → i < 2 ^ 64 → stored (writeSlot db w).plainState (storagePrefix a i) =
      if a = w.address ∧ i = w.incarnation then
        (if w.value = zero32 then [] else [w.location ++ zerolessView w.value])
      else stored db.plainState (storagePrefix a i) := by
    intro a i ha hi
    unfold writeSlot
    simp only
    rw [Db.Buffer.upsertStorageValue_stored ho]
    have hinj := (c46_storage_prefix_order a w.address i w.incarnation (ha.trans hw1.symm) hi hw2).2
    simp only [hinj]
    split
    · rename_i he
      obtain ⟨rfl, rfl⟩ := he
      have htail : (stored db.plainState (storagePrefix w.address w.incarnation)).tail = [] := by
        rcases h1 w.address w.incarnation ha hi with h | ⟨x, h, _⟩ <;> rw [h] <;> rfl
      unfold Db.Buffer.updateValues
      rw [htail]; rfl
    · rfl
  have hone : OneSlot slot (writeSlot db w).plainState := by
    intro a i ha hi
    rw [hst a i ha hi]
    split
    · rename_i he
      obtain ⟨rfl, rfl⟩ := he
      split
      · exact Or.inl rfl
      · refine Or.inr ⟨_, by rw [hs], ?_⟩
        obtain ⟨k, hk, _⟩ := zerolessView_spec w.value
        have := congrArg List.length hk
        rw [List.length_append, hw4] at this
        omega
    · exact h1 a i ha hi
  refine ⟨Db.Buffer.upsertStorageValue_ordered ho .., hone, ?_⟩
  intro a i k ha hi hk
  by_cases hp : a = w.address ∧ i = w.incarnation
  · obtain ⟨rfl, rfl⟩ := hp
    have hval := hst w.address w.incarnation ha hi
    rw [if_pos ⟨rfl, rfl⟩] at hval
    obtain ⟨r1, r2⟩ := readStorage_one r (writeSlot db w) (hw3.trans hk.symm) hval
    by_cases hz : w.value = zero32
    · rw [r1 (by rw [if_pos hz])]
      split
      · rw [hz]
      · rename_i hne
        have hne : k ≠ slot w.address w.incarnation := fun h => hne ⟨rfl, rfl, by rw [hs, h]⟩
        rcases h1 w.address w.incarnation ha hi with h | ⟨x, h, _⟩
        · rw [(readStorage_one r db rfl h (k := k)).1 rfl]
        · rw [(readStorage_one r db ((hslot _ _).trans hk.symm) h).2 x rfl, if_neg hne]
    · rw [r2 _ (by rw [if_neg hz])]
      by_cases hkl : k = w.location
      · rw [if_pos hkl, if_pos ⟨rfl, rfl, hkl.symm⟩]
        exact Db.Buffer.padded_zeroless hw4
      · rw [if_neg hkl, if_neg (fun h => hkl h.2.2.symm)]
        rcases h1 w.address w.incarnation ha hi with h | ⟨x, h, _⟩
        · rw [(readStorage_one r db rfl h (k := k)).1 rfl]
        · rw [(readStorage_one r db ((hslot _ _).trans hk.symm) h).2 x rfl, if_neg (by rw [← hs]; exact hkl)]
  · rw [if_neg (fun h => hp ⟨h.1.symm, h.2.1.symm⟩)]
    have hval := hst a i ha hi
    rw [if_neg hp] at hval
    unfold Db.readStorage
    simp only [Outcome.ok_bind]
    rw [Db.Buffer.findValueSuffix_stored, Db.Buffer.findValueSuffix_stored, hval]

theorem storagePrefixes_find (b : Db.Buffer) (hb : b.WF) (db : Database) (k : Bytes) :
    (b.writeToDb db).plainContractCode.find k =
      match b.storagePrefixToCodeHash.get? k with
      | some v => some (k, v)
      | none => db.plainContractCode.find k := upsertAll_find _ _ hb.codeHashes _

theorem encodeForStorage_cons (a : Account) : ∃ x xs, a.encodeForStorage = x :: xs := ⟨_, _, rfl⟩

theorem map_get? (m : AMap Bytes Nat) (f : Nat → Bytes) (k : Bytes) :
    AMap.get? (m.map fun e => (e.1, f e.2)) k = (m.get? k).map f := by
  induction m with
  | nil => rfl
  | cons e m ih =>
    rw [List.map_cons, AMap.get?_cons, AMap.get?_cons, ih]
    split <;> rfl

end Silkworm.Db
