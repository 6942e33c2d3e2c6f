import Verif.Db.TableLemmas
import Verif.State.BufferLemmas
import Verif.Common.UtilLemmas
import Verif.Properties.DbKeys
import Verif.Properties.Account

/-!
# What a flush leaves in the plain state
-/

namespace Silkworm.Db.Buffer

open Silkworm.Spec State

/-- The values of a contract after one slot was written. -/
def updateValues (vs : List Bytes) (location value : Bytes) : List Bytes :=
  if value = zero32 then vs.tail else insertKey (location ++ zerolessView value) vs.tail

/-- The values of a contract after its slots were written. -/
def contractValues (m : AMap Bytes Bytes) (vs : List Bytes) : List Bytes :=
  (sortKeys m.keys).foldl (fun vs k => updateValues vs k ((m.get? k).getD zero32)) vs

/-- The values of an account after it was written. -/
def accountValues (a : Option (Option Account)) (vs : List Bytes) : List Bytes :=
  match a with
  | none => vs
  | some none => vs.tail
  | some (some acc) => insertKey acc.encodeForStorage vs.tail

theorem upsertStorageValue_ordered {t : Table} (ht : MultiOrdered t) (p k v : Bytes) :
    MultiOrdered (upsertStorageValue t p k v) := by
  unfold upsertStorageValue Table.findMultivalue
  simp only
  split
  · exact ordered_erase_found ht p
  · exact ordered_upsertMultivalue (ordered_erase_found ht p) ..

theorem upsertStorageValue_stored {t : Table} (ht : MultiOrdered t) (p k v j : Bytes) :
    stored (upsertStorageValue t p k v) j = if j = p then updateValues (stored t p) k v else stored t j := by
  unfold upsertStorageValue Table.findMultivalue updateValues
  simp only
  by_cases hv : v = zero32
  · rw [if_pos hv, if_pos hv, stored_erase_found]
  · rw [if_neg hv, if_neg hv]
    by_cases hj : j = p
    · subst hj
      rw [if_pos rfl, stored_upsertMultivalue_same (ordered_erase_found ht j), stored_erase_found, if_pos rfl]
    · rw [if_neg hj, stored_upsertMultivalue_ne _ hj, stored_erase_found, if_neg hj]

theorem writeAccount_ordered {t : Table} (ht : MultiOrdered t) (a : Bytes) (x : Option (Option Account)) :
    MultiOrdered (writeAccount t a x) := by
  unfold writeAccount
  rcases x with _ | _ | acc
  · exact ht
  · exact ordered_erase_found ht a
  · exact ordered_upsertMultivalue (ordered_erase_found ht a) ..

theorem writeAccount_stored {t : Table} (ht : MultiOrdered t) (a : Bytes) (x : Option (Option Account)) (j : Bytes) :
    stored (writeAccount t a x) j = if j = a then accountValues x (stored t a) else stored t j := by
  unfold writeAccount accountValues
  rcases x with _ | _ | acc
  · by_cases hj : j = a
    · rw [if_pos hj, hj]
    · rw [if_neg hj]
  · exact stored_erase_found ..
  · simp only
    by_cases hj : j = a
    · subst hj
      rw [if_pos rfl, stored_upsertMultivalue_same (ordered_erase_found ht j), stored_erase_found, if_pos rfl]
    · rw [if_neg hj, stored_upsertMultivalue_ne _ hj, stored_erase_found, if_neg hj]

theorem foldl_slots {t : Table} (ht : MultiOrdered t) (p : Bytes) (m : AMap Bytes Bytes) (ks : List Bytes) (j : Bytes) :
    MultiOrdered (ks.foldl (fun t k => upsertStorageValue t p k ((m.get? k).getD zero32)) t) ∧
    stored (ks.foldl (fun t k => upsertStorageValue t p k ((m.get? k).getD zero32)) t) j =
      if j = p then ks.foldl (fun vs k => updateValues vs k ((m.get? k).getD zero32)) (stored t p) else stored t j := by
  induction ks generalizing t with
  | nil => refine ⟨ht, ?_⟩; simp only [List.foldl_nil]; split <;> simp_all
  | cons k ks ih =>
    have h1 := upsertStorageValue_ordered ht p k ((m.get? k).getD zero32)
    simp only [List.foldl_cons]
    refine ⟨(ih h1).1, ?_⟩
    rw [(ih h1).2, upsertStorageValue_stored ht, upsertStorageValue_stored ht, if_pos rfl]
    by_cases hj : j = p
    · rw [if_pos hj, if_pos hj]
    · rw [if_neg hj, if_neg hj, if_neg hj]

theorem writeContract_ordered {t : Table} (ht : MultiOrdered t) (a : Bytes) (c : Nat × AMap Bytes Bytes) :
    MultiOrdered (writeContract t a c) := (foldl_slots ht _ _ _ []).1

theorem writeContract_stored {t : Table} (ht : MultiOrdered t) (a : Bytes) (c : Nat × AMap Bytes Bytes) (j : Bytes) :
    stored (writeContract t a c) j = if j = storagePrefix a c.1 then contractValues c.2 (stored t j) else stored t j := by
  unfold writeContract contractValues
  rw [(foldl_slots ht _ _ _ j).2]
  split
  · rename_i h; rw [h]
  · rfl

theorem foldl_contracts {t : Table} (ht : MultiOrdered t) (a : Bytes) (m : AMap Nat (AMap Bytes Bytes)) :
    MultiOrdered (m.foldl (fun t c => writeContract t a c) t) ∧
    (∀ j, (∀ n ∈ m.keys, j ≠ storagePrefix a n) → stored (m.foldl (fun t c => writeContract t a c) t) j = stored t j) ∧
    (AMap.WF m → (∀ n ∈ m.keys, n < 2 ^ 64) → ∀ i, i < 2 ^ 64 →
      stored (m.foldl (fun t c => writeContract t a c) t) (storagePrefix a i) =
        match m.get? i with
        | none => stored t (storagePrefix a i)
        | some s => contractValues s (stored t (storagePrefix a i))) := by
  induction m generalizing t with
  | nil => exact ⟨ht, fun j _ => rfl, fun _ _ i _ => rfl⟩
  | cons c m ih =>
    have h1 := writeContract_ordered ht a c
    obtain ⟨i1, i2, i3⟩ := ih h1
    simp only [List.foldl_cons]
    refine ⟨i1, ?_, ?_⟩
    · intro j hj
      rw [i2 j (fun n hn => hj n (List.mem_cons_of_mem _ hn)), writeContract_stored ht, if_neg (hj c.1 (List.mem_cons_self ..))]
    · intro hw hl i hi
      have hn : c.1 ∉ AMap.keys m ∧ AMap.WF m := by
        unfold AMap.WF AMap.keys at hw
        rw [List.map_cons, List.nodup_cons] at hw
        exact hw
      rw [i3 hn.2 (fun n hn => hl n (List.mem_cons_of_mem _ hn)) i hi, AMap.get?_cons, writeContract_stored ht]
      have hinj := (Properties.c46_storage_prefix_order a a i c.1 rfl hi (hl c.1 (List.mem_cons_self ..))).2
      by_cases hc : c.1 = i
      · subst hc
        rw [if_pos rfl, if_pos rfl, AMap.get?_eq_none_iff.mpr hn.1]
      · rw [if_neg hc, if_neg (fun h => hc (hinj.mp h).2.symm)]

/-- The fields of a buffer have the values their types allow, and maps have one entry per key. -/
structure WF (b : Buffer) : Prop where
  accountKeys : ∀ a ∈ b.accounts.keys, a.length = 20
  accounts : ∀ a x, b.accounts.get? a = some (some x) → x.WF
  storage : MemoryBuffer.NWF b.storage
  storageKeys : ∀ a ∈ b.storage.keys, a.length = 20
  incarnationKeys : ∀ a m, b.storage.get? a = some m → ∀ n ∈ m.keys, n < 2 ^ 64
  values : ∀ a n k v, MemoryBuffer.nestedGet? b.storage a n k = some v → k.length = 32 ∧ v.length = 32
  incarnations : AMap.WF b.incarnations
  incarnationValues : ∀ a n, b.incarnations.get? a = some n → n < 2 ^ 64
  code : AMap.WF b.hashToCode
  codeHashes : AMap.WF b.storagePrefixToCodeHash

theorem prefix_length {a : Bytes} (h : a.length = 20) (n : Nat) : (storagePrefix a n).length = 28 := by
  unfold storagePrefix; simp [h]

theorem writeAddress_spec {b : Buffer} (hb : b.WF) {t : Table} (ht : MultiOrdered t) {a : Bytes} (ha : a.length = 20) :
    MultiOrdered (writeAddress b t a) ∧
    (∀ x : Bytes, x.length = 20 →
      stored (writeAddress b t a) x = if x = a then accountValues (b.accounts.get? a) (stored t a) else stored t x) ∧
    (∀ (x : Bytes) (i : Nat), x.length = 20 → i < 2 ^ 64 →
      stored (writeAddress b t a) (storagePrefix x i) =
        if x = a then
          match ((b.storage.get? a).getD []).get? i with
          | none => stored t (storagePrefix x i)
          | some s => contractValues s (stored t (storagePrefix x i))
        else stored t (storagePrefix x i)) := by
  have h1 := writeAccount_ordered ht a (b.accounts.get? a)
  obtain ⟨i1, i2, i3⟩ := foldl_contracts h1 a ((b.storage.get? a).getD [])
  have hw : AMap.WF ((b.storage.get? a).getD []) := by
    cases h : b.storage.get? a with
    | none => exact AMap.WF_nil
    | some m => exact (hb.storage.2 a m h).1
  have hl : ∀ n ∈ AMap.keys ((b.storage.get? a).getD []), n < 2 ^ 64 := by
    cases h : b.storage.get? a with
    | none => intro n hn; cases hn
    | some m => exact hb.incarnationKeys a m h
  refine ⟨i1, ?_, ?_⟩
  · intro x hx
    unfold writeAddress
    rw [i2 x, writeAccount_stored ht]
    intro n _ he
    have := congrArg List.length he
    rw [prefix_length ha, hx] at this
    cases this
  · intro x i hx hi
    have hne : storagePrefix x i ≠ a := by
      intro he
      have := congrArg List.length he
      rw [prefix_length hx, ha] at this
      cases this
    unfold writeAddress
    by_cases hxa : x = a
    · subst hxa
      rw [if_pos rfl, i3 hw hl i hi, writeAccount_stored ht, if_neg hne]
    · rw [if_neg hxa, i2, writeAccount_stored ht, if_neg hne]
      intro n hn he
      exact hxa (((Properties.c46_storage_prefix_order x a i n (hx.trans ha.symm) hi (hl n hn)).2.mp he).1)

theorem foldl_addresses {b : Buffer} (hb : b.WF) (l : List Bytes) (hl : ∀ a ∈ l, a.length = 20) (hn : l.Nodup)
    {t : Table} (ht : MultiOrdered t) :
    MultiOrdered (l.foldl (writeAddress b) t) ∧
    (∀ x : Bytes, x.length = 20 →
      stored (l.foldl (writeAddress b) t) x = if x ∈ l then accountValues (b.accounts.get? x) (stored t x) else stored t x) ∧
    (∀ (x : Bytes) (i : Nat), x.length = 20 → i < 2 ^ 64 →
      stored (l.foldl (writeAddress b) t) (storagePrefix x i) =
        if x ∈ l then
          match ((b.storage.get? x).getD []).get? i with
          | none => stored t (storagePrefix x i)
          | some s => contractValues s (stored t (storagePrefix x i))
        else stored t (storagePrefix x i)) := by
  induction l generalizing t with
  | nil => exact ⟨ht, fun x _ => by simp, fun x i _ _ => by simp⟩
  | cons a l ih =>
    obtain ⟨h1, h2, h3⟩ := writeAddress_spec hb ht (hl a (List.mem_cons_self ..))
    obtain ⟨hna, hn⟩ := List.nodup_cons.mp hn
    obtain ⟨i1, i2, i3⟩ := ih (fun x hx => hl x (List.mem_cons_of_mem _ hx)) hn h1
    simp only [List.foldl_cons]
    refine ⟨i1, ?_, ?_⟩
    · intro x hx
      rw [i2 x hx, h2 x hx]
      by_cases hxa : x = a
      · subst hxa
        rw [if_neg hna, if_pos rfl, if_pos (List.mem_cons_self ..)]
      · rw [if_neg hxa]
        simp [hxa]
    · intro x i hx hi
      rw [i3 x i hx hi, h3 x i hx hi]
      by_cases hxa : x = a
      · subst hxa
        rw [if_neg hna, if_pos rfl, if_pos (List.mem_cons_self ..)]
      · rw [if_neg hxa]
        simp [hxa]

/-- What `write_to_state_table` leaves under the key of every account and contract. -/
theorem writeToStateTable_spec {b : Buffer} (hb : b.WF) {t : Table} (ht : MultiOrdered t) :
    MultiOrdered (writeToStateTable b t) ∧
    (∀ x : Bytes, x.length = 20 →
      stored (writeToStateTable b t) x = accountValues (b.accounts.get? x) (stored t x)) ∧
    (∀ (x : Bytes) (i : Nat), x.length = 20 → i < 2 ^ 64 →
      stored (writeToStateTable b t) (storagePrefix x i) =
        match ((b.storage.get? x).getD []).get? i with
        | none => stored t (storagePrefix x i)
        | some s => contractValues s (stored t (storagePrefix x i))) := by
  have hl : ∀ a ∈ sortKeys (b.accounts.keys ++ b.storage.keys), a.length = 20 := by
    intro a ha
    rcases List.mem_append.mp (mem_sortKeys.mp ha) with h | h
    · exact hb.accountKeys a h
    · exact hb.storageKeys a h
  obtain ⟨h1, h2, h3⟩ := foldl_addresses hb _ hl (nodup_sortKeys _) ht
  refine ⟨h1, ?_, ?_⟩
  · intro x hx
    unfold writeToStateTable
    rw [h2 x hx]
    split
    · rfl
    · rename_i hm
      have : b.accounts.get? x = none := by
        rw [AMap.get?_eq_none_iff]
        intro h; exact hm (mem_sortKeys.mpr (List.mem_append_left _ h))
      rw [this]; rfl
  · intro x i hx hi
    unfold writeToStateTable
    rw [h3 x i hx hi]
    split
    · rfl
    · rename_i hm
      have : b.storage.get? x = none := by
        rw [AMap.get?_eq_none_iff]
        intro h; exact hm (mem_sortKeys.mpr (List.mem_append_right _ h))
      rw [this]; rfl

/-! ## Reading back -/

theorem findValueSuffix_stored (t : Table) (k p : Bytes) :
    findValueSuffix t k p =
      match (stored t k).find? fun x => !lexLt x p with
      | none => none
      | some x => if p.isPrefixOf x then some (x.drop p.length) else none := by
  unfold findValueSuffix
  rw [lowerBoundMultivalue_stored]
  cases (stored t k).find? fun x => !lexLt x p <;> rfl

theorem padded_zeroless {v : Bytes} (h : v.length = 32) : storageValue (some (zerolessView v)) = .ok v := by
  obtain ⟨k, h1, _⟩ := zerolessView_spec v
  have hl := congrArg List.length h1
  rw [List.length_append, List.length_replicate, h] at hl
  show (if (zerolessView v).length ≤ 32 then _ else _) = _
  rw [if_pos (by omega), show 32 - (zerolessView v).length = k by omega, ← h1]

theorem isPrefixOf_append_self (p x : Bytes) : p.isPrefixOf (p ++ x) = true := by
  rw [List.isPrefixOf_iff_prefix]; exact List.prefix_append p x

theorem isPrefixOf_append_ne {p q : Bytes} (hl : p.length = q.length) (hne : p ≠ q) (x : Bytes) : p.isPrefixOf (q ++ x) = false := by
  rw [← Bool.not_eq_true, List.isPrefixOf_iff_prefix]
  rintro ⟨s, hs⟩
  exact hne (List.append_inj hs hl).1

theorem not_lexLt_append (p x : Bytes) : lexLt (p ++ x) p = false := by
  rw [Etl.lexLt_false_iff]
  induction p with
  | nil => simp
  | cons a p ih => simp only [List.cons_append, List.cons_le_cons_iff, ih]; simp

/-- Lookup among at most one value, which belongs to the slot `loc`. -/
theorem suffix_one {loc p : Bytes} (hl : loc.length = p.length) (x : Bytes) :
    (match [loc ++ x].find? fun y => !lexLt y p with
      | none => none
      | some y => if p.isPrefixOf y then some (y.drop p.length) else none) = if p = loc then some x else none := by
  by_cases h : p = loc
  · subst h
    rw [if_pos rfl, List.find?_cons]
    simp only [not_lexLt_append, Bool.not_false, isPrefixOf_append_self, if_true]
    simp
  · rw [if_neg h, List.find?_cons]
    by_cases h2 : lexLt (loc ++ x) p = true
    · simp [h2]
    · simp [h2, isPrefixOf_append_ne hl.symm h]

end Silkworm.Db.Buffer
