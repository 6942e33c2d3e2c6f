import Verif.Db.StateBuffer
import Verif.Etl.Lemmas
import Verif.Spec.Db

/-!
# Lemmas about multi-value tables
-/

namespace Silkworm.Db

open Silkworm.Spec
open Silkworm.Etl (lexLt_iff lexLt_false_iff)

theorem stored_nil (k : Bytes) : stored [] k = [] := rfl

theorem stored_cons (e : Bytes × Bytes) (t : Table) (k : Bytes) :
    stored (e :: t) k = if e.1 = k then e.2 :: stored t k else stored t k := by
  unfold stored
  by_cases h : e.1 = k <;> simp [h]

theorem mem_stored {t : Table} {k v : Bytes} : v ∈ stored t k ↔ (k, v) ∈ t := by
  unfold stored
  simp only [List.mem_map, List.mem_filter, decide_eq_true_eq]
  constructor
  · rintro ⟨⟨a, b⟩, ⟨h1, rfl⟩, rfl⟩; exact h1
  · intro h; exact ⟨_, ⟨h, rfl⟩, rfl⟩

theorem find_stored (t : Table) (k : Bytes) : t.find k = (stored t k).head?.map fun v => (k, v) := by
  induction t with
  | nil => rfl
  | cons e t ih =>
    rw [stored_cons]
    unfold Table.find at ih ⊢
    rw [List.find?_cons]
    by_cases h : e.1 = k
    · obtain ⟨a, b⟩ := e
      simp only at h
      simp [h]
    · have hb : (e.1 == k) = false := by simp [h]
      simp only [hb, if_neg h]
      exact ih

theorem lowerBoundMultivalue_stored (t : Table) (k v : Bytes) :
    t.lowerBoundMultivalue k v = ((stored t k).find? fun x => !lexLt x v).map fun x => (k, x) := by
  induction t with
  | nil => rfl
  | cons e t ih =>
    rw [stored_cons]
    unfold Table.lowerBoundMultivalue at ih ⊢
    rw [List.find?_cons]
    by_cases h : e.1 = k
    · obtain ⟨a, b⟩ := e
      simp only at h
      subst h
      simp only [BEq.rfl, Bool.true_and, if_true, List.find?_cons]
      by_cases h2 : lexLt b v = true
      · simp only [h2, Bool.not_true]; exact ih
      · simp [h2]
    · have hb : (e.1 == k) = false := by simp [h]
      simp only [hb, Bool.false_and, if_neg h]
      exact ih

theorem ordered_stored {t : Table} (ht : MultiOrdered t) (k : Bytes) : (stored t k).Pairwise (· < ·) := by
  unfold stored
  rw [List.pairwise_map]
  refine (ht.filter _).imp_of_mem ?_
  intro e f he hf h
  have h1 : e.1 = k := by simpa using (List.mem_filter.mp he).2
  have h2 : f.1 = k := by simpa using (List.mem_filter.mp hf).2
  rcases h with h | h
  · rw [h1, h2] at h; exact absurd h (List.lt_irrefl _)
  · exact h.2

/-! ## Insertion -/

theorem mem_insertKey {k x : Bytes} {l : List Bytes} : x ∈ insertKey k l ↔ x = k ∨ x ∈ l := by
  induction l with
  | nil => simp [insertKey]
  | cons j l ih =>
    unfold insertKey
    split
    · simp
    · split
      · rename_i _ h; subst h; simp
      · simp only [List.mem_cons, ih]; tauto

theorem ordered_insertKey {k : Bytes} {l : List Bytes} (h : l.Pairwise (· < ·)) : (insertKey k l).Pairwise (· < ·) := by
  induction l with
  | nil => simp [insertKey]
  | cons j l ih =>
    obtain ⟨h1, h2⟩ := List.pairwise_cons.mp h
    unfold insertKey
    split
    · rename_i hk
      refine List.pairwise_cons.mpr ⟨?_, h⟩
      intro x hx
      rcases List.mem_cons.mp hx with rfl | hx
      · exact (lexLt_iff _ _).mp hk
      · exact List.lt_trans ((lexLt_iff _ _).mp hk) (h1 x hx)
    · rename_i hk
      split
      · exact h
      · rename_i hne
        refine List.pairwise_cons.mpr ⟨?_, ih h2⟩
        intro x hx
        rcases mem_insertKey.mp hx with rfl | hx
        · rcases List.le_iff_lt_or_eq.mp ((lexLt_false_iff _ _).mp (Bool.not_eq_true _ ▸ hk)) with h | h
          · exact h
          · exact absurd h.symm hne
        · exact h1 x hx

theorem mem_sortKeys {l : List Bytes} {x : Bytes} : x ∈ sortKeys l ↔ x ∈ l := by
  induction l with
  | nil => simp [sortKeys]
  | cons a l ih =>
    show x ∈ insertKey a (sortKeys l) ↔ _
    rw [mem_insertKey, ih, List.mem_cons]

theorem ordered_sortKeys (l : List Bytes) : (sortKeys l).Pairwise (· < ·) := by
  induction l with
  | nil => exact List.Pairwise.nil
  | cons a l ih => exact ordered_insertKey ih

theorem nodup_sortKeys (l : List Bytes) : (sortKeys l).Nodup := by
  refine (ordered_sortKeys l).imp ?_
  intro a b h he
  rw [he] at h
  exact List.lt_irrefl _ h

theorem upsertMultivalue_cons (e : Bytes × Bytes) (t : Table) (k v : Bytes) :
    Table.upsertMultivalue (e :: t) k v =
      if e.1 = k ∧ e.2 = v then e :: t
      else if lexLt k e.1 || (k == e.1 && lexLt v e.2) then (k, v) :: e :: t
      else e :: Table.upsertMultivalue t k v := rfl

theorem mem_upsertMultivalue {t : Table} {k v : Bytes} {e : Bytes × Bytes} :
    e ∈ t.upsertMultivalue k v ↔ e = (k, v) ∨ e ∈ t := by
  induction t with
  | nil => simp [Table.upsertMultivalue]
  | cons f t ih =>
    rw [upsertMultivalue_cons]
    split
    · rename_i h
      have : f = (k, v) := Prod.ext h.1 h.2
      rw [this]; simp
    · split
      · simp
      · simp only [List.mem_cons, ih]; tauto

theorem ordered_upsertMultivalue {t : Table} (ht : MultiOrdered t) (k v : Bytes) : MultiOrdered (t.upsertMultivalue k v) := by
  induction t with
  | nil => simp [Table.upsertMultivalue, MultiOrdered]
  | cons f t ih =>
    obtain ⟨h1, h2⟩ := List.pairwise_cons.mp ht
    rw [upsertMultivalue_cons]
    split
    · exact ht
    · rename_i hne
      split
      · rename_i hlt
        have hkf : k < f.1 ∨ (k = f.1 ∧ v < f.2) := by
          simpa [lexLt_iff] using hlt
        refine List.pairwise_cons.mpr ⟨?_, ht⟩
        intro x hx
        rcases List.mem_cons.mp hx with rfl | hx
        · exact hkf
        · rcases hkf with h | ⟨h, h'⟩ <;> rcases h1 x hx with g | ⟨g, g'⟩
          · exact Or.inl (List.lt_trans h g)
          · exact Or.inl (by simpa [g] using h)
          · exact Or.inl (by simpa [h] using g)
          · exact Or.inr ⟨h.trans g, List.lt_trans h' g'⟩
      · rename_i hlt
        refine List.pairwise_cons.mpr ⟨?_, ih h2⟩
        intro x hx
        rcases mem_upsertMultivalue.mp hx with rfl | hx
        · simp only [Bool.or_eq_true, Bool.and_eq_true, lexLt_iff, beq_iff_eq, not_or, not_and] at hlt
          rcases List.le_iff_lt_or_eq.mp (List.not_lt.mp hlt.1) with g | g
          · exact Or.inl g
          · rcases List.le_iff_lt_or_eq.mp (List.not_lt.mp (hlt.2 g.symm)) with g' | g'
            · exact Or.inr ⟨g, g'⟩
            · exact absurd ⟨g, g'⟩ hne
        · exact h1 x hx

theorem stored_upsertMultivalue_ne (t : Table) {k j : Bytes} (h : j ≠ k) (v : Bytes) :
    stored (t.upsertMultivalue k v) j = stored t j := by
  induction t with
  | nil => simp [Table.upsertMultivalue, stored_cons, stored_nil, Ne.symm h]
  | cons f t ih =>
    rw [upsertMultivalue_cons]
    split
    · rfl
    · split
      · rw [stored_cons, if_neg (Ne.symm h)]
      · rw [stored_cons, stored_cons, ih]

theorem stored_upsertMultivalue_same {t : Table} (ht : MultiOrdered t) (k v : Bytes) :
    stored (t.upsertMultivalue k v) k = insertKey v (stored t k) := by
  induction t with
  | nil => simp [Table.upsertMultivalue, stored_cons, stored_nil, insertKey]
  | cons f t ih =>
    obtain ⟨h1, h2⟩ := List.pairwise_cons.mp ht
    rw [upsertMultivalue_cons]
    by_cases hf : f.1 = k
    · by_cases hv : f.2 = v
      · rw [if_pos ⟨hf, hv⟩, stored_cons, if_pos hf, insertKey]
        rw [if_neg (by rw [hv, lexLt_iff]; exact List.lt_irrefl _), if_pos hv.symm]
      · rw [if_neg (fun h => hv h.2)]
        by_cases hl : lexLt v f.2 = true
        · rw [if_pos (by simp [hf, hl]), stored_cons, if_pos rfl, stored_cons, if_pos hf, insertKey, if_pos hl]
        · have hlk : lexLt k f.1 = false := by
            rw [hf, lexLt_false_iff]; exact List.le_refl _
          rw [if_neg (by simp [hlk, hl]), stored_cons, if_pos hf, stored_cons, if_pos hf, ih h2, insertKey, if_neg hl,
            if_neg (Ne.symm hv)]
    · rw [if_neg (fun h => hf h.1)]
      by_cases hl : lexLt k f.1 = true
      · have hnone : stored t k = [] := by
          rw [List.eq_nil_iff_forall_not_mem]
          intro x hx
          have hlt := h1 _ (mem_stored.mp hx)
          simp only at hlt
          have := (lexLt_iff _ _).mp hl
          rcases hlt with g | g
          · exact List.lt_irrefl _ (List.lt_trans this g)
          · exact hf g.1
        rw [if_pos (by simp [hl]), stored_cons, if_pos rfl, stored_cons, if_neg hf, hnone]; rfl
      · have : (k == f.1) = false := by simpa using Ne.symm hf
        rw [if_neg (by simp [hl, this]), stored_cons, if_neg hf, stored_cons, if_neg hf, ih h2]

/-! ## Erasing -/

theorem ordered_erase {t : Table} (ht : MultiOrdered t) (e : Bytes × Bytes) : MultiOrdered (t.erase e) :=
  ht.sublist List.erase_sublist

theorem stored_erase (t : Table) (k v j : Bytes) :
    stored (Table.erase t (k, v)) j = if j = k then (stored t k).erase v else stored t j := by
  unfold Table.erase
  induction t with
  | nil => simp [stored_nil]
  | cons f t ih =>
    rw [List.erase_cons]
    by_cases hf : f = (k, v)
    · subst hf
      simp only [BEq.rfl, if_true]
      by_cases hj : j = k
      · subst hj; simp [stored_cons]
      · rw [if_neg hj, stored_cons, if_neg (Ne.symm hj)]
    · have hb : (f == (k, v)) = false := by simpa using hf
      rw [hb]
      simp only [Bool.false_eq_true, if_false]
      rw [stored_cons, ih, stored_cons, stored_cons]
      by_cases hj : j = k
      · subst hj
        by_cases hfk : f.1 = j
        · have hfv : (f.2 == v) = false := by
            rw [beq_eq_false_iff_ne]
            intro h; exact hf (Prod.ext hfk h)
          simp [hfk, List.erase_cons, hfv]
        · simp [hfk]
      · simp [hj]

/-- Erasing what `find` returns removes the first value of the key. -/
theorem stored_erase_found (t : Table) (k j : Bytes) :
    stored (Buffer.eraseFound t (t.find k)) j = if j = k then (stored t k).tail else stored t j := by
  unfold Buffer.eraseFound
  rw [find_stored]
  cases h : stored t k with
  | nil =>
    simp only [List.head?_nil, Option.map_none, List.tail_nil]
    split
    · rename_i hj; rw [hj, h]
    · rfl
  | cons v vs =>
    simp only [List.head?_cons, Option.map_some, List.tail_cons]
    rw [stored_erase, h]
    simp

theorem ordered_erase_found {t : Table} (ht : MultiOrdered t) (k : Bytes) :
    MultiOrdered (Buffer.eraseFound t (t.find k)) := by
  unfold Buffer.eraseFound
  split
  · exact ordered_erase ht _
  · exact ht

/-! ## Tables with one value per key -/

theorem upsertAll_find (t : Table) (m : AMap Bytes Bytes) (hm : AMap.WF m) (k : Bytes) :
    (Buffer.upsertAll t m).find k = match m.get? k with | some v => some (k, v) | none => t.find k := by
  unfold Buffer.upsertAll
  induction m generalizing t with
  | nil => rfl
  | cons e m ih =>
    have hn : e.1 ∉ AMap.keys m ∧ AMap.WF m := by
      unfold AMap.WF AMap.keys at hm
      rw [List.map_cons, List.nodup_cons] at hm
      exact hm
    rw [List.foldl_cons, ih _ hn.2, AMap.get?_cons]
    by_cases he : e.1 = k
    · subst he
      rw [if_pos rfl, AMap.get?_eq_none_iff.mpr hn.1]
      exact Table.find_upsert_same ..
    · rw [if_neg he]
      cases AMap.get? m k with
      | some v => rfl
      | none => exact Table.find_upsert_other _ _ (Ne.symm he)

end Silkworm.Db
