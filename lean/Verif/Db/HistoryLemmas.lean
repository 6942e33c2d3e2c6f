import Verif.Db.StateLemmas
import Verif.Spec.History

/-!
# Lemmas on historical reads
-/

namespace Silkworm.Db

open Silkworm.Spec State

/-- What lies between a string and one of its extensions is an extension. -/
theorem prefix_of_between {p : Bytes} : ∀ {x v : Bytes}, lexLt v p = false → lexLt (p ++ x) v = false → p <+: v := by
  induction p with
  | nil => intros; exact List.nil_prefix
  | cons a p ih =>
    intro x v h1 h2
    cases v with
    | nil => simp [lexLt] at h1
    | cons b v =>
      rw [List.cons_append] at h2
      unfold lexLt at h1 h2
      by_cases hab : a < b
      · simp [hab] at h2
      · by_cases hba : b < a
        · simp [hba] at h1
        · have he : a = b := UInt8.le_antisymm (UInt8.not_lt.mp hba) (UInt8.not_lt.mp hab)
          subst he
          simp only [hab, if_false] at h1 h2
          exact List.cons_prefix_cons.mpr ⟨rfl, ih h1 h2⟩

/-- In an ordered list the lookup of a prefix finds the only value with it. -/
theorem suffix_ordered {l : List Bytes} (hl : l.Pairwise (· < ·)) {p x : Bytes} (hx : ∀ y, p ++ y ∈ l ↔ y = x) :
    (match l.find? fun y => !lexLt y p with
      | none => none
      | some y => if p.isPrefixOf y then some (y.drop p.length) else none) = some x := by
  have hmem : p ++ x ∈ l := (hx x).mpr rfl
  cases hf : l.find? fun y => !lexLt y p with
  | none =>
    rw [List.find?_eq_none] at hf
    have := hf _ hmem
    rw [Buffer.not_lexLt_append] at this
    simp at this
  | some y =>
    have hy : lexLt y p = false := by simpa using List.find?_some hf
    have hym := List.mem_of_find?_eq_some hf
    have hle : lexLt (p ++ x) y = false := by
      rw [List.find?_eq_some_iff_append] at hf
      obtain ⟨_, as, bs, rfl, has⟩ := hf
      rcases List.mem_append.mp hmem with h | h
      · have := has _ h
        rw [Buffer.not_lexLt_append] at this
        simp at this
      · rw [Etl.lexLt_false_iff]
        rcases List.mem_cons.mp h with h | h
        · rw [h]; exact List.le_refl _
        · rw [List.pairwise_append, List.pairwise_cons] at hl
          exact List.le_of_lt (hl.2.1.1 _ h)
    obtain ⟨s, rfl⟩ := prefix_of_between hy hle
    have hs := (hx s).mp hym
    subst hs
    simp

/-- If no value has the prefix nothing is found. -/
theorem suffix_none {l : List Bytes} {p : Bytes} (hx : ∀ y, p ++ y ∉ l) :
    (match l.find? fun y => !lexLt y p with
      | none => none
      | some y => if p.isPrefixOf y then some (y.drop p.length) else none) = none := by
  cases hf : l.find? fun y => !lexLt y p with
  | none => rfl
  | some y =>
    simp only
    rw [if_neg]
    intro h
    obtain ⟨s, rfl⟩ := List.isPrefixOf_iff_prefix.mp h
    exact hx s (List.mem_of_find?_eq_some hf)

theorem findValueSuffix_unique {t : Table} (ht : MultiOrdered t) {k p x : Bytes} (hx : ∀ y, p ++ y ∈ stored t k ↔ y = x) :
    findValueSuffix t k p = some x := by
  rw [Buffer.findValueSuffix_stored]
  exact suffix_ordered (ordered_stored ht k) hx

theorem findValueSuffix_none {t : Table} {k p : Bytes} (hx : ∀ y, p ++ y ∉ stored t k) : findValueSuffix t k p = none := by
  rw [Buffer.findValueSuffix_stored]
  exact suffix_none hx

/-- The slot is read from the plain state. -/
theorem readStorage_current {r : Bytes → Option (List Nat)} {db : Database} {a : Bytes} {i : Nat} {loc v : Bytes}
    (ho : MultiOrdered db.plainState) (hv : v.length = 32)
    (h : ∀ x, loc ++ x ∈ stored db.plainState (storagePrefix a i) ↔ v ≠ zero32 ∧ x = zerolessView v) :
    storageValue (findValueSuffix db.plainState (storagePrefix a i) loc) = .ok v := by
  by_cases hz : v = zero32
  · rw [findValueSuffix_none (fun y hy => ((h y).mp hy).1 hz), hz]; rfl
  · rw [findValueSuffix_unique ho (x := zerolessView v) (fun y => by rw [h y]; exact ⟨fun h => h.2, fun h => ⟨hz, h⟩⟩)]
    exact Buffer.padded_zeroless hv

theorem bitmapSeek_last {bm : List Nat} {n : Nat} (hm : n ∈ bm) (hle : ∀ b ∈ bm, b ≤ n) : bitmapSeek bm n = some n := by
  unfold bitmapSeek
  cases hf : bm.find? fun x => n ≤ x with
  | none =>
    rw [List.find?_eq_none] at hf
    simpa using hf n hm
  | some y =>
    have h1 : n ≤ y := by simpa using List.find?_some hf
    have h2 := hle y (List.mem_of_find?_eq_some hf)
    congr 1; omega

/-- Codes are stored under hashes, so that no history is found among them. -/
theorem historicalAccount_none {r : Bytes → Option (List Nat)} {db : Database} (hc : ∀ e ∈ db.code, e.1.length = 32)
    {a : Bytes} (ha : a.length = 20) (n : Nat) : historicalAccount r db a n = .ok none := by
  unfold historicalAccount
  have : db.code.find (accountHistoryKey a n) = none := by
    rw [find_stored]
    cases h : stored db.code (accountHistoryKey a n) with
    | nil => rfl
    | cons v l =>
      have hm : v ∈ stored db.code (accountHistoryKey a n) := by rw [h]; simp
      have := hc _ (mem_stored.mp hm)
      simp [accountHistoryKey, ha] at this
  rw [this]

end Silkworm.Db
