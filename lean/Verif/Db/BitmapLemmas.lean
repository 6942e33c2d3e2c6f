import Verif.Db.Bitmap
import Verif.Base.AMap

/-!
# Lemmas on bitmaps
-/

namespace Silkworm.Db.Bitmap

theorem cutPoint_zero (fits : Nat → Bool) (fuel i : Nat) : cutPoint fits fuel i 0 = i := by
  cases fuel with
  | zero => rfl
  | succ n => unfold cutPoint; simp

theorem maximum_concat (l : List Nat) (m : Nat) : maximum (l ++ [m]) = m := by simp [maximum]

theorem minimum_le {w : Nat} {bm : List Nat} (hs : bm.Pairwise (· < ·)) {x : Nat} (hx : x ∈ bm) : minimum w bm ≤ x := by
  cases bm with
  | nil => cases hx
  | cons y l =>
    rw [List.pairwise_cons] at hs
    rcases List.mem_cons.mp hx with rfl | h
    · exact Nat.le_refl _
    · exact Nat.le_of_lt (hs.1 x h)

theorem minimum_mem {w : Nat} {bm : List Nat} (h : bm ≠ []) : minimum w bm ∈ bm := by
  cases bm with
  | nil => exact absurd rfl h
  | cons x l => exact List.mem_cons_self ..

theorem le_last {l : List Nat} {m : Nat} (hs : (l ++ [m]).Pairwise (· < ·)) : ∀ x ∈ l, x < m := by
  rw [List.pairwise_append] at hs
  intro x hx
  exact hs.2.2 x hx m (by simp)

/-- One step on a bitmap `l ++ [m]`, for both widths. -/
theorem fromRange_all {w : Nat} {l : List Nat} {m : Nat} (hs : (l ++ [m]).Pairwise (· < ·)) (hm : m < 2 ^ 32) :
    fromRangeAnd (minimum w (l ++ [m])) (m + 1) (l ++ [m]) = some (l ++ [m]) := by
  unfold fromRangeAnd
  have h1 := minimum_le hs (w := w) (x := m) (by simp)
  have hmin : min (m + 1) (2 ^ 32) = m + 1 := by omega
  simp only [hmin]
  rw [if_neg (by omega)]
  congr 1
  rw [List.filter_eq_self]
  intro x hx
  have h2 := minimum_le hs (w := w) hx
  have h3 : x ≤ m := by
    rcases List.mem_append.mp hx with h | h
    · exact Nat.le_of_lt (le_last hs x h)
    · simp at h; omega
  simp; omega

theorem fromRange_butLast {w : Nat} {l : List Nat} {m : Nat} (hs : (l ++ [m]).Pairwise (· < ·)) (hm : m < 2 ^ 32) :
    fromRangeAnd (minimum w (l ++ [m])) m (l ++ [m]) = if l = [] then none else some l := by
  unfold fromRangeAnd
  have hmin : min m (2 ^ 32) = m := by omega
  simp only [hmin]
  by_cases hl : l = []
  · subst hl
    rw [if_pos (by simp [minimum]), if_pos rfl]
  · rw [if_neg hl, if_neg]
    · congr 1
      rw [List.filter_append]
      have h0 : List.filter (fun x => decide (minimum w (l ++ [m]) ≤ x ∧ x < m)) [m] = [] := by simp
      rw [h0, List.append_nil, List.filter_eq_self]
      intro x hx
      have h2 := minimum_le hs (w := w) (List.mem_append_left _ hx)
      have h3 := le_last hs x hx
      simp; omega
    · cases l with
      | nil => exact absurd rfl hl
      | cons y l =>
        have := le_last hs y (by simp)
        simp [minimum]; omega

theorem rest_empty {w : Nat} {l : List Nat} {m : Nat} (hs : (l ++ [m]).Pairwise (· < ·)) :
    (l ++ [m]).filter (fun x => decide ¬(minimum w (l ++ [m]) ≤ x ∧ x ≤ m)) = [] := by
  rw [List.filter_eq_nil_iff]
  intro x hx
  have h2 := minimum_le hs (w := w) hx
  have h3 : x ≤ m := by
    rcases List.mem_append.mp hx with h | h
    · exact Nat.le_of_lt (le_last hs x h)
    · simp at h; omega
  simp; omega

/-- The chunks cut from a bitmap whose last element is `m`. -/
theorem chunks_one {cut : List Nat → Outcome Empty (List Nat × List Nat)} {bm : List Nat} (hb : bm ≠ []) (fuel : Nat)
    (hf : 0 < fuel) (c : List Nat) (hc : cut bm = .ok (c, [])) : chunks cut fuel bm = .ok [c] := by
  cases fuel with
  | zero => omega
  | succ n =>
    unfold chunks
    rw [if_neg hb, hc]
    simp only [Outcome.ok_bind]
    unfold chunks
    simp

theorem chunks_ub {cut : List Nat → Outcome Empty (List Nat × List Nat)} {bm : List Nat} (hb : bm ≠ []) (fuel : Nat)
    (hc : cut bm = .ub) : chunks cut fuel bm = .ub := by
  unfold chunks
  rw [if_neg hb]
  cases fuel with
  | zero => rfl
  | succ n => simp only [hc]; rfl

theorem exists_last {bm : List Nat} (hb : bm ≠ []) : ∃ l m, bm = l ++ [m] :=
  ⟨bm.dropLast, bm.getLast hb, (List.dropLast_concat_getLast hb).symm⟩

end Silkworm.Db.Bitmap
