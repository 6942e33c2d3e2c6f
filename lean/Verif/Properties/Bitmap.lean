import Verif.Db.BitmapLemmas

/-!
# C49: history bitmaps are cut into chunks
-/

namespace Silkworm.Properties

open Silkworm.Db.Bitmap

/-- What cutting should do: the chunks one after the other are the bitmap, and each fits. -/
def CutsWell (size : List Nat → Nat) (limit : Nat) (bm : List Nat) (result : Outcome Empty (List (List Nat))) : Prop :=
  ∃ cs, result = .ok cs ∧ cs.flatten = bm ∧ ∀ c ∈ cs, size c ≤ limit

/-- C49 for account and storage histories: a bitmap that fits becomes one chunk. Of a larger one everything but the largest
element becomes one chunk, whatever its size; a single element that does not fit leads to a null pointer. -/
theorem c49_cut64_partial (size : List Nat → Nat) (limit : Nat) (bm : List Nat) (hb : bm ≠ []) (hs : bm.Pairwise (· < ·))
    (hm : ∀ x ∈ bm, x < 2 ^ 32) (fuel : Nat) (hf : 0 < fuel) :
    (size bm ≤ limit → CutsWell size limit bm (chunks (cutLeft64 size · limit) fuel bm)) ∧
    (limit < size bm → 2 ≤ bm.length → chunks (cutLeft64 size · limit) fuel bm = .ok [bm.dropLast]) ∧
    (limit < size bm → bm.length = 1 → chunks (cutLeft64 size · limit) fuel bm = .ub) := by
  obtain ⟨l, m, rfl⟩ := exists_last hb
  have hm := hm m (by simp)
  have hmin := minimum_le hs (w := 2 ^ 64) (x := m) (by simp)
  have hcut : cutLeft64 size (l ++ [m]) limit =
      if size (l ++ [m]) ≤ limit then .ok (l ++ [m], []) else if l = [] then .ub else .ok (l, []) := by
    unfold cutLeft64
    simp only [maximum_concat, cutPoint_zero]
    split
    · rw [Nat.mod_eq_of_lt (by omega), fromRange_all hs hm]
    · rw [Nat.add_sub_cancel' hmin, fromRange_butLast hs hm]
      by_cases hl : l = []
      · rw [if_pos hl, if_pos hl]
      · rw [if_neg hl, if_neg hl]
        simp only
        rw [if_neg (by omega), rest_empty hs]
  refine ⟨fun h => ⟨[l ++ [m]], chunks_one hb fuel hf _ (by rw [hcut, if_pos h]), by simp, by simpa using h⟩,
    fun h h2 => ?_, fun h h1 => ?_⟩
  · have hl : l ≠ [] := by rintro rfl; simp at h2
    rw [List.dropLast_concat]
    exact chunks_one hb fuel hf _ (by rw [hcut, if_neg (by omega), if_neg hl])
  · have hl : l = [] := by
      rw [List.length_append] at h1
      exact List.length_eq_zero_iff.mp (by simpa using h1)
    exact chunks_ub hb fuel (by rw [hcut, if_neg (by omega), if_pos hl])

/-- C49 for the log index, likewise; the largest 32-bit number is excluded. -/
theorem c49_cut32_partial (size : List Nat → Nat) (limit : Nat) (bm : List Nat) (hb : bm ≠ []) (hs : bm.Pairwise (· < ·))
    (hm : ∀ x ∈ bm, x < 2 ^ 32 - 1) (fuel : Nat) (hf : 0 < fuel) :
    (size bm ≤ limit → CutsWell size limit bm (chunks (cutLeft32 size · limit) fuel bm)) ∧
    (limit < size bm → 2 ≤ bm.length → chunks (cutLeft32 size · limit) fuel bm = .ok [bm.dropLast]) ∧
    (limit < size bm → bm.length = 1 → chunks (cutLeft32 size · limit) fuel bm = .ub) := by
  obtain ⟨l, m, rfl⟩ := exists_last hb
  have hm := hm m (by simp)
  have hmin := minimum_le hs (w := 2 ^ 32) (x := m) (by simp)
  have hcut : cutLeft32 size (l ++ [m]) limit =
      if size (l ++ [m]) ≤ limit then .ok (l ++ [m], []) else if l = [] then .ub else .ok (l, []) := by
    unfold cutLeft32
    simp only [maximum_concat, cutPoint_zero]
    split
    · rw [Nat.mod_eq_of_lt (by omega), fromRange_all hs (by omega)]
    · rw [Nat.add_sub_cancel' hmin, fromRange_butLast hs (by omega)]
      by_cases hl : l = []
      · rw [if_pos hl, if_pos hl]
      · rw [if_neg hl, if_neg hl]
        simp only
        rw [Nat.mod_eq_of_lt (by omega), rest_empty hs]
  refine ⟨fun h => ⟨[l ++ [m]], chunks_one hb fuel hf _ (by rw [hcut, if_pos h]), by simp, by simpa using h⟩,
    fun h h2 => ?_, fun h h1 => ?_⟩
  · have hl : l ≠ [] := by rintro rfl; simp at h2
    rw [List.dropLast_concat]
    exact chunks_one hb fuel hf _ (by rw [hcut, if_neg (by omega), if_neg hl])
  · have hl : l = [] := by
      rw [List.length_append] at h1
      exact List.length_eq_zero_iff.mp (by simpa using h1)
    exact chunks_ub hb fuel (by rw [hcut, if_neg (by omega), if_pos hl])

/-- A size like that of a small array container. -/
def exSize (bm : List Nat) : Nat := 16 + 2 * bm.length

example : chunks (cutLeft64 exSize · 22) 9 [3, 8, 2 ^ 31] = .ok [[3, 8, 2 ^ 31]] ∧
    chunks (cutLeft32 exSize · 22) 9 [3, 8, 2 ^ 31] = .ok [[3, 8, 2 ^ 31]] := by decide +kernel
example : CutsWell exSize 22 [3, 8, 2 ^ 31] (chunks (cutLeft64 exSize · 22) 9 [3, 8, 2 ^ 31]) :=
  (c49_cut64_partial exSize 22 [3, 8, 2 ^ 31] (by decide) (by decide) (by decide) 9 (by decide)).1 (by decide)
example : chunks (cutLeft64 exSize · 22) 9 [3, 8, 9, 15, 70] = .ok [[3, 8, 9, 15]] ∧
    chunks (cutLeft32 exSize · 22) 9 [3, 8, 9, 15, 70] = .ok [[3, 8, 9, 15]] ∧
    chunks (cutLeft64 exSize · 17) 9 [70] = .ub := by decide +kernel

/-- C49 does not hold: of a bitmap that must be cut the largest number is lost, and the chunk is larger than allowed. -/
theorem c49_violated :
    (¬ ∀ limit bm, bm.Pairwise (· < ·) → (∀ x ∈ bm, x < 2 ^ 32 ∧ exSize [x] ≤ limit) →
      CutsWell exSize limit bm (chunks (cutLeft64 exSize · limit) bm.length bm)) ∧
    (¬ ∀ limit bm, bm.Pairwise (· < ·) → (∀ x ∈ bm, x < 2 ^ 32 ∧ exSize [x] ≤ limit) →
      CutsWell exSize limit bm (chunks (cutLeft32 exSize · limit) bm.length bm)) ∧
    exSize [3, 8, 9, 15] > 22 := by
  refine ⟨fun h => ?_, fun h => ?_, by decide⟩
  · obtain ⟨cs, h1, h2, _⟩ := h 22 [3, 8, 9, 15, 70] (by decide) (by decide)
    have h3 : chunks (cutLeft64 exSize · 22) 5 [3, 8, 9, 15, 70] = .ok [[3, 8, 9, 15]] := by decide +kernel
    have h1 := h3.symm.trans h1
    cases Outcome.ok.inj h1
    exact absurd h2 (by decide)
  · obtain ⟨cs, h1, h2, _⟩ := h 22 [3, 8, 9, 15, 70] (by decide) (by decide)
    have h3 : chunks (cutLeft32 exSize · 22) 5 [3, 8, 9, 15, 70] = .ok [[3, 8, 9, 15]] := by decide +kernel
    have h1 := h3.symm.trans h1
    cases Outcome.ok.inj h1
    exact absurd h2 (by decide)

/-- C49 does not hold: numbers from 2^32 on are lost or lead to a null pointer even if the bitmap fits. -/
theorem c49_large_violated :
    chunks (cutLeft64 exSize · 100) 2 [5, 2 ^ 32] = .ok [[5]] ∧ chunks (cutLeft64 exSize · 100) 2 [2 ^ 32, 2 ^ 32 + 1] = .ub ∧
    chunks (cutLeft32 exSize · 100) 2 [5, 2 ^ 32 - 1] = .ub := by decide +kernel

end Silkworm.Properties
