import Verif.Trie.RootLemmas
import Verif.Db.UtilLemmas
import Verif.Spec.RlpLemmas

/-!
# Lemmas about the order of RLP-encoded indices
-/

namespace Silkworm.Trie

open Silkworm.Rlp
open Silkworm.Spec (Item rlp num KeyLt Increasing PrefixFree trieRoot fits_num num_inj rlp_prefix_free)

theorem adjust_lt {j n : Nat} (h : j < n) : adjustIndexForRlp j n < n := by
  unfold adjustIndexForRlp
  split
  · exact h
  · split <;> omega

theorem adjust_inj {j k n : Nat} (hj : j < n) (hk : k < n) (h : adjustIndexForRlp j n = adjustIndexForRlp k n) : j = k := by
  unfold adjustIndexForRlp at h
  split at h <;> split at h <;> (try split at h) <;> (try split at h) <;> omega

theorem adjust_surj {a n : Nat} (h : a < n) : ∃ j, j < n ∧ adjustIndexForRlp j n = a := by
  by_cases h1 : 0x7f < a
  · exact ⟨a, h, by unfold adjustIndexForRlp; rw [if_pos h1]⟩
  · by_cases h2 : a = 0
    · by_cases h3 : 0x7f < n
      · exact ⟨0x7f, h3, by unfold adjustIndexForRlp; rw [if_neg (by omega), if_pos (by omega)]; omega⟩
      · exact ⟨n - 1, by omega, by unfold adjustIndexForRlp; rw [if_neg (by omega), if_pos (by omega)]; omega⟩
    · exact ⟨a - 1, by omega, by unfold adjustIndexForRlp; rw [if_neg (by omega), if_neg (by omega)]; omega⟩

theorem adjust_perm (n : Nat) : ((List.range n).map (fun j => adjustIndexForRlp j n)).Perm (List.range n) := by
  rw [List.perm_ext_iff_of_nodup _ List.nodup_range]
  · intro a
    simp only [List.mem_map, List.mem_range]
    constructor
    · rintro ⟨j, hj, rfl⟩; exact adjust_lt hj
    · intro h; exact adjust_surj h
  · unfold List.Nodup
    rw [List.pairwise_map]
    refine (List.nodup_range (n := n)).imp_of_mem ?_
    intro a b ha hb hab h
    exact hab (adjust_inj (List.mem_range.mp ha) (List.mem_range.mp hb) h)

/-- Encodings of positive numbers are ordered like the numbers. -/
theorem encodeUint_lt {m n : Nat} (hm : 0 < m) (hmn : m < n) (hn : n < 2 ^ 64) :
    Db.lexLt (encodeUint 8 m) (encodeUint 8 n) = true := by
  have h8 : (256 : Nat) ^ 8 = 2 ^ 64 := by norm_num
  unfold encodeUint
  rw [if_neg (show ¬ m = 0 by omega), if_neg (show ¬ n = 0 by omega)]
  by_cases h1 : m < 0x80
  · rw [if_pos h1]
    by_cases h2 : n < 0x80
    · rw [if_pos h2]
      have : UInt8.ofNat m < UInt8.ofNat n := by
        rw [UInt8.lt_iff_toNat_lt, uint8_ofNat_toNat _ (by omega), uint8_ofNat_toNat _ (by omega)]; exact hmn
      simp [Db.lexLt, this]
    · rw [if_neg h2]
      have hb : (bigEndian 8 n).length = byteLen n := by rw [bigEndian_eq (by omega)]; simp
      have hl : byteLen n ≤ 8 := byteLen_le (by omega)
      have : UInt8.ofNat m < UInt8.ofNat (0x80 + (bigEndian 8 n).length) := by
        rw [UInt8.lt_iff_toNat_lt, uint8_ofNat_toNat _ (by omega), uint8_ofNat_toNat _ (by omega)]; omega
      simp only [Db.lexLt, this, if_true]
  · rw [if_neg h1, if_neg (show ¬ n < 0x80 by omega)]
    have hbm : (bigEndian 8 m).length = byteLen m := by rw [bigEndian_eq (by omega)]; simp
    have hbn : (bigEndian 8 n).length = byteLen n := by rw [bigEndian_eq (by omega)]; simp
    have hlm : byteLen m ≤ 8 := byteLen_le (by omega)
    have hln : byteLen n ≤ 8 := byteLen_le (by omega)
    have hle : byteLen m ≤ byteLen n := byteLen_le (Nat.lt_of_lt_of_le hmn (Nat.le_of_lt (lt_pow_byteLen n)))
    simp only [Db.lexLt, hbm, hbn]
    by_cases he : byteLen m = byteLen n
    · rw [he]
      have hirr : ¬ UInt8.ofNat (0x80 + byteLen n) < UInt8.ofNat (0x80 + byteLen n) := by
        rw [UInt8.lt_iff_toNat_lt]; omega
      rw [if_neg hirr, if_neg hirr, bigEndian_eq (by omega), bigEndian_eq (by omega), he]
      exact (Db.lexLt_beFixed (he ▸ lt_pow_byteLen m) (lt_pow_byteLen n)).mpr hmn
    · have : UInt8.ofNat (0x80 + byteLen m) < UInt8.ofNat (0x80 + byteLen n) := by
        rw [UInt8.lt_iff_toNat_lt, uint8_ofNat_toNat _ (by omega), uint8_ofNat_toNat _ (by omega)]; omega
      rw [if_pos this]

theorem encodeUint_zero_lt {n : Nat} (h1 : 0x80 ≤ n) (hn : n < 2 ^ 64) :
    Db.lexLt (encodeUint 8 0) (encodeUint 8 n) = true := by
  have h8 : (256 : Nat) ^ 8 = 2 ^ 64 := by norm_num
  have hb : (bigEndian 8 n).length = byteLen n := by rw [bigEndian_eq (by omega)]; simp
  have hl : byteLen n ≤ 8 := byteLen_le (by omega)
  have h0 : byteLen n ≠ 0 := fun h => by rw [byteLen_eq_zero] at h; omega
  unfold encodeUint
  rw [if_pos rfl, if_neg (by omega), if_neg (by omega)]
  have : (0x80 : UInt8) < UInt8.ofNat (0x80 + (bigEndian 8 n).length) := by
    rw [UInt8.lt_iff_toNat_lt, uint8_ofNat_toNat _ (by omega)]
    show 128 < _
    omega
  simp only [Db.lexLt, this, if_true]

theorem encodeUint_lt_zero {m : Nat} (h0 : 0 < m) (h1 : m < 0x80) : Db.lexLt (encodeUint 8 m) (encodeUint 8 0) = true := by
  unfold encodeUint
  rw [if_neg (by omega), if_pos h1, if_pos rfl]
  have : UInt8.ofNat m < 0x80 := by
    rw [UInt8.lt_iff_toNat_lt, uint8_ofNat_toNat _ (by omega)]; exact h1
  simp only [Db.lexLt, this, if_true]

theorem adjust_order {j k n : Nat} (hjk : j < k) (hk : k < n) (hn : n ≤ 2 ^ 64) :
    Db.lexLt (encodeUint 8 (adjustIndexForRlp j n)) (encodeUint 8 (adjustIndexForRlp k n)) = true := by
  by_cases hk1 : 0x7f < k
  · have ek : adjustIndexForRlp k n = k := by unfold adjustIndexForRlp; rw [if_pos hk1]
    rw [ek]
    by_cases hj1 : 0x7f < j
    · have ej : adjustIndexForRlp j n = j := by unfold adjustIndexForRlp; rw [if_pos hj1]
      rw [ej]
      exact encodeUint_lt (by omega) hjk (by omega)
    · by_cases hj2 : j = 0x7f
      · have ej : adjustIndexForRlp j n = 0 := by
          unfold adjustIndexForRlp; rw [if_neg hj1, if_pos (Or.inl hj2)]
        rw [ej]
        exact encodeUint_zero_lt (by omega) (by omega)
      · have ej : adjustIndexForRlp j n = j + 1 := by
          unfold adjustIndexForRlp; rw [if_neg hj1, if_neg (by omega)]
        rw [ej]
        exact encodeUint_lt (by omega) (by omega) (by omega)
  · have ej : adjustIndexForRlp j n = j + 1 := by
      unfold adjustIndexForRlp; rw [if_neg (by omega), if_neg (by omega)]
    rw [ej]
    by_cases hk2 : k = 0x7f ∨ k + 1 = n
    · have ek : adjustIndexForRlp k n = 0 := by unfold adjustIndexForRlp; rw [if_neg hk1, if_pos hk2]
      rw [ek]
      exact encodeUint_lt_zero (by omega) (by omega)
    · have ek : adjustIndexForRlp k n = k + 1 := by unfold adjustIndexForRlp; rw [if_neg hk1, if_neg hk2]
      rw [ek]
      exact encodeUint_lt (by omega) (by omega) (by omega)

theorem encodeUint_prefixFree {m n : Nat} (hm : m < 2 ^ 64) (hn : n < 2 ^ 64) (h : encodeUint 8 m <+: encodeUint 8 n) :
    m = n := by
  have h8 : (256 : Nat) ^ 8 = 2 ^ 64 := by norm_num
  have h32 : (2 : Nat) ^ 64 < 256 ^ 32 := by norm_num
  obtain ⟨t, ht⟩ := h
  rw [encodeUint_spec (by omega) (by omega), encodeUint_spec (by omega) (by omega)] at ht
  have := rlp_prefix_free (num m) (num n) t [] (fits_num (by omega)) (fits_num (by omega)) (by rw [ht]; simp)
  exact num_inj this.1

/-- The entry of one index. -/
def indexEntry {α : Type} (encode : α → Bytes) (v : List α) (i : Nat) : Bytes × Bytes :=
  (encodeUint 8 i, (v[i]?.map encode).getD [])

theorem entries_foldr {α : Type} (encode : α → Bytes) (v : List α) (f : Nat → Nat) :
    ∀ l : List Nat, (∀ j ∈ l, f j < v.length) →
    l.foldr (fun j acc => (at? v (f j)).bind fun x => acc.bind fun es => .ok ((encodeUint 8 (f j), encode x) :: es)) (.ok []) =
      (.ok (l.map (fun j => indexEntry encode v (f j))) : Outcome Empty (List (Bytes × Bytes)))
  | [], _ => rfl
  | j :: l, h => by
    rw [List.foldr_cons, entries_foldr encode v f l (fun k hk => h k (List.mem_cons_of_mem _ hk))]
    have hj := h j (List.mem_cons_self ..)
    have : at? v (f j) = (.ok v[f j] : Outcome Empty α) := by
      unfold at?
      rw [List.getElem?_eq_getElem hj]
    rw [this]
    show Outcome.ok _ = _
    congr 1
    rw [List.map_cons]
    congr 1
    unfold indexEntry
    rw [List.getElem?_eq_getElem hj]
    rfl

theorem vectorEntries_eq {α : Type} (encode : α → Bytes) (v : List α) :
    vectorEntries encode v = .ok ((List.range v.length).map (fun j => indexEntry encode v (adjustIndexForRlp j v.length))) :=
  entries_foldr encode v (fun j => adjustIndexForRlp j v.length) _ (fun j hj => adjust_lt (List.mem_range.mp hj))

theorem pairwise_range {n : Nat} {R : Nat → Nat → Prop} (h : ∀ i j, i < j → j < n → R i j) : (List.range n).Pairwise R :=
  (List.pairwise_lt_range (n := n)).imp_of_mem (fun _ hb hab => h _ _ hab (List.mem_range.mp hb))

theorem entries_increasing {α : Type} (encode : α → Bytes) (v : List α) (hn : v.length ≤ 2 ^ 64) :
    Increasing ((List.range v.length).map (fun j => indexEntry encode v (adjustIndexForRlp j v.length))) := by
  unfold Increasing
  rw [List.pairwise_map]
  exact pairwise_range (fun i j hij hj => keyLt_iff.mpr (adjust_order hij hj hn))

theorem entries_prefixFree {α : Type} (encode : α → Bytes) (v : List α) (hn : v.length ≤ 2 ^ 64) :
    PrefixFree ((List.range v.length).map (fun j => indexEntry encode v (adjustIndexForRlp j v.length))) := by
  unfold PrefixFree
  rw [List.pairwise_map]
  refine pairwise_range ?_
  intro i j hij hj
  have hi := adjust_lt (Nat.lt_trans hij hj)
  have hj' := adjust_lt hj
  constructor
  · intro h
    have := adjust_inj (Nat.lt_trans hij hj) hj (encodeUint_prefixFree (by omega) (by omega) h)
    omega
  · intro h
    have := adjust_inj hj (Nat.lt_trans hij hj) (encodeUint_prefixFree (by omega) (by omega) h)
    omega

theorem entries_perm {α : Type} (encode : α → Bytes) (v : List α) :
    ((List.range v.length).map (fun j => indexEntry encode v (adjustIndexForRlp j v.length))).Perm
      ((List.range v.length).map (indexEntry encode v)) := by
  have := (adjust_perm v.length).map (indexEntry encode v)
  rw [List.map_map] at this
  exact this

theorem entries_zipIdx {α : Type} (encode : α → Bytes) (v : List α) (hn : v.length ≤ 2 ^ 64) :
    (List.range v.length).map (indexEntry encode v) = v.zipIdx.map (fun x => (rlp (num x.2), encode x.1)) := by
  have h8 : (256 : Nat) ^ 8 = 2 ^ 64 := by norm_num
  apply List.ext_getElem
  · simp
  · intro i h1 h2
    have hi : i < v.length := by simpa using h1
    simp [indexEntry, hi, encodeUint_spec (show 8 < 56 by omega) (show i < 256 ^ 8 by omega)]

end Silkworm.Trie
