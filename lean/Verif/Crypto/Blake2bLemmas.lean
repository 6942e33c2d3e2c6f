import Verif.Crypto.Blake2b
import Verif.Spec.Blake2b
import Verif.Crypto.Ripemd160Lemmas

/-!
# Lemmas about BLAKE2b
-/

namespace Silkworm.Blake2b

open Spec (leNat leBytes)
open Spec.Blake2b (mix columns diagonals entry word)

theorem rotr_eq (v : Word) {c : Nat} (h : c < 64) : rotr64 v c = v.rotateRight c := by
  rw [BitVec.rotateRight_def, Nat.mod_eq_of_lt h]; rfl

/-- The message word. -/
def msg (m : List Word) (r n : Nat) : Word := at' m ((sigma.getD r []).getD n 0)

theorem g_eq (m : List Word) (r i a b c d : Nat) (v : List Word) (ha : a < v.length) (hb : b < v.length) (hc : c < v.length)
    (hd : d < v.length) (hab : a ≠ b) (hac : a ≠ c) (had : a ≠ d) (hbc : b ≠ c) (hbd : b ≠ d) (hcd : c ≠ d) :
    (g m r i a b c d v).length = v.length ∧ ∀ n, at' (g m r i a b c d v) n =
      let q := mix (at' v a) (at' v b) (at' v c) (at' v d) (msg m r (2 * i)) (msg m r (2 * i + 1))
      if n = b then at' q 1 else if n = c then at' q 2 else if n = d then at' q 3 else if n = a then at' q 0 else at' v n := by
  constructor
  · simp [g]
  · intro n
    simp only [g, at', mix, msg, Ripemd160.getD_set, List.length_set, ha, hb, hc, hd, if_true, hab, hac, had, hbc, hbd, hcd, hab.symm,
      hac.symm, had.symm, hbc.symm, hbd.symm, hcd.symm, if_false, List.getD_cons_zero, List.getD_cons_succ, Nat.add_zero,
      rotr_eq _ (show 32 < 64 by omega), rotr_eq _ (show 24 < 64 by omega), rotr_eq _ (show 16 < 64 by omega),
      rotr_eq _ (show 63 < 64 by omega)]
    by_cases h1 : n = b
    · subst h1; simp [hab.symm, hbc, hbd]
    · by_cases h2 : n = c
      · subst h2; simp [h1]
      · by_cases h3 : n = d
        · subst h3; simp [h1, h2]
        · by_cases h4 : n = a
          · subst h4; simp [h1, h2, h3]
          · simp [h1, h2, h3, h4]

theorem at'_def (l : List Word) (n : Nat) : at' l n = l.getD n 0 := rfl

theorem list_ext {A B : List Word} (ha : A.length = 16) (hb : B.length = 16) (h : ∀ n < 16, at' A n = at' B n) : A = B := by
  apply List.ext_getElem (by omega)
  intro i h1 h2
  have := h i (by omega)
  simpa [at', List.getD_eq_getElem?_getD, h1, h2] using this

theorem at'_map_range {f : Nat → Word} {k n : Nat} (h : n < k) : at' ((List.range k).map f) n = f n := by
  simp [at', List.getD_eq_getElem?_getD, h]

theorem columns_eq (m : List Word) (r : Nat) (v : List Word) (hv : v.length = 16) :
    (g m r 3 3 7 11 15 (g m r 2 2 6 10 14 (g m r 1 1 5 9 13 (g m r 0 0 4 8 12 v)))) = columns (msg m r) v := by
  obtain ⟨l0, e0⟩ := g_eq m r 0 0 4 8 12 v (by omega) (by omega) (by omega) (by omega) (by decide) (by decide) (by decide) (by decide) (by decide) (by decide)
  generalize g m r 0 0 4 8 12 v = v0 at *
  obtain ⟨l1, e1⟩ := g_eq m r 1 1 5 9 13 v0 (by omega) (by omega) (by omega) (by omega) (by decide) (by decide) (by decide) (by decide) (by decide) (by decide)
  generalize g m r 1 1 5 9 13 v0 = v1 at *
  obtain ⟨l2, e2⟩ := g_eq m r 2 2 6 10 14 v1 (by omega) (by omega) (by omega) (by omega) (by decide) (by decide) (by decide) (by decide) (by decide) (by decide)
  generalize g m r 2 2 6 10 14 v1 = v2 at *
  obtain ⟨l3, e3⟩ := g_eq m r 3 3 7 11 15 v2 (by omega) (by omega) (by omega) (by omega) (by decide) (by decide) (by decide) (by decide) (by decide) (by decide)
  generalize g m r 3 3 7 11 15 v2 = v3 at *
  apply list_ext (by omega) (by simp [columns])
  intro n hn
  have hc : at' (columns (msg m r) v) n = _ := at'_map_range hn
  rw [hc]
  simp only [entry, ← at'_def]
  have cases : n = 0 ∨ n = 1 ∨ n = 2 ∨ n = 3 ∨ n = 4 ∨ n = 5 ∨ n = 6 ∨ n = 7 ∨ n = 8 ∨ n = 9 ∨ n = 10 ∨ n = 11 ∨ n = 12 ∨ n = 13 ∨
      n = 14 ∨ n = 15 := by omega
  rcases cases with rfl | rfl | rfl | rfl | rfl | rfl | rfl | rfl | rfl | rfl | rfl | rfl | rfl | rfl | rfl | rfl <;>
    simp [e0, e1, e2, e3]

theorem diagonals_eq (m : List Word) (r : Nat) (v : List Word) (hv : v.length = 16) :
    (g m r 7 3 4 9 14 (g m r 6 2 7 8 13 (g m r 5 1 6 11 12 (g m r 4 0 5 10 15 v)))) = diagonals (msg m r) v := by
  obtain ⟨l0, e0⟩ := g_eq m r 4 0 5 10 15 v (by omega) (by omega) (by omega) (by omega) (by decide) (by decide) (by decide) (by decide) (by decide) (by decide)
  generalize g m r 4 0 5 10 15 v = v0 at *
  obtain ⟨l1, e1⟩ := g_eq m r 5 1 6 11 12 v0 (by omega) (by omega) (by omega) (by omega) (by decide) (by decide) (by decide) (by decide) (by decide) (by decide)
  generalize g m r 5 1 6 11 12 v0 = v1 at *
  obtain ⟨l2, e2⟩ := g_eq m r 6 2 7 8 13 v1 (by omega) (by omega) (by omega) (by omega) (by decide) (by decide) (by decide) (by decide) (by decide) (by decide)
  generalize g m r 6 2 7 8 13 v1 = v2 at *
  obtain ⟨l3, e3⟩ := g_eq m r 7 3 4 9 14 v2 (by omega) (by omega) (by omega) (by omega) (by decide) (by decide) (by decide) (by decide) (by decide) (by decide)
  generalize g m r 7 3 4 9 14 v2 = v3 at *
  apply list_ext (by omega) (by simp [diagonals])
  intro n hn
  have hc : at' (diagonals (msg m r) v) n = _ := at'_map_range hn
  rw [hc]
  simp only [entry, ← at'_def]
  have cases : n = 0 ∨ n = 1 ∨ n = 2 ∨ n = 3 ∨ n = 4 ∨ n = 5 ∨ n = 6 ∨ n = 7 ∨ n = 8 ∨ n = 9 ∨ n = 10 ∨ n = 11 ∨ n = 12 ∨ n = 13 ∨
      n = 14 ∨ n = 15 := by omega
  rcases cases with rfl | rfl | rfl | rfl | rfl | rfl | rfl | rfl | rfl | rfl | rfl | rfl | rfl | rfl | rfl | rfl <;>
    simp [e0, e1, e2, e3]

theorem round_eq (m : List Word) (r : Nat) (v : List Word) (hv : v.length = 16) :
    round m r v = diagonals (msg m r) (columns (msg m r) v) := by
  rw [round, columns_eq m r v hv, diagonals_eq m r _ (by simp [columns])]

theorem sigma_at (n i : Nat) : (sigma.getD (n % 10) []).getD i 0 = Spec.Blake2b.sigma n i := by
  have h : ∀ k < 10, sigma.getD k [] = ([[0, 1, 2, 3, 4, 5, 6, 7, 8, 9, 10, 11, 12, 13, 14, 15],
     [14, 10, 4, 8, 9, 15, 13, 6, 1, 12, 0, 2, 11, 7, 5, 3],
     [11, 8, 12, 0, 5, 2, 15, 13, 10, 14, 3, 6, 7, 1, 9, 4],
     [7, 9, 3, 1, 13, 12, 11, 14, 2, 6, 5, 10, 4, 0, 15, 8],
     [9, 0, 5, 7, 2, 4, 10, 15, 14, 1, 11, 12, 6, 8, 3, 13],
     [2, 12, 6, 10, 0, 11, 8, 3, 4, 13, 7, 5, 15, 14, 1, 9],
     [12, 5, 1, 15, 14, 13, 4, 10, 0, 7, 6, 3, 9, 2, 8, 11],
     [13, 11, 7, 14, 12, 1, 3, 9, 5, 0, 15, 4, 8, 6, 2, 10],
     [6, 15, 14, 9, 11, 3, 0, 8, 12, 2, 13, 7, 1, 4, 10, 5],
     [10, 2, 8, 4, 7, 6, 1, 5, 15, 11, 9, 14, 3, 12, 13, 0]] : List (List Nat)).getD k [] := by decide
  rw [h _ (Nat.mod_lt _ (by omega))]
  rfl

theorem sigma_lt (n i : Nat) : Spec.Blake2b.sigma n i < 16 := by
  have h : ∀ k < 10, ∀ x ∈ sigma.getD k [], x < 16 := by decide
  rw [← sigma_at, List.getD_eq_getElem?_getD]
  cases hx : (sigma.getD (n % 10) [])[i]? with
  | none => simp
  | some x => exact h _ (Nat.mod_lt _ (by omega)) x (List.mem_of_getElem? hx)

theorem rounds_eq (m : List Word) (M : Nat → Word) (hm : ∀ i < 16, at' m i = M i) (v : List Word) (hv : v.length = 16) :
    ∀ n, rounds m v n = Spec.Blake2b.rounds M v n ∧ (rounds m v n).length = 16
  | 0 => ⟨rfl, hv⟩
  | n + 1 => by
    obtain ⟨e, hl⟩ := rounds_eq m M hm v hv n
    have hs : msg m (n % 10) = fun i => M (Spec.Blake2b.sigma n i) := by
      funext i
      rw [msg, sigma_at]
      exact hm _ (sigma_lt n i)
    constructor
    · rw [rounds, round_eq m _ _ hl, Spec.Blake2b.rounds, hs, e]
    · rw [rounds, round_eq m _ _ hl]
      simp [diagonals]

theorem iv_eq : ∀ i < 8, at' iv i = Spec.Blake2b.iv i := by decide +kernel

theorem eight (l : Bytes) (h : 8 ≤ l.length) : l.take 8 =
    [l.getD 0 0, l.getD 1 0, l.getD 2 0, l.getD 3 0, l.getD 4 0, l.getD 5 0, l.getD 6 0, l.getD 7 0] := by
  match l, h with
  | b0 :: b1 :: b2 :: b3 :: b4 :: b5 :: b6 :: b7 :: l, _ => simp

theorem load64_eq (l : Bytes) (h : 8 ≤ l.length) : load64 l = BitVec.ofNat 64 (leNat (l.take 8)) := by
  rw [eight l h, load64]
  simp only [leNat]
  congr 1
  omega

theorem store64_eq (w : Word) : store64 w = leBytes 8 w.toNat := by
  have hx := w.isLt
  simp only [store64, leBytes, BitVec.toNat_ushiftRight, Nat.shiftRight_eq_div_pow, Nat.div_div_eq_div_mul]
  congr 1
  · apply UInt8.toNat_inj.mp; simp
  congr 1
  · apply UInt8.toNat_inj.mp; simp
  congr 1
  · apply UInt8.toNat_inj.mp; simp
  congr 1
  · apply UInt8.toNat_inj.mp; simp
  congr 1
  · apply UInt8.toNat_inj.mp; simp
  congr 1
  · apply UInt8.toNat_inj.mp; simp
  congr 1
  · apply UInt8.toNat_inj.mp; simp
  congr 1
  apply UInt8.toNat_inj.mp; simp

theorem leNat_append : ∀ a b : Bytes, leNat (a ++ b) = leNat a + 256 ^ a.length * leNat b
  | [], b => by simp [leNat]
  | x :: a, b => by
    rw [List.cons_append, leNat, leNat, leNat_append a b, List.length_cons, Nat.pow_succ', Nat.mul_add, Nat.mul_assoc]
    omega

theorem leNat_lt : ∀ a : Bytes, leNat a < 256 ^ a.length
  | [] => by simp [leNat]
  | x :: a => by
    have h1 := leNat_lt a
    have h2 := x.toNat_lt
    rw [leNat, List.length_cons, Nat.pow_succ']
    omega

theorem load64_part {l : Bytes} {k i : Nat} (hk : 8 * i + 8 ≤ k) (hl : k ≤ l.length) : load64 ((l.take k).drop (8 * i)) = word l i := by
  rw [load64_eq _ (by simp; omega), word, List.drop_take, List.take_take, Nat.min_eq_left (by omega)]

theorem counter_eq (l : Bytes) (h : 16 ≤ l.length) : leNat (l.take 16) = leNat (l.take 8) + 2 ^ 64 * leNat ((l.drop 8).take 8) := by
  have e : l.take 16 = l.take 8 ++ (l.drop 8).take 8 := by rw [show (16 : Nat) = 8 + 8 from rfl, List.take_add]
  rw [e, leNat_append, List.length_take, Nat.min_eq_left (by omega)]

theorem compressBytes_eq (hb block t : Bytes) (final : Bool) (r : Nat) (h1 : 64 ≤ hb.length) (h2 : 128 ≤ block.length)
    (h3 : 16 ≤ t.length) : compressBytes (hb.take 64) (block.take 128) (t.take 16) final r =
      (List.range 8).flatMap (fun i => leBytes 8 (Spec.Blake2b.F r (word hb) (word block) (leNat (t.take 16)) final i).toNat) := by
  have hh : (List.range 8).map (fun i => load64 ((hb.take 64).drop (8 * i))) = (List.range 8).map (word hb) := by
    apply List.map_congr_left
    intro i hi
    rw [List.mem_range] at hi
    exact load64_part (by omega) h1
  have ht : (List.range 2).map (fun i => load64 ((t.take 16).drop (8 * i))) = (List.range 2).map (word t) := by
    apply List.map_congr_left
    intro i hi
    rw [List.mem_range] at hi
    exact load64_part (by omega) h3
  have hm : (List.range 16).map (fun i => load64 ((block.take 128).drop (i * 8))) = (List.range 16).map (word block) := by
    apply List.map_congr_left
    intro i hi
    rw [List.mem_range] at hi
    rw [Nat.mul_comm]
    exact load64_part (by omega) h2
  have ht0 : word t 0 = BitVec.ofNat 64 (leNat (t.take 16)) := by
    rw [counter_eq t h3, word]
    apply BitVec.eq_of_toNat_eq
    simp
  have ht1 : word t 1 = BitVec.ofNat 64 (leNat (t.take 16) / 2 ^ 64) := by
    have := leNat_lt (t.take 8)
    rw [List.length_take, Nat.min_eq_left (by omega)] at this
    rw [counter_eq t h3, word]
    congr 1
    rw [Nat.add_mul_div_left _ _ (by omega), Nat.div_eq_of_lt this]
    simp
  rw [compressBytes, hh, ht]
  simp only [compress]
  rw [hm]
  have hv : (List.range 8).map (fun i => at' ((List.range 8).map (word hb)) i) ++
      [at' iv 0, at' iv 1, at' iv 2, at' iv 3, at' iv 4 ^^^ at' ((List.range 2).map (word t)) 0,
       at' iv 5 ^^^ at' ((List.range 2).map (word t)) 1, at' iv 6 ^^^ at' [if final then 0xffffffffffffffff else 0, 0] 0,
       at' iv 7 ^^^ at' [if final then 0xffffffffffffffff else 0, 0] 1] =
      [word hb 0, word hb 1, word hb 2, word hb 3, word hb 4, word hb 5, word hb 6, word hb 7, Spec.Blake2b.iv 0, Spec.Blake2b.iv 1,
       Spec.Blake2b.iv 2, Spec.Blake2b.iv 3, Spec.Blake2b.iv 4 ^^^ BitVec.ofNat 64 (leNat (t.take 16)),
       Spec.Blake2b.iv 5 ^^^ BitVec.ofNat 64 (leNat (t.take 16) / 2 ^ 64), if final then ~~~Spec.Blake2b.iv 6 else Spec.Blake2b.iv 6,
       Spec.Blake2b.iv 7] := by
    rw [← ht0, ← ht1, ← iv_eq 0 (by omega), ← iv_eq 1 (by omega), ← iv_eq 2 (by omega), ← iv_eq 3 (by omega), ← iv_eq 4 (by omega),
      ← iv_eq 5 (by omega), ← iv_eq 6 (by omega), ← iv_eq 7 (by omega)]
    have e6 : at' iv 6 ^^^ at' [if final then 0xffffffffffffffff else 0, 0] 0 = if final then ~~~(at' iv 6) else at' iv 6 := by
      cases final <;> decide
    have e7 : at' iv 7 ^^^ at' [if final then 0xffffffffffffffff else 0, 0] 1 = at' iv 7 := by
      cases final <;> decide
    rw [e6, e7]
    rfl
  rw [hv]
  have hr := fun v hv => (rounds_eq ((List.range 16).map (word block)) (word block) (fun i hi => at'_map_range hi) v hv r).1
  rw [hr _ rfl, List.flatMap_map, List.flatMap_def, List.flatMap_def]
  refine congrArg List.flatten (List.map_congr_left ?_)
  intro i hi
  rw [List.mem_range] at hi
  rw [store64_eq, at'_map_range hi]
  rfl

end Silkworm.Blake2b
