import Verif.Spec.Chain
import Mathlib.Tactic.Ring
import Mathlib.Order.Lattice

/-!
# Lemmas about the chain rules
-/

namespace Silkworm

open Rlp

/-! ## Forks -/

theorem forkReached_iff (c : ChainConfig) (i n : Nat) : c.forkReached i n = true ↔ Spec.forkReached c (i + 1) n := by
  unfold ChainConfig.forkReached Spec.forkReached
  rw [List.getD_eq_getElem?_getD]
  simp only [Nat.add_sub_cancel]
  cases h : c.forkBlocks[i]? with
  | none => simp
  | some o => cases o <;> simp

theorem forkReached_lt (c : ChainConfig) (hc : Spec.ConfigWF c) {r n : Nat} (hr : 1 ≤ r) (h : Spec.forkReached c r n) :
    r ≤ 10 := by
  obtain ⟨b, hb, _⟩ := h
  have := (List.getElem?_eq_some_iff.mp hb).1
  have h2 := hc.2.1
  omega

theorem revisionLoop_le (c : ChainConfig) (n k : Nat) : c.revisionLoop n k ≤ k := by
  induction k with
  | zero => simp [ChainConfig.revisionLoop, Revision.frontier]
  | succ k ih =>
    unfold ChainConfig.revisionLoop
    split
    · exact Nat.le_refl _
    · exact Nat.le_succ_of_le ih

theorem le_revisionLoop (c : ChainConfig) (n : Nat) {x : Nat} (hx : 1 ≤ x) (k : Nat) :
    x ≤ c.revisionLoop n k ↔ ∃ r, x ≤ r ∧ r ≤ k ∧ Spec.forkReached c r n := by
  induction k with
  | zero =>
    simp only [ChainConfig.revisionLoop, Revision.frontier]
    constructor
    · intro h; exact absurd h (by omega)
    · rintro ⟨r, h1, h2, _⟩; omega
  | succ k ih =>
    unfold ChainConfig.revisionLoop
    by_cases h : c.forkReached k n = true
    · rw [if_pos h]
      rw [forkReached_iff] at h
      constructor
      · intro hle; exact ⟨k + 1, hle, Nat.le_refl _, h⟩
      · rintro ⟨r, h1, h2, _⟩; omega
    · rw [if_neg h, ih]
      rw [forkReached_iff] at h
      constructor
      · rintro ⟨r, h1, h2, h3⟩; exact ⟨r, h1, by omega, h3⟩
      · rintro ⟨r, h1, h2, h3⟩
        refine ⟨r, h1, ?_, h3⟩
        by_cases hr : r = k + 1
        · subst hr; exact absurd h3 h
        · omega

/-- The revision is at least `x` exactly if fork `x` is active. -/
theorem le_revision (c : ChainConfig) (hc : Spec.ConfigWF c) (n : Nat) {x : Nat} (hx : 1 ≤ x) :
    x ≤ c.revision n ↔ Spec.forkActive c x n := by
  unfold ChainConfig.revision
  rw [le_revisionLoop c n hx]
  constructor
  · rintro ⟨r, h1, _, h3⟩; exact ⟨r, h1, by omega, h3⟩
  · rintro ⟨r, h1, h2, h3⟩; exact ⟨r, h1, forkReached_lt c hc h2 h3, h3⟩

theorem revision_lt (c : ChainConfig) (hc : Spec.ConfigWF c) (n : Nat) {x : Nat} (hx : 1 ≤ x) :
    c.revision n < x ↔ ¬ Spec.forkActive c x n := by
  rw [← le_revision c hc n hx]; exact Nat.not_le.symm

theorem isLondonBlock_iff (c : ChainConfig) (n : Nat) :
    some n = c.revisionBlock Revision.london ↔ Spec.isLondonBlock c n := by
  unfold ChainConfig.revisionBlock Spec.isLondonBlock Revision.london Revision.frontier
  rw [if_neg (by decide), List.getD_eq_getElem?_getD]
  show some n = (c.forkBlocks[8]?).getD none ↔ _
  rcases c.forkBlocks[8]? with _ | _ | b
  · simp
  · simp
  · simp [eq_comm]

/-! ## Intrinsic gas -/

theorem foldl_add128 (l : List AccessListEntry) (g : Nat)
    (h : g + (l.map fun e => 1900 * e.storageKeys.length).sum < 2 ^ 128) :
    l.foldl (fun g e => add128 g (mul128 e.storageKeys.length Fee.accessListStorageKeyCost)) g =
      g + (l.map fun e => 1900 * e.storageKeys.length).sum := by
  induction l generalizing g with
  | nil => simp
  | cons e l ih =>
    simp only [List.map_cons, List.sum_cons, List.foldl_cons] at h ⊢
    have e1 : mul128 e.storageKeys.length Fee.accessListStorageKeyCost = 1900 * e.storageKeys.length := by
      unfold mul128 Fee.accessListStorageKeyCost
      rw [Nat.mul_comm, Nat.mod_eq_of_lt (by omega)]
    have e2 : add128 g (1900 * e.storageKeys.length) = g + 1900 * e.storageKeys.length := by
      unfold add128; rw [Nat.mod_eq_of_lt (by omega)]
    rw [e1, e2, ih _ (by omega)]
    omega

theorem sum_mul_map (l : List AccessListEntry) :
    (l.map fun e => 1900 * e.storageKeys.length).sum = 1900 * (l.map fun e => e.storageKeys.length).sum := by
  induction l with
  | nil => rfl
  | cons e l ih => simp only [List.map_cons, List.sum_cons, ih]; omega

theorem sum_access_map (l : List AccessListEntry) :
    (l.map fun e => 2400 + 1900 * e.storageKeys.length).sum =
      2400 * l.length + 1900 * (l.map fun e => e.storageKeys.length).sum := by
  induction l with
  | nil => rfl
  | cons e l ih => simp only [List.map_cons, List.sum_cons, ih, List.length_cons]; omega

theorem sum_data (istanbul : Bool) (d : Bytes) :
    (d.map (Spec.dataByteGas istanbul)).sum =
      d.countP (fun c => c != 0) * (if istanbul then 16 else 68) + (d.length - d.countP (fun c => c != 0)) * 4 := by
  induction d with
  | nil => simp
  | cons b d ih =>
    have hle : d.countP (fun c => c != 0) ≤ d.length := List.countP_le_length
    simp only [List.map_cons, List.sum_cons, ih, List.length_cons, Spec.dataByteGas]
    by_cases hb : b = 0
    · rw [if_pos hb, List.countP_cons_of_neg (by simp [hb])]
      omega
    · rw [if_neg hb, List.countP_cons_of_pos (by simp [hb])]
      cases istanbul <;> simp <;> omega

set_option maxHeartbeats 1000000 in
theorem intrinsicGas_eq (t : Transaction) (homestead istanbul : Bool) (h : Spec.TxSizes t) :
    intrinsicGas t homestead istanbul = Spec.intrinsicGas t homestead istanbul := by
  obtain ⟨h1, h2, h3⟩ := h
  have hle : t.data.countP (fun c => c != 0) ≤ t.data.length := List.countP_le_length
  unfold intrinsicGas Spec.intrinsicGas
  rw [sum_access_map, sum_data]
  simp only [Option.isNone_iff_eq_none]
  generalize hg0 : (if t.to = none ∧ homestead = true then add128 Fee.gTransaction Fee.gTxCreate else Fee.gTransaction) = g0
  have hg0' : g0 = 21000 + (if t.to = none ∧ homestead = true then 32000 else 0) := by
    rw [← hg0]
    by_cases hc : t.to = none ∧ homestead = true
    · rw [if_pos hc, if_pos hc]; decide
    · rw [if_neg hc, if_neg hc]; rfl
  have hg0b : g0 ≤ 53000 := by rw [hg0']; split <;> omega
  have e1 : mul128 t.accessList.length Fee.accessListAddressCost = 2400 * t.accessList.length := by
    unfold mul128 Fee.accessListAddressCost
    rw [Nat.mul_comm, Nat.mod_eq_of_lt (by omega)]
  have e2 : add128 g0 (2400 * t.accessList.length) = g0 + 2400 * t.accessList.length := by
    unfold add128; rw [Nat.mod_eq_of_lt (by omega)]
  have hsum := sum_mul_map t.accessList
  rw [e1, e2, foldl_add128 _ _ (by omega), hsum]
  generalize (t.accessList.map fun e => e.storageKeys.length).sum = ks at *
  by_cases hd : t.data = []
  · rw [if_pos hd, hd]
    simp only [List.countP_nil, List.length_nil]
    omega
  · rw [if_neg hd]
    generalize t.data.countP (fun c => c != 0) = nz at *
    have e3 : mul128 nz (if istanbul = true then Fee.gTxDataNonZeroIstanbul else Fee.gTxDataNonZeroFrontier) =
        nz * (if istanbul = true then 16 else 68) := by
      unfold mul128 Fee.gTxDataNonZeroIstanbul Fee.gTxDataNonZeroFrontier
      rw [Nat.mod_eq_of_lt]
      split <;> omega
    have e4 : (t.data.length + 2 ^ 128 - nz) % 2 ^ 128 = t.data.length - nz := by omega
    have e5 : mul128 (t.data.length - nz) Fee.gTxDataZero = (t.data.length - nz) * 4 := by
      unfold mul128 Fee.gTxDataZero; rw [Nat.mod_eq_of_lt (by omega)]
    have hb : nz * (if istanbul = true then 16 else 68) ≤ nz * 68 := by
      apply Nat.mul_le_mul_left; split <;> omega
    rw [e3, e4, e5]
    generalize nz * (if istanbul = true then 16 else 68) = q at *
    unfold add128
    rw [Nat.mod_eq_of_lt (a := g0 + _ + _ + _) (by omega), Nat.mod_eq_of_lt (by omega)]
    omega

/-! ## Difficulty -/

theorem sub64_le {a b : Nat} (h : b ≤ a) (ha : a < 2 ^ 64) : sub64 a b = a - b := by
  unfold sub64
  rw [Nat.mod_eq_of_lt (a := b) (by omega)]
  omega

theorem bomb_nonneg (n : Nat) : 0 ≤ Spec.bomb n := by
  unfold Spec.bomb
  split
  · exact Int.le_refl 0
  · exact Int.pow_nonneg (by decide)

/-- The bomb in the code, given that the result fits. -/
theorem difficultyBomb_eq (d n : Nat) (h : (d : Int) + Spec.bomb n < 2 ^ 256) :
    (difficultyBomb d n : Int) = max Spec.minDifficulty (d + Spec.bomb n) := by
  have key : (if n / 100000 ≥ 2 then add256 d (shl256 (n / 100000 - 2)) else d : Nat) = (d : Int) + Spec.bomb n := by
    unfold Spec.bomb at h ⊢
    by_cases hn : n < 200000
    · rw [if_pos hn, if_neg (by omega)]; simp
    · rw [if_neg hn] at h ⊢
      rw [if_pos (by omega)]
      have hk : n / 100000 - 2 < 256 := by
        rcases Nat.lt_or_ge (n / 100000 - 2) 256 with h' | h'
        · exact h'
        · exfalso
          have : (2 : Int) ^ 256 ≤ 2 ^ (n / 100000 - 2) := by
            have h2 := Nat.pow_le_pow_right (n := 2) (by decide) h'
            exact_mod_cast h2
          omega
      unfold add256 shl256
      rw [if_pos hk]
      have h2 : d + 2 ^ (n / 100000 - 2) < 2 ^ 256 := by exact_mod_cast h
      rw [Nat.mod_eq_of_lt h2]
      push_cast
      rfl
  unfold difficultyBomb Spec.minDifficulty
  simp only
  generalize (if n / 100000 ≥ 2 then add256 d (shl256 (n / 100000 - 2)) else d : Nat) = e at key
  rw [← key]
  unfold kMinDifficulty
  split <;> omega

/-- Common part of the Homestead and Byzantium rules: `y + 99 - z` multiples of `x` are added after taking away 99. -/
theorem adjust_eq (p y z n : Nat) (hp : p < 2 ^ 256) (hy : y ≤ 2)
    (h : Spec.adjusted p (max ((y : Int) - z) (-99)) (Spec.bomb n) < 2 ^ 256) :
    (difficultyBomb (if 99 + y > z then add256 (sub256 p (mul256 (p / 2 ^ 11) 99)) (mul256 (99 + y - z) (p / 2 ^ 11))
      else sub256 p (mul256 (p / 2 ^ 11) 99)) n : Int) = Spec.adjusted p (max ((y : Int) - z) (-99)) (Spec.bomb n) := by
  have hx : p / 2 ^ 11 * 2048 ≤ p := Nat.div_mul_le_self p 2048
  have hpi : (p : Int) / 2048 = ((p / 2 ^ 11 : Nat) : Int) := by push_cast; rfl
  unfold Spec.adjusted at h ⊢
  rw [hpi] at h ⊢
  generalize p / 2 ^ 11 = x at *
  have hb := bomb_nonneg n
  have e1 : mul256 x 99 = x * 99 := by unfold mul256; rw [Nat.mod_eq_of_lt (by omega)]
  have e2 : sub256 p (x * 99) = p - x * 99 := by
    unfold sub256; rw [Nat.mod_eq_of_lt (a := x * 99) (by omega)]; omega
  rw [e1, e2]
  by_cases hz : 99 + y > z
  · rw [if_pos hz]
    have hm : max ((y : Int) - z) (-99) = (y : Int) - z := by omega
    rw [hm] at h ⊢
    have hk : 99 + y - z ≤ 101 := by omega
    have hkx : (99 + y - z) * x ≤ 101 * x := Nat.mul_le_mul_right x hk
    have e3 : mul256 (99 + y - z) x = (99 + y - z) * x := by
      unfold mul256; rw [Nat.mod_eq_of_lt (by omega)]
    have key : ((p - x * 99 + (99 + y - z) * x : Nat) : Int) = p + x * ((y : Int) - z) := by
      have hk2 : ((99 + y - z : Nat) : Int) = 99 + y - z := by omega
      have hk3 : ((p - x * 99 : Nat) : Int) = p - x * 99 := by omega
      push_cast
      rw [hk2, hk3]
      ring
    have hlt : p - x * 99 + (99 + y - z) * x < 2 ^ 256 := by
      unfold Spec.minDifficulty at h
      generalize (x : Int) * ((y : Int) - z) = w at *
      generalize (99 + y - z) * x = w' at *
      omega
    rw [e3]
    have e4 : add256 (p - x * 99) ((99 + y - z) * x) = p - x * 99 + (99 + y - z) * x := by
      unfold add256; rw [Nat.mod_eq_of_lt hlt]
    rw [e4, difficultyBomb_eq _ _ (by rw [key]; exact lt_of_le_of_lt (le_max_right _ _) h), key]
  · rw [if_neg hz]
    have hm : max ((y : Int) - z) (-99) = -99 := by omega
    rw [hm] at h ⊢
    have key : ((p - x * 99 : Nat) : Int) = p + x * (-99) := by omega
    rw [difficultyBomb_eq _ _ (by rw [key]; exact lt_of_le_of_lt (le_max_right _ _) h), key]

theorem difficultyHomestead_eq (n p tb tp : Nat) (hp : p < 2 ^ 256) (htb : tb < 2 ^ 64) (ht : tp ≤ tb)
    (h : Spec.difficultyHomestead n p (tb - tp) < 2 ^ 256) :
    (canonicalDifficultyHomestead n tb p tp : Int) = Spec.difficultyHomestead n p (tb - tp) := by
  unfold Spec.difficultyHomestead at h ⊢
  have := adjust_eq p 1 ((tb - tp) / 10) n hp (by omega) h
  unfold canonicalDifficultyHomestead
  rw [sub64_le ht htb]
  exact this

theorem difficultyByzantium_eq (n p tb tp : Nat) (u : Bool) (delay : Nat) (hp : p < 2 ^ 256) (htb : tb < 2 ^ 64)
    (ht : tp ≤ tb) (h : Spec.difficultyByzantium n p (tb - tp) u delay < 2 ^ 256) :
    (canonicalDifficultyByzantium n tb p tp u delay : Int) = Spec.difficultyByzantium n p (tb - tp) u delay := by
  unfold Spec.difficultyByzantium at h ⊢
  have hu : (if u = true then (2 : Int) else 1) = ((if u = true then 2 else 1 : Nat) : Int) := by cases u <;> rfl
  rw [hu] at h ⊢
  have := adjust_eq p (if u = true then 2 else 1) ((tb - tp) / 9) (n - delay) hp (by cases u <;> decide) h
  unfold canonicalDifficultyByzantium
  rw [sub64_le ht htb]
  have hn : (if n > delay then n - delay else 0) = n - delay := by split <;> omega
  simp only [hn]
  exact this

theorem difficultyFrontier_eq (n p tb tp : Nat) (hp : p < 2 ^ 256) (htb : tb < 2 ^ 64) (ht : tp ≤ tb)
    (h : Spec.difficultyFrontier n p (tb - tp) < 2 ^ 256) :
    (canonicalDifficultyFrontier n tb p tp : Int) = Spec.difficultyFrontier n p (tb - tp) := by
  have hx : p / 2 ^ 11 * 2048 ≤ p := Nat.div_mul_le_self p 2048
  have hpi : (p : Int) / 2048 = ((p / 2 ^ 11 : Nat) : Int) := by push_cast; rfl
  unfold Spec.difficultyFrontier Spec.adjusted at h ⊢
  unfold canonicalDifficultyFrontier
  rw [sub64_le ht htb]
  rw [hpi] at h ⊢
  have hb := bomb_nonneg n
  have h' := lt_of_le_of_lt (le_max_right _ _) h
  simp only
  generalize p / 2 ^ 11 = x at *
  by_cases hz : tb - tp < 13
  · rw [if_pos hz] at h' ⊢
    rw [if_pos hz]
    have e4 : add256 p x = p + x := by unfold add256; rw [Nat.mod_eq_of_lt (by omega)]
    rw [e4, difficultyBomb_eq _ _ (by push_cast; omega)]
    push_cast
    simp
  · rw [if_neg hz] at h' ⊢
    rw [if_neg hz]
    have e2 : sub256 p x = p - x := by
      unfold sub256; rw [Nat.mod_eq_of_lt (a := x) (by omega)]; omega
    have key : ((p - x : Nat) : Int) = p + x * -1 := by omega
    rw [e2, difficultyBomb_eq _ _ (by rw [key]; exact h'), key]

theorem bombDelay_eq (c : ChainConfig) (hc : Spec.ConfigWF c) (n : Nat) : bombDelay c n = Spec.bombDelay c n := by
  classical
  have hm : muirGlacierReached c n = true ↔ ∃ b, c.muirGlacierBlock = some b ∧ b ≤ n := by
    unfold muirGlacierReached
    rcases c.muirGlacierBlock with _ | b <;> simp
  unfold bombDelay Spec.bombDelay
  simp only [ge_iff_le]
  have h1 := le_revision c hc n (x := Revision.london) (by decide)
  have h2 := le_revision c hc n (x := Revision.constantinople) (by decide)
  exact ite_congr (propext h1) (fun _ => rfl)
    (fun _ => ite_congr (propext hm) (fun _ => rfl) (fun _ => ite_congr (propext h2) (fun _ => rfl) (fun _ => rfl)))

theorem canonicalDifficulty_eq (c : ChainConfig) (hc : Spec.ConfigWF c) (n p tb tp : Nat) (u : Bool) (hp : p < 2 ^ 256)
    (htb : tb < 2 ^ 64) (ht : tp ≤ tb) (h : Spec.difficulty c n p (tb - tp) u < 2 ^ 256) :
    (canonicalDifficulty n tb p tp u c : Int) = Spec.difficulty c n p (tb - tp) u := by
  have h1 := le_revision c hc n (x := Revision.byzantium) (by decide)
  have h2 := le_revision c hc n (x := Revision.homestead) (by decide)
  unfold canonicalDifficulty
  unfold Spec.difficulty at h ⊢
  simp only [ge_iff_le]
  by_cases a1 : Spec.forkActive c 4 n
  · rw [if_pos a1] at h ⊢
    rw [if_pos (h1.mpr a1), bombDelay_eq c hc]
    exact difficultyByzantium_eq n p tb tp u _ hp htb ht h
  · rw [if_neg a1] at h ⊢
    rw [if_neg (fun x => a1 (h1.mp x))]
    by_cases a2 : Spec.forkActive c 1 n
    · rw [if_pos a2] at h ⊢
      rw [if_pos (h2.mpr a2)]
      exact difficultyHomestead_eq n p tb tp hp htb ht h
    · rw [if_neg a2] at h ⊢
      rw [if_neg (fun x => a2 (h2.mp x))]
      exact difficultyFrontier_eq n p tb tp hp htb ht h

theorem adjusted_mono (p : Nat) {a b e : Int} (h : a ≤ b) : Spec.adjusted p a e ≤ Spec.adjusted p b e := by
  unfold Spec.adjusted
  have : (p : Int) / 2048 * a ≤ (p : Int) / 2048 * b := Int.mul_le_mul_of_nonneg_left h (by omega)
  omega

/-- The specified difficulty does not grow with the time since the parent. -/
theorem difficulty_mono (c : ChainConfig) (n p : Nat) (u : Bool) {t1 t2 : Nat} (h : t1 ≤ t2) :
    Spec.difficulty c n p t2 u ≤ Spec.difficulty c n p t1 u := by
  unfold Spec.difficulty
  split
  · apply adjusted_mono
    have := Nat.div_le_div_right (c := 9) h
    omega
  · split
    · apply adjusted_mono
      have := Nat.div_le_div_right (c := 10) h
      omega
    · apply adjusted_mono
      split <;> split <;> omega

theorem difficultyBomb_ge (d n : Nat) : 131072 ≤ difficultyBomb d n := by
  unfold difficultyBomb kMinDifficulty
  simp only
  generalize (if n / 100000 ≥ 2 then add256 d (shl256 (n / 100000 - 2)) else d : Nat) = e
  split <;> omega

end Silkworm
