import Verif.Base.Bytes

/-! Helper lemmas on big-endian numbers. -/

namespace Silkworm

theorem uint8_ofNat_toNat (n : Nat) (h : n < 256) : (UInt8.ofNat n).toNat = n := by
  simp [UInt8.toNat_ofNat', Nat.mod_eq_of_lt h]

theorem uint8_lt (b : UInt8) : b.toNat < 256 := UInt8.toNat_lt b

theorem uint8_ext {a b : UInt8} (h : a.toNat = b.toNat) : a = b := UInt8.toNat_inj.mp h

theorem uint8_ofNat_toNat_id (b : UInt8) : UInt8.ofNat b.toNat = b := by simp

@[simp] theorem beToNat_nil : beToNat [] = 0 := rfl

theorem foldl_be (b : Bytes) (a : Nat) :
    b.foldl (fun acc x => acc * 256 + x.toNat) a = a * 256 ^ b.length + beToNat b := by
  induction b generalizing a with
  | nil => simp
  | cons x xs ih =>
    simp only [List.foldl_cons, List.length_cons, beToNat]
    rw [ih, ih (0 * 256 + x.toNat)]
    rw [Nat.pow_succ, Nat.add_mul]
    simp only [Nat.zero_mul, Nat.zero_add]
    rw [Nat.mul_comm (256 ^ xs.length) 256, Nat.mul_assoc, Nat.add_assoc]

theorem beToNat_cons (x : UInt8) (xs : Bytes) :
    beToNat (x :: xs) = x.toNat * 256 ^ xs.length + beToNat xs := by
  have := foldl_be xs x.toNat
  simpa [beToNat] using this

theorem beToNat_append (a b : Bytes) : beToNat (a ++ b) = beToNat a * 256 ^ b.length + beToNat b := by
  unfold beToNat
  rw [List.foldl_append, foldl_be]
  rfl

theorem beToNat_lt (b : Bytes) : beToNat b < 256 ^ b.length := by
  induction b with
  | nil => simp
  | cons x xs ih =>
    rw [beToNat_cons, List.length_cons, Nat.pow_succ]
    have hx := uint8_lt x
    have : x.toNat * 256 ^ xs.length + 256 ^ xs.length ≤ 256 * 256 ^ xs.length := by
      rw [← Nat.succ_mul]
      exact Nat.mul_le_mul_right _ hx
    omega

@[simp] theorem beFixed_length (k n : Nat) : (beFixed k n).length = k := by
  induction k generalizing n with
  | zero => rfl
  | succ k ih => simp [beFixed, ih]

theorem beToNat_beFixed_mod (k n : Nat) : beToNat (beFixed k n) = n % 256 ^ k := by
  induction k generalizing n with
  | zero => simp [beFixed, Nat.mod_one]
  | succ k ih =>
    rw [beFixed, beToNat_append, ih]
    have h1 : beToNat [UInt8.ofNat (n % 256)] = n % 256 := by
      rw [beToNat_cons]
      simp
    rw [h1]
    simp only [List.length_singleton, Nat.pow_one]
    rw [Nat.pow_succ, Nat.mul_comm (256 ^ k) 256, Nat.mod_mul]
    omega

theorem beToNat_beFixed {k n : Nat} (h : n < 256 ^ k) : beToNat (beFixed k n) = n := by
  rw [beToNat_beFixed_mod, Nat.mod_eq_of_lt h]

theorem beToNat_inj {a b : Bytes} (hl : a.length = b.length) (h : beToNat a = beToNat b) : a = b := by
  induction a generalizing b with
  | nil => cases b with
    | nil => rfl
    | cons y ys => simp at hl
  | cons x xs ih => cases b with
    | nil => simp at hl
    | cons y ys =>
      simp only [List.length_cons, Nat.add_right_cancel_iff] at hl
      rw [beToNat_cons, beToNat_cons, hl] at h
      have hp : 0 < 256 ^ ys.length := Nat.pow_pos (by decide)
      have h1 := beToNat_lt xs
      have h2 := beToNat_lt ys
      rw [hl] at h1
      have hx : x.toNat = y.toNat := by
        have e1 : (x.toNat * 256 ^ ys.length + beToNat xs) / 256 ^ ys.length = x.toNat := by
          rw [Nat.mul_comm, Nat.mul_add_div hp, Nat.div_eq_of_lt h1, Nat.add_zero]
        have e2 : (y.toNat * 256 ^ ys.length + beToNat ys) / 256 ^ ys.length = y.toNat := by
          rw [Nat.mul_comm, Nat.mul_add_div hp, Nat.div_eq_of_lt h2, Nat.add_zero]
        rw [← e1, ← e2, h]
      rw [hx] at h
      have := ih hl (by omega)
      rw [this, uint8_ext hx]

theorem beFixed_beToNat (b : Bytes) : beFixed b.length (beToNat b) = b :=
  beToNat_inj (by simp) (beToNat_beFixed (beToNat_lt b))

theorem beFixed_inj {k m n : Nat} (hm : m < 256 ^ k) (hn : n < 256 ^ k) (h : beFixed k m = beFixed k n) :
    m = n := by
  rw [← beToNat_beFixed hm, ← beToNat_beFixed hn, h]

theorem beToNat_replicate_zero (k : Nat) (b : Bytes) : beToNat (List.replicate k 0 ++ b) = beToNat b := by
  induction k with
  | zero => rfl
  | succ k ih => simp [List.replicate_succ, beToNat_cons, ih]

/-- Number of bytes of the minimal big-endian representation. -/
def byteLen (n : Nat) : Nat := if n = 0 then 0 else Nat.log2 n / 8 + 1

theorem pow256 (k : Nat) : 256 ^ k = 2 ^ (8 * k) := by
  rw [show (256 : Nat) = 2 ^ 8 from rfl, ← Nat.pow_mul]

theorem lt_pow_byteLen (n : Nat) : n < 256 ^ byteLen n := by
  unfold byteLen
  split
  · simp_all
  · rename_i h
    rw [pow256]
    exact (Nat.log2_lt h).mp (by omega)

theorem pow_byteLen_le {n : Nat} (h : n ≠ 0) : 256 ^ (byteLen n - 1) ≤ n := by
  unfold byteLen
  rw [if_neg h, pow256, Nat.add_sub_cancel]
  exact Nat.le_trans (Nat.pow_le_pow_right (by decide) (by omega)) (Nat.log2_self_le h)

theorem byteLen_le {n k : Nat} (h : n < 256 ^ k) : byteLen n ≤ k := by
  by_cases h0 : n = 0
  · simp [byteLen, h0]
  · have := pow_byteLen_le h0
    have h2 : 256 ^ (byteLen n - 1) < 256 ^ k := Nat.lt_of_le_of_lt this h
    have h3 := (Nat.pow_lt_pow_iff_right (a := 256) (by decide)).mp h2
    omega

theorem byteLen_eq_zero {n : Nat} : byteLen n = 0 ↔ n = 0 := by
  unfold byteLen; split <;> simp_all

theorem byteLen_unique {n k : Nat} (h1 : 256 ^ k ≤ n) (h2 : n < 256 ^ (k + 1)) : byteLen n = k + 1 := by
  have hle := byteLen_le h2
  have hlt := lt_pow_byteLen n
  have h3 : 256 ^ k < 256 ^ byteLen n := Nat.lt_of_le_of_lt h1 hlt
  have h4 := (Nat.pow_lt_pow_iff_right (a := 256) (by decide)).mp h3
  omega

theorem clz_div {k n : Nat} (h : n < 256 ^ k) : clz (8 * k) n / 8 = k - byteLen n := by
  unfold clz byteLen
  by_cases h0 : n = 0
  · simp [h0]
  · rw [if_neg h0, if_neg h0]
    have : Nat.log2 n < 8 * k := (Nat.log2_lt h0).mpr (by rwa [← pow256])
    omega

theorem beFixed_drop {k j n : Nat} (h : j ≤ k) : (beFixed k n).drop (k - j) = beFixed j n := by
  apply beToNat_inj
  · simp; omega
  · have e : (beFixed k n) = (beFixed k n).take (k - j) ++ (beFixed k n).drop (k - j) :=
      (List.take_append_drop _ _).symm
    have h1 := beToNat_beFixed_mod k n
    rw [e, beToNat_append] at h1
    have hl : ((beFixed k n).drop (k - j)).length = j := by simp; omega
    have h2 := beToNat_lt ((beFixed k n).drop (k - j))
    rw [hl] at h1 h2
    rw [beToNat_beFixed_mod]
    generalize beToNat (List.drop (k - j) (beFixed k n)) = d at *
    generalize beToNat (List.take (k - j) (beFixed k n)) = t at *
    have h3 : n % 256 ^ k % 256 ^ j = n % 256 ^ j := by
      apply Nat.mod_mod_of_dvd
      exact Nat.pow_dvd_pow _ h
    rw [← h3, ← h1, Nat.mul_comm, Nat.mul_add_mod, Nat.mod_eq_of_lt h2]

theorem beFixed_head_ne_zero {n : Nat} {x : UInt8} {xs : Bytes} (h : beFixed (byteLen n) n = x :: xs) : x ≠ 0 := by
  intro hx
  have hn : n ≠ 0 := by
    intro h0
    rw [byteLen_eq_zero.mpr h0] at h
    simp [beFixed] at h
  have hl : xs.length = byteLen n - 1 := by
    have := congrArg List.length h
    simp at this; omega
  have h1 := beToNat_beFixed (lt_pow_byteLen n)
  rw [h, beToNat_cons, hx] at h1
  have h2 := beToNat_lt xs
  have h3 := pow_byteLen_le hn
  rw [hl] at h2
  simp at h1
  omega

theorem byteLen_beToNat {x : UInt8} {xs : Bytes} (h : x ≠ 0) : byteLen (beToNat (x :: xs)) = xs.length + 1 := by
  apply byteLen_unique
  · rw [beToNat_cons]
    have : 0 < x.toNat := by
      rcases Nat.eq_zero_or_pos x.toNat with h0 | h0
      · exact absurd (uint8_ext h0) h
      · exact h0
    have := Nat.mul_le_mul_right (256 ^ xs.length) this
    omega
  · exact beToNat_lt (x :: xs)

end Silkworm
