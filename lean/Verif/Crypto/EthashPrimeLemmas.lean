import Verif.Crypto.Ethash
import Verif.Crypto.Primality
import Mathlib.Data.Nat.Prime.Basic
import Mathlib.Order.Bounds.Basic

namespace Silkworm.Ethash

theorem noFactor_iff (number : Nat) : ∀ fuel d, d % 2 = 1 → number < fuel + d →
    (noFactor number fuel d = true ↔ ∀ e, e % 2 = 1 → d ≤ e → e * e ≤ number → number % e ≠ 0)
  | 0, d, hd, hf => by
    have : ∀ e, d ≤ e → ¬ e * e ≤ number := by
      intro e he h
      have : e * 1 ≤ e * e := Nat.mul_le_mul_left e (by omega)
      omega
    simp only [noFactor, true_iff]
    intro e _ he h
    exact absurd h (this e he)
  | fuel + 1, d, hd, hf => by
    unfold noFactor
    by_cases h1 : d * d ≤ number
    · rw [if_pos h1]
      by_cases h2 : number % d = 0
      · rw [if_pos h2]
        simp only [Bool.false_eq_true, false_iff]
        intro h
        exact h d hd (Nat.le_refl _) h1 h2
      · rw [if_neg h2, noFactor_iff number fuel (d + 2) (by omega) (by omega)]
        constructor
        · intro h e he hde hee
          by_cases hed : e = d
          · subst hed; exact h2
          · exact h e he (by omega) hee
        · intro h e he hde hee
          exact h e he (by omega) hee
    · rw [if_neg h1]
      simp only [true_iff]
      intro e _ hde hee
      exact absurd (Nat.le_trans (Nat.mul_le_mul hde hde) hee) h1

theorem isOddPrime_iff {n : Nat} (h3 : 3 ≤ n) (ho : n % 2 = 1) : isOddPrime n = true ↔ n.Prime := by
  unfold isOddPrime
  rw [if_neg (by omega), noFactor_iff n n 3 rfl (by omega)]
  constructor
  · intro h
    by_contra hp
    have h1 := Nat.minFac_sq_le_self (by omega) hp
    have hd := Nat.minFac_dvd n
    have hpr := Nat.minFac_prime (n := n) (by omega)
    have hodd : n.minFac % 2 = 1 := by
      rcases Nat.mod_two_eq_zero_or_one n.minFac with h0 | h0
      · exfalso
        have : 2 ∣ n := Nat.dvd_trans (Nat.dvd_of_mod_eq_zero h0) hd
        omega
      · exact h0
    have h2 := hpr.two_le
    refine h n.minFac hodd (by omega) (by rw [← Nat.pow_two]; exact h1) (Nat.mod_eq_zero_of_dvd hd)
  · intro hp e he h3e hee hm
    rcases (Nat.dvd_prime hp).mp (Nat.dvd_of_mod_eq_zero hm) with h | h
    · omega
    · subst h
      have : e * 3 ≤ e * e := Nat.mul_le_mul_left e h3e
      omega

theorem descend_greatest : ∀ fuel n, n % 2 = 1 → 3 ≤ n → n < 2 ^ 32 → n ≤ 2 * fuel + 1 →
    (descend fuel n).Prime ∧ 3 ≤ descend fuel n ∧ descend fuel n ≤ n ∧ ∀ p, p.Prime → p % 2 = 1 → p ≤ n → p ≤ descend fuel n
  | 0, n, _, h3, _, h => by omega
  | fuel + 1, n, ho, h3, hb, hf => by
    unfold descend
    by_cases h : isOddPrime n = true
    · rw [if_pos h]
      exact ⟨(isOddPrime_iff h3 ho).mp h, h3, Nat.le_refl _, fun p _ _ hp => hp⟩
    · rw [if_neg h]
      have hnp : ¬ n.Prime := fun hp => h ((isOddPrime_iff h3 ho).mpr hp)
      have h5 : 5 ≤ n := by
        by_contra h5
        have : n = 3 := by omega
        rw [this] at hnp
        exact hnp (by decide)
      rw [show (n + 2 ^ 32 - 2) % 2 ^ 32 = n - 2 by omega]
      obtain ⟨h1, h2, h4, h6⟩ := descend_greatest fuel (n - 2) (by omega) (by omega) (by omega) (by omega)
      refine ⟨h1, h2, by omega, fun p hp hpo hpn => h6 p hp hpo ?_⟩
      have : p ≠ n := fun e => hnp (e ▸ hp)
      omega

theorem findLargestPrime_greatest {bound : Nat} (h3 : 3 ≤ bound) (hb : bound < 2 ^ 32) :
    IsGreatest {p : Nat | p.Prime ∧ p ≤ bound} (findLargestPrime bound) := by
  unfold findLargestPrime
  rw [if_neg (by omega)]
  have key : ∀ n, n % 2 = 1 → 3 ≤ n → n ≤ bound → bound ≤ n + 1 → (bound = n ∨ bound % 2 = 0) →
      IsGreatest {p : Nat | p.Prime ∧ p ≤ bound} (descend bound n) := by
    intro n ho hn hnb hbn hc
    obtain ⟨h1, h2, h4, h6⟩ := descend_greatest bound n ho hn (by omega) (by omega)
    refine ⟨⟨h1, by omega⟩, ?_⟩
    rintro p ⟨hp, hpb⟩
    rcases hp.eq_two_or_odd with h | h
    · omega
    · exact h6 p hp h (by omega)
  by_cases ho : bound % 2 = 1
  · rw [if_pos ho]; exact key bound ho h3 (Nat.le_refl _) (by omega) (Or.inl rfl)
  · rw [if_neg ho]; exact key (bound - 1) (by omega) (by omega) (by omega) (by omega) (Or.inr (by omega))

theorem prime_4294967311 : Nat.Prime 4294967311 :=
  Primality.of_certificate 4294967311 3 [2, 3, 3, 5, 131, 364289]
    (by
      simp only [List.forall_mem_cons, List.not_mem_nil, false_imp_iff, implies_true, and_true]
      exact ⟨by norm_num, by norm_num, by norm_num, by norm_num, by norm_num, by norm_num⟩)
    (by decide +kernel) (by decide +kernel) (by decide +kernel)

theorem findLargestPrime_le (bound : Nat) (hb : bound < 2 ^ 32) : findLargestPrime bound ≤ bound := by
  by_cases h3 : 3 ≤ bound
  · exact (findLargestPrime_greatest h3 hb).1.2
  · have : bound = 0 ∨ bound = 1 ∨ bound = 2 := by omega
    rcases this with rfl | rfl | rfl <;> decide

end Silkworm.Ethash
