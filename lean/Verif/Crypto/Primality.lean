import Mathlib.NumberTheory.LucasPrimality
import Mathlib.Tactic.NormNum.Prime

/-!
# Primality certificates

Lucas's test with a known factorisation (Pratt certificates), evaluated by the kernel, for the two primes of the curve
alt_bn128: the order of its field and the order of its group.
-/

namespace Silkworm.Primality

/-- `a ^ e % m` by squaring; `fuel` bounds the number of bits of `e`. -/
def powMod (m : Nat) : Nat → Nat → Nat → Nat
  | 0, _, _ => 1 % m
  | fuel + 1, a, e =>
    if e % 2 = 1 then a * powMod m fuel (a * a % m) (e / 2) % m else powMod m fuel (a * a % m) (e / 2)

theorem powMod_eq (m fuel a e : Nat) (h : e < 2 ^ fuel) : powMod m fuel a e = a ^ e % m := by
  induction fuel generalizing a e with
  | zero =>
    have : e = 0 := by rw [Nat.pow_zero] at h; omega
    subst this
    rfl
  | succ fuel ih =>
    have h2 : e / 2 < 2 ^ fuel := by rw [Nat.pow_succ] at h; omega
    rw [powMod, ih _ _ h2]
    have hp : (a * a % m) ^ (e / 2) % m = a ^ (2 * (e / 2)) % m := by
      rw [← Nat.pow_mod, Nat.pow_mul, Nat.pow_two]
    rw [hp]
    by_cases ho : e % 2 = 1
    · rw [if_pos ho, Nat.mul_mod, Nat.mod_mod, ← Nat.mul_mod, ← Nat.pow_succ',
        show (2 * (e / 2)).succ = e by omega]
    · rw [if_neg ho, show 2 * (e / 2) = e by omega]

/-- A factor of a product of primes is one of them. -/
theorem mem_of_dvd_prod {q : Nat} (hq : q.Prime) (fs : List Nat) (hf : ∀ f ∈ fs, Nat.Prime f) (hd : q ∣ fs.prod) : q ∈ fs := by
  obtain ⟨f, hm, h⟩ := (Prime.dvd_prod_iff hq.prime).mp hd
  rw [(Nat.prime_dvd_prime_iff_eq hq (hf f hm)).mp h]
  exact hm

/-- Lucas's test with the prime factors `fs` of `p - 1`. -/
theorem of_certificate (p a : Nat) (fs : List Nat) (hf : ∀ f ∈ fs, Nat.Prime f) (hprod : fs.prod = p - 1) (hp : p < 2 ^ 256)
    (hc : decide (1 < p ∧ powMod p 256 a (p - 1) = 1 ∧ ∀ f ∈ fs, powMod p 256 a ((p - 1) / f) ≠ 1) = true) : p.Prime := by
  obtain ⟨h1, h2, h3⟩ := of_decide_eq_true hc
  have one : ∀ e : Nat, (a : ZMod p) ^ e = 1 ↔ a ^ e % p = 1 := by
    intro e
    have := ZMod.natCast_eq_natCast_iff' (a ^ e) 1 p
    rw [Nat.mod_eq_of_lt h1, Nat.cast_pow, Nat.cast_one] at this
    exact this
  refine lucas_primality p a ?_ ?_
  · rw [one, ← powMod_eq _ 256 _ _ (by omega)]
    exact h2
  · intro q hq hd he
    rw [one, ← powMod_eq _ 256 _ _ (Nat.lt_of_le_of_lt (Nat.div_le_self _ _) (by omega))] at he
    exact h3 q (mem_of_dvd_prod hq fs hf (hprod ▸ hd)) he

theorem prime_11003 : Nat.Prime 11003 :=
  of_certificate 11003 2 [2, 5501]
    (by
      simp only [List.forall_mem_cons, List.not_mem_nil, false_imp_iff, implies_true, and_true]
      exact ⟨by norm_num, by norm_num⟩)
    (by decide +kernel) (by decide +kernel) (by decide +kernel)

theorem prime_405928799 : Nat.Prime 405928799 :=
  of_certificate 405928799 22 [2, 11, 3691, 4999]
    (by
      simp only [List.forall_mem_cons, List.not_mem_nil, false_imp_iff, implies_true, and_true]
      exact ⟨by norm_num, by norm_num, by norm_num, by norm_num⟩)
    (by decide +kernel) (by decide +kernel) (by decide +kernel)

theorem prime_327599 : Nat.Prime 327599 :=
  of_certificate 327599 19 [2, 19, 37, 233]
    (by
      simp only [List.forall_mem_cons, List.not_mem_nil, false_imp_iff, implies_true, and_true]
      exact ⟨by norm_num, by norm_num, by norm_num, by norm_num⟩)
    (by decide +kernel) (by decide +kernel) (by decide +kernel)

theorem prime_11465965001 : Nat.Prime 11465965001 :=
  of_certificate 11465965001 3 [2, 2, 2, 5, 5, 5, 5, 7, 327599]
    (by
      simp only [List.forall_mem_cons, List.not_mem_nil, false_imp_iff, implies_true, and_true]
      exact ⟨by norm_num, by norm_num, by norm_num, by norm_num, by norm_num, by norm_num, by norm_num, by norm_num, prime_327599⟩)
    (by decide +kernel) (by decide +kernel) (by decide +kernel)

theorem prime_1853641 : Nat.Prime 1853641 :=
  of_certificate 1853641 17 [2, 2, 2, 3, 3, 5, 19, 271]
    (by
      simp only [List.forall_mem_cons, List.not_mem_nil, false_imp_iff, implies_true, and_true]
      exact ⟨by norm_num, by norm_num, by norm_num, by norm_num, by norm_num, by norm_num, by norm_num, by norm_num⟩)
    (by decide +kernel) (by decide +kernel) (by decide +kernel)

theorem prime_4562087 : Nat.Prime 4562087 :=
  of_certificate 4562087 5 [2, 17, 109, 1231]
    (by
      simp only [List.forall_mem_cons, List.not_mem_nil, false_imp_iff, implies_true, and_true]
      exact ⟨by norm_num, by norm_num, by norm_num, by norm_num⟩)
    (by decide +kernel) (by decide +kernel) (by decide +kernel)

theorem prime_13327 : Nat.Prime 13327 :=
  of_certificate 13327 3 [2, 3, 2221]
    (by
      simp only [List.forall_mem_cons, List.not_mem_nil, false_imp_iff, implies_true, and_true]
      exact ⟨by norm_num, by norm_num, by norm_num⟩)
    (by decide +kernel) (by decide +kernel) (by decide +kernel)

theorem prime_173171039 : Nat.Prime 173171039 :=
  of_certificate 173171039 13 [2, 73, 89, 13327]
    (by
      simp only [List.forall_mem_cons, List.not_mem_nil, false_imp_iff, implies_true, and_true]
      exact ⟨by norm_num, by norm_num, by norm_num, prime_13327⟩)
    (by decide +kernel) (by decide +kernel) (by decide +kernel)

theorem prime_1263766531 : Nat.Prime 1263766531 :=
  of_certificate 1263766531 10 [2, 3, 5, 13, 911, 3557]
    (by
      simp only [List.forall_mem_cons, List.not_mem_nil, false_imp_iff, implies_true, and_true]
      exact ⟨by norm_num, by norm_num, by norm_num, by norm_num, by norm_num, by norm_num⟩)
    (by decide +kernel) (by decide +kernel) (by decide +kernel)

theorem prime_35385462869 : Nat.Prime 35385462869 :=
  of_certificate 35385462869 2 [2, 2, 7, 1263766531]
    (by
      simp only [List.forall_mem_cons, List.not_mem_nil, false_imp_iff, implies_true, and_true]
      exact ⟨by norm_num, by norm_num, by norm_num, prime_1263766531⟩)
    (by decide +kernel) (by decide +kernel) (by decide +kernel)

theorem prime_2480874801745591 : Nat.Prime 2480874801745591 :=
  of_certificate 2480874801745591 6 [2, 3, 3, 5, 19, 41, 35385462869]
    (by
      simp only [List.forall_mem_cons, List.not_mem_nil, false_imp_iff, implies_true, and_true]
      exact ⟨by norm_num, by norm_num, by norm_num, by norm_num, by norm_num, by norm_num, prime_35385462869⟩)
    (by decide +kernel) (by decide +kernel) (by decide +kernel)

theorem prime_13427688667394608761327070753331941386769 : Nat.Prime 13427688667394608761327070753331941386769 :=
  of_certificate 13427688667394608761327070753331941386769 17 [2, 2, 2, 2, 3, 7, 11, 1853641, 4562087, 173171039, 2480874801745591]
    (by
      simp only [List.forall_mem_cons, List.not_mem_nil, false_imp_iff, implies_true, and_true]
      exact ⟨by norm_num, by norm_num, by norm_num, by norm_num, by norm_num, by norm_num, by norm_num, prime_1853641, prime_4562087, prime_173171039, prime_2480874801745591⟩)
    (by decide +kernel) (by decide +kernel) (by decide +kernel)

theorem prime_21888242871839275222246405745257275088696311157297823662689037894645226208583 : Nat.Prime 21888242871839275222246405745257275088696311157297823662689037894645226208583 :=
  of_certificate 21888242871839275222246405745257275088696311157297823662689037894645226208583 3 [2, 3, 3, 13, 29, 67, 229, 311, 983, 11003, 405928799, 11465965001, 13427688667394608761327070753331941386769]
    (by
      simp only [List.forall_mem_cons, List.not_mem_nil, false_imp_iff, implies_true, and_true]
      exact ⟨by norm_num, by norm_num, by norm_num, by norm_num, by norm_num, by norm_num, by norm_num, by norm_num, by norm_num, prime_11003, prime_405928799, prime_11465965001, prime_13427688667394608761327070753331941386769⟩)
    (by decide +kernel) (by decide +kernel) (by decide +kernel)

theorem prime_237073 : Nat.Prime 237073 :=
  of_certificate 237073 15 [2, 2, 2, 2, 3, 11, 449]
    (by
      simp only [List.forall_mem_cons, List.not_mem_nil, false_imp_iff, implies_true, and_true]
      exact ⟨by norm_num, by norm_num, by norm_num, by norm_num, by norm_num, by norm_num, by norm_num⟩)
    (by decide +kernel) (by decide +kernel) (by decide +kernel)

theorem prime_93001 : Nat.Prime 93001 :=
  of_certificate 93001 14 [2, 2, 2, 3, 5, 5, 5, 31]
    (by
      simp only [List.forall_mem_cons, List.not_mem_nil, false_imp_iff, implies_true, and_true]
      exact ⟨by norm_num, by norm_num, by norm_num, by norm_num, by norm_num, by norm_num, by norm_num, by norm_num⟩)
    (by decide +kernel) (by decide +kernel) (by decide +kernel)

theorem prime_12048837557 : Nat.Prime 12048837557 :=
  of_certificate 12048837557 2 [2, 2, 7, 7, 661, 93001]
    (by
      simp only [List.forall_mem_cons, List.not_mem_nil, false_imp_iff, implies_true, and_true]
      exact ⟨by norm_num, by norm_num, by norm_num, by norm_num, by norm_num, prime_93001⟩)
    (by decide +kernel) (by decide +kernel) (by decide +kernel)

theorem prime_5156902474397 : Nat.Prime 5156902474397 :=
  of_certificate 5156902474397 2 [2, 2, 107, 12048837557]
    (by
      simp only [List.forall_mem_cons, List.not_mem_nil, false_imp_iff, implies_true, and_true]
      exact ⟨by norm_num, by norm_num, by norm_num, prime_12048837557⟩)
    (by decide +kernel) (by decide +kernel) (by decide +kernel)

theorem prime_1670836401704629 : Nat.Prime 1670836401704629 :=
  of_certificate 1670836401704629 2 [2, 2, 3, 3, 3, 3, 5156902474397]
    (by
      simp only [List.forall_mem_cons, List.not_mem_nil, false_imp_iff, implies_true, and_true]
      exact ⟨by norm_num, by norm_num, by norm_num, by norm_num, by norm_num, by norm_num, prime_5156902474397⟩)
    (by decide +kernel) (by decide +kernel) (by decide +kernel)

theorem prime_20963 : Nat.Prime 20963 :=
  of_certificate 20963 2 [2, 47, 223]
    (by
      simp only [List.forall_mem_cons, List.not_mem_nil, false_imp_iff, implies_true, and_true]
      exact ⟨by norm_num, by norm_num, by norm_num⟩)
    (by decide +kernel) (by decide +kernel) (by decide +kernel)

theorem prime_41927 : Nat.Prime 41927 :=
  of_certificate 41927 5 [2, 20963]
    (by
      simp only [List.forall_mem_cons, List.not_mem_nil, false_imp_iff, implies_true, and_true]
      exact ⟨by norm_num, prime_20963⟩)
    (by decide +kernel) (by decide +kernel) (by decide +kernel)

theorem prime_1593227 : Nat.Prime 1593227 :=
  of_certificate 1593227 2 [2, 19, 41927]
    (by
      simp only [List.forall_mem_cons, List.not_mem_nil, false_imp_iff, implies_true, and_true]
      exact ⟨by norm_num, by norm_num, prime_41927⟩)
    (by decide +kernel) (by decide +kernel) (by decide +kernel)

theorem prime_639533339 : Nat.Prime 639533339 :=
  of_certificate 639533339 2 [2, 229, 853, 1637]
    (by
      simp only [List.forall_mem_cons, List.not_mem_nil, false_imp_iff, implies_true, and_true]
      exact ⟨by norm_num, by norm_num, by norm_num, by norm_num⟩)
    (by decide +kernel) (by decide +kernel) (by decide +kernel)

theorem prime_65865678001877903 : Nat.Prime 65865678001877903 :=
  of_certificate 65865678001877903 5 [2, 83, 379, 1637, 639533339]
    (by
      simp only [List.forall_mem_cons, List.not_mem_nil, false_imp_iff, implies_true, and_true]
      exact ⟨by norm_num, by norm_num, by norm_num, by norm_num, prime_639533339⟩)
    (by decide +kernel) (by decide +kernel) (by decide +kernel)

theorem prime_13818364434197438864469338081 : Nat.Prime 13818364434197438864469338081 :=
  of_certificate 13818364434197438864469338081 3 [2, 2, 2, 2, 2, 5, 823, 1593227, 65865678001877903]
    (by
      simp only [List.forall_mem_cons, List.not_mem_nil, false_imp_iff, implies_true, and_true]
      exact ⟨by norm_num, by norm_num, by norm_num, by norm_num, by norm_num, by norm_num, by norm_num, prime_1593227, prime_65865678001877903⟩)
    (by decide +kernel) (by decide +kernel) (by decide +kernel)

theorem prime_21888242871839275222246405745257275088548364400416034343698204186575808495617 : Nat.Prime 21888242871839275222246405745257275088548364400416034343698204186575808495617 :=
  of_certificate 21888242871839275222246405745257275088548364400416034343698204186575808495617 5 [2, 2, 2, 2, 2, 2, 2, 2, 2, 2, 2, 2, 2, 2, 2, 2, 2, 2, 2, 2, 2, 2, 2, 2, 2, 2, 2, 2, 3, 3, 13, 29, 983, 11003, 237073, 405928799, 1670836401704629, 13818364434197438864469338081]
    (by
      simp only [List.forall_mem_cons, List.not_mem_nil, false_imp_iff, implies_true, and_true]
      exact ⟨by norm_num, by norm_num, by norm_num, by norm_num, by norm_num, by norm_num, by norm_num, by norm_num, by norm_num, by norm_num, by norm_num, by norm_num, by norm_num, by norm_num, by norm_num, by norm_num, by norm_num, by norm_num, by norm_num, by norm_num, by norm_num, by norm_num, by norm_num, by norm_num, by norm_num, by norm_num, by norm_num, by norm_num, by norm_num, by norm_num, by norm_num, by norm_num, by norm_num, prime_11003, prime_237073, prime_405928799, prime_1670836401704629, prime_13818364434197438864469338081⟩)
    (by decide +kernel) (by decide +kernel) (by decide +kernel)

end Silkworm.Primality
