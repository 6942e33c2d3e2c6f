import Verif.Crypto.Ethash
import Verif.Crypto.KeccakLemmas
import Verif.Spec.Ethash

namespace Silkworm.Ethash

open Keccak (keccak256 keccak512)
open Spec.Keccak (number)
open Spec.Ethash (serialize deserialize fnv)

/-! The words of a hash -/

theorem words_cons {n : Nat} (hn : 0 < n) {x y : Bytes} (hx : x.length = n) : words n (x ++ y) = number x :: words n y := by
  unfold words
  rw [List.length_append, hx, Nat.add_div_left _ hn, List.range_succ_eq_map, List.map_cons, List.map_map]
  congr 1
  · rw [Nat.mul_zero, List.drop_zero, ← hx, List.take_left, Keccak.beToNat_reverse]
  · apply List.map_congr_left
    intro i _
    simp only [Function.comp, Nat.succ_eq_add_one, Nat.mul_succ]
    rw [Nat.add_comm, ← List.drop_drop, ← hx, List.drop_left]

theorem words_nil (n : Nat) : words n [] = [] := by simp [words]

/-- Induction over whole words. -/
theorem chunk_induction {n : Nat} {P : Bytes → Prop} (h0 : P []) (h1 : ∀ x y : Bytes, x.length = n → P y → P (x ++ y)) :
    ∀ k (b : Bytes), b.length = n * k → P b
  | 0, b, h => by
    have : b = [] := List.length_eq_zero_iff.mp (by simpa using h)
    rw [this]; exact h0
  | k + 1, b, h => by
    rw [Nat.mul_succ] at h
    rw [← List.take_append_drop n b]
    exact h1 _ _ (by rw [List.length_take]; omega) (chunk_induction h0 h1 k _ (by rw [List.length_drop]; omega))

theorem length4 {x : Bytes} (h : x.length = 4) : ∃ a b c d, x = [a, b, c, d] := by
  match x, h with
  | [a, b, c, d], _ => exact ⟨a, b, c, d, rfl⟩

theorem words_eq (k : Nat) (b : Bytes) (h : b.length = 4 * k) : words 4 b = deserialize b := by
  refine chunk_induction (n := 4) (P := fun b => words 4 b = deserialize b) ?_ ?_ k b h
  · rw [words_nil]; rfl
  · intro x y hx ih
    rw [words_cons (by decide) hx, ih]
    obtain ⟨a, b, c, d, rfl⟩ := length4 hx
    rfl

theorem number_beFixed (n w : Nat) : number (beFixed n w).reverse = w % 256 ^ n := by
  induction n generalizing w with
  | zero => simp [beFixed, number, Nat.mod_one]
  | succ n ih =>
    rw [beFixed, List.reverse_append, List.reverse_singleton, List.singleton_append, number, ih, Nat.pow_succ', Nat.mod_mul]
    congr 1
    rw [UInt8.toNat_ofNat']; omega

theorem beFixed_number : ∀ x : Bytes, (beFixed x.length (number x)).reverse = x
  | [] => rfl
  | a :: x => by
    have ha : a.toNat < 256 := a.toNat_lt
    rw [List.length_cons, beFixed, List.reverse_append, List.reverse_singleton, List.singleton_append, number,
      show (a.toNat + 256 * number x) / 256 = number x by omega, beFixed_number x,
      show (a.toNat + 256 * number x) % 256 = a.toNat by omega, UInt8.ofNat_toNat]

theorem length_beFixed (n w : Nat) : (beFixed n w).length = n := by
  induction n generalizing w with
  | zero => rfl
  | succ n ih => rw [beFixed, List.length_append, ih]; rfl

theorem ofWords_cons (n w : Nat) (ws : List Nat) : ofWords n (w :: ws) = (beFixed n w).reverse ++ ofWords n ws := rfl

theorem ofWords_words {n : Nat} (hn : 0 < n) (k : Nat) (b : Bytes) (h : b.length = n * k) : ofWords n (words n b) = b := by
  refine chunk_induction (P := fun b => ofWords n (words n b) = b) ?_ ?_ k b h
  · rw [words_nil]; rfl
  · intro x y hx ih
    rw [words_cons hn hx, ofWords_cons, ih]
    congr 1
    rw [← hx, beFixed_number]

theorem words_ofWords {n : Nat} (hn : 0 < n) : ∀ ws : List Nat, (∀ w ∈ ws, w < 256 ^ n) → words n (ofWords n ws) = ws
  | [], _ => words_nil n
  | w :: ws, h => by
    rw [ofWords_cons, words_cons hn (by rw [List.length_reverse, length_beFixed]), number_beFixed,
      Nat.mod_eq_of_lt (h w (List.mem_cons_self ..)), words_ofWords hn ws (fun x hx => h x (List.mem_cons_of_mem _ hx))]

theorem length_ofWords (n : Nat) : ∀ ws : List Nat, (ofWords n ws).length = n * ws.length
  | [] => rfl
  | w :: ws => by
    rw [ofWords_cons, List.length_append, List.length_reverse, length_beFixed, length_ofWords n ws, List.length_cons, Nat.mul_succ,
      Nat.add_comm]

theorem ofWords_eq (ws : List Nat) : ofWords 4 ws = serialize ws := by
  unfold ofWords serialize
  apply congrArg (fun f => List.flatMap f ws)
  funext w
  simp [beFixed, Nat.div_div_eq_div_mul]

theorem words_lt {n : Nat} (b : Bytes) : ∀ w ∈ words n b, w < 256 ^ n := by
  intro w hw
  obtain ⟨i, _, rfl⟩ := List.mem_map.mp hw
  rw [Keccak.beToNat_reverse]
  refine Nat.lt_of_lt_of_le (Keccak.number_lt _) (Nat.pow_le_pow_right (by decide) ?_)
  rw [List.length_take]; omega

theorem length_words (n : Nat) (b : Bytes) : (words n b).length = b.length / n := by simp [words]

/-! Exclusive or -/

theorem number_xor : ∀ a b : Bytes, a.length = b.length → number (List.zipWith (· ^^^ ·) a b) = number a ^^^ number b
  | [], [], _ => rfl
  | x :: a, y :: b, h => by
    have hx : x.toNat < 256 := x.toNat_lt
    have hy : y.toNat < 256 := y.toNat_lt
    rw [List.zipWith_cons_cons, number, number, number, number_xor a b (by simpa using h), UInt8.toNat_xor]
    generalize number a = p
    generalize number b = q
    generalize x.toNat = u at *
    generalize y.toNat = v at *
    have h8 : (256 : Nat) = 2 ^ 8 := rfl
    have huv : u ^^^ v < 2 ^ 8 := Nat.xor_lt_two_pow (by omega) (by omega)
    rw [h8] at *
    rw [Nat.add_comm u, Nat.add_comm v, Nat.add_comm (u ^^^ v)]
    apply Nat.eq_of_testBit_eq
    intro i
    rw [Nat.testBit_xor, Nat.testBit_two_pow_mul_add _ huv, Nat.testBit_two_pow_mul_add _ hx, Nat.testBit_two_pow_mul_add _ hy]
    by_cases hi : i < 8
    · simp only [if_pos hi, Nat.testBit_xor]
    · simp only [if_neg hi, Nat.testBit_xor]

theorem xor_words {n : Nat} (hn : 0 < n) (k : Nat) : ∀ (x y : Bytes), x.length = n * k → y.length = n * k →
    ofWords n (List.zipWith (· ^^^ ·) (words n x) (words n y)) = List.zipWith (· ^^^ ·) x y := by
  induction k with
  | zero =>
    intro x y hx hy
    have e1 : x = [] := List.length_eq_zero_iff.mp (by simpa using hx)
    subst e1
    rw [words_nil]; rfl
  | succ k ih =>
    intro x y hx hy
    rw [Nat.mul_succ] at hx hy
    have a1 : (x.take n).length = n := by rw [List.length_take]; omega
    have a2 : (y.take n).length = n := by rw [List.length_take]; omega
    rw [← List.take_append_drop n x, ← List.take_append_drop n y, words_cons hn a1, words_cons hn a2, List.zipWith_cons_cons,
      ofWords_cons, ih _ _ (by rw [List.length_drop]; omega) (by rw [List.length_drop]; omega), ← number_xor _ _ (by rw [a1, a2]),
      List.zipWith_append (by rw [a1, a2])]
    congr 1
    have hl : (List.zipWith (· ^^^ ·) (x.take n) (y.take n)).length = n := by rw [List.length_zipWith, a1, a2, Nat.min_self]
    have hb := beFixed_number (List.zipWith (· ^^^ ·) (x.take n) (y.take n))
    rw [hl] at hb
    exact hb

theorem words_xor512 {x y : Bytes} (hx : x.length = 64) (hy : y.length = 64) :
    words 4 (xor512 x y) = List.zipWith (· ^^^ ·) (words 4 x) (words 4 y) := by
  unfold xor512
  rw [xor_words (by decide) 8 x y hx hy, ← xor_words (n := 4) (by decide) 16 x y hx hy, words_ofWords (by decide)]
  intro w hw
  obtain ⟨i, hi, rfl⟩ := List.getElem_of_mem hw
  rw [List.getElem_zipWith, show 256 ^ 4 = 2 ^ 32 from rfl]
  exact Nat.xor_lt_two_pow (words_lt (n := 4) x _ (List.getElem_mem _)) (words_lt (n := 4) y _ (List.getElem_mem _))

theorem length_xor512 {x y : Bytes} (hx : x.length = 64) (hy : y.length = 64) : (xor512 x y).length = 64 := by
  unfold xor512
  rw [length_ofWords, List.length_zipWith, length_words, length_words, hx, hy]; rfl

/-! FNV -/

theorem mod_xor (p v n : Nat) (hv : v < 2 ^ n) : p % 2 ^ n ^^^ v = (p ^^^ v) % 2 ^ n := by
  rw [Nat.xor_mod_two_pow, Nat.mod_eq_of_lt hv]

theorem fnv1_eq (u v : Nat) (hv : v < 2 ^ 32) : fnv1 u v = fnv u v := by
  unfold fnv1 fnv fnvPrime
  generalize u * 0x01000193 = p
  exact mod_xor p v 32 hv

theorem fnv_lt (u v : Nat) : fnv u v < 2 ^ 32 := Nat.mod_lt _ (by decide)

theorem zipWith_fnv : ∀ (a b : List Nat), (∀ w ∈ b, w < 2 ^ 32) → List.zipWith fnv1 a b = List.zipWith fnv a b
  | [], _, _ => by rw [List.zipWith_nil_left, List.zipWith_nil_left]
  | _ :: _, [], _ => by rw [List.zipWith_nil_right, List.zipWith_nil_right]
  | x :: a, y :: b, h => by
    rw [List.zipWith_cons_cons, List.zipWith_cons_cons, fnv1_eq x y (h y (List.mem_cons_self ..)),
      zipWith_fnv a b (fun w hw => h w (List.mem_cons_of_mem _ hw))]

theorem zipWith_fnv_lt (a b : List Nat) : ∀ w ∈ List.zipWith fnv a b, w < 2 ^ 32 := by
  intro w hw
  obtain ⟨i, hi, rfl⟩ := List.getElem_of_mem hw
  rw [List.getElem_zipWith]
  exact fnv_lt _ _

theorem words_fnv (a b : Bytes) : words 4 (ofWords 4 (List.zipWith fnv1 (words 4 a) (words 4 b))) =
    List.zipWith fnv (words 4 a) (words 4 b) := by
  rw [zipWith_fnv _ _ (fun w hw => words_lt (n := 4) b w hw), words_ofWords (by decide) _ (zipWith_fnv_lt _ _)]

theorem length_fnv {a b : Bytes} {k : Nat} (ha : a.length = 4 * k) (hb : b.length = 4 * k) :
    (ofWords 4 (List.zipWith fnv1 (words 4 a) (words 4 b))).length = 4 * k := by
  rw [length_ofWords, List.length_zipWith, length_words, length_words, ha, hb, Nat.mul_div_cancel_left _ (by decide), Nat.min_self]

/-! Keccak -/

theorem length_keccak512 (m : Bytes) : (keccak512 m).length = 64 := by
  rw [Keccak.keccak512_eq]; simp [Spec.Keccak.keccak512, Spec.Keccak.sponge]

theorem length_keccak256 (m : Bytes) : (keccak256 m).length = 32 := by
  rw [Keccak.keccak256_eq]; simp [Spec.Keccak.keccak256, Spec.Keccak.sponge]

theorem words_keccak512 (m : Bytes) : words 4 (keccak512 m) = Spec.Ethash.hash512 m := by
  unfold Spec.Ethash.hash512
  rw [words_eq 16 _ (length_keccak512 m), Keccak.keccak512_eq]

end Silkworm.Ethash
