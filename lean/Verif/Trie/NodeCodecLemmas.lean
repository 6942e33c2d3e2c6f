import Verif.Trie.NodeCodec
import Verif.Base.BytesLemmas

/-!
# Lemmas about the database form of trie nodes
-/

namespace Silkworm.Trie

theorem splitHashes_flatten : ∀ {hs : List Bytes}, (∀ h ∈ hs, h.length = 32) → splitHashes hs.length hs.flatten = hs
  | [], _ => rfl
  | h :: hs, hl => by
    have h1 := hl h (List.mem_cons_self ..)
    show (h ++ hs.flatten).take 32 :: splitHashes hs.length ((h ++ hs.flatten).drop 32) = h :: hs
    rw [← h1, List.take_left, List.drop_left, splitHashes_flatten (fun x hx => hl x (List.mem_cons_of_mem _ hx))]

theorem flatten_length : ∀ {hs : List Bytes}, (∀ h ∈ hs, h.length = 32) → hs.flatten.length = 32 * hs.length
  | [], _ => rfl
  | h :: hs, hl => by
    rw [List.flatten_cons, List.length_append, flatten_length (fun x hx => hl x (List.mem_cons_of_mem _ hx)),
      hl h (List.mem_cons_self ..), List.length_cons]
    omega

theorem splitHashes_spec : ∀ {n : Nat} {v : Bytes}, v.length = 32 * n →
    (splitHashes n v).flatten = v ∧ (splitHashes n v).length = n ∧ ∀ h ∈ splitHashes n v, h.length = 32
  | 0, v, h => by
    have : v = [] := List.length_eq_zero_iff.mp (by omega)
    subst this
    exact ⟨rfl, rfl, fun h hh => by cases hh⟩
  | n + 1, v, h => by
    have ih := splitHashes_spec (n := n) (v := v.drop 32) (by rw [List.length_drop]; omega)
    refine ⟨?_, ?_, ?_⟩
    · show v.take 32 ++ (splitHashes n (v.drop 32)).flatten = v
      rw [ih.1, List.take_append_drop]
    · show (splitHashes n (v.drop 32)).length + 1 = n + 1
      rw [ih.2.1]
    · intro x hx
      rcases List.mem_cons.mp hx with rfl | hx
      · rw [List.length_take]; omega
      · exact ih.2.2 x hx

theorem constructNode_ok {a b c : Nat} {hs : List Bytes} {r : Option Bytes} {n : Node}
    (h : constructNode a b c hs r = .ok n) :
    n = ⟨a, b, c, hs, r⟩ ∧ subset b a = true ∧ subset c a = true ∧ popcount c = hs.length := by
  unfold constructNode mkNode at h
  by_cases hc : (subset b a && subset c a && popcount c == hs.length) = true
  · rw [if_pos hc] at h
    cases h
    simp only [Bool.and_eq_true, beq_iff_eq] at hc
    exact ⟨rfl, hc.1.1, hc.1.2, hc.2⟩
  · rw [if_neg hc] at h
    cases h

theorem constructNode_valid {a b c : Nat} {hs : List Bytes} {r : Option Bytes} (h1 : subset b a = true)
    (h2 : subset c a = true) (h3 : popcount c = hs.length) : constructNode a b c hs r = .ok ⟨a, b, c, hs, r⟩ := by
  unfold constructNode mkNode
  rw [if_pos (by simp [h1, h2, h3])]

theorem constructNode_cases (a b c : Nat) (hs : List Bytes) (r : Option Bytes) :
    (∃ n, constructNode a b c hs r = .ok n) ∨ constructNode a b c hs r = .ub := by
  unfold constructNode
  cases mkNode a b c hs r
  · exact Or.inl ⟨_, rfl⟩
  · rename_i e; cases e
  · exact Or.inr rfl

/-- Six bytes, then the rest. -/
theorem masks_take {a b c : Nat} (ha : a < 2 ^ 16) (hb : b < 2 ^ 16) (hc : c < 2 ^ 16) (rest : Bytes) :
    let v := beFixed 2 a ++ beFixed 2 b ++ beFixed 2 c ++ rest
    beToNat (v.take 2) = a ∧ beToNat ((v.drop 2).take 2) = b ∧ beToNat ((v.drop 4).take 2) = c ∧ v.drop 6 = rest := by
  have e : ∀ n, n < 2 ^ 16 → beToNat (beFixed 2 n) = n := fun n hn => beToNat_beFixed (by omega)
  refine ⟨?_, ?_, ?_, ?_⟩
  · rw [List.append_assoc, List.append_assoc, List.take_left' (by simp), e a ha]
  · rw [List.append_assoc, List.append_assoc, List.drop_left' (by simp), List.take_left' (by simp), e b hb]
  · rw [List.append_assoc, List.drop_left' (by simp), List.take_left' (by simp), e c hc]
  · rw [List.drop_left' (by simp)]

theorem masks_of_bytes {v : Bytes} (h : 6 ≤ v.length) :
    beFixed 2 (beToNat (v.take 2)) ++ beFixed 2 (beToNat ((v.drop 2).take 2)) ++ beFixed 2 (beToNat ((v.drop 4).take 2)) ++
      v.drop 6 = v := by
  have e : ∀ b : Bytes, b.length = 2 → beFixed 2 (beToNat b) = b := fun b hb => by
    have := beFixed_beToNat b
    rwa [hb] at this
  rw [e _ (by rw [List.length_take]; omega), e _ (by rw [List.length_take, List.length_drop]; omega),
    e _ (by rw [List.length_take, List.length_drop]; omega)]
  have h1 : v.drop 4 = (v.drop 2).drop 2 := by rw [List.drop_drop]
  have h2 : v.drop 6 = (v.drop 4).drop 2 := by rw [List.drop_drop]
  rw [h2, List.append_assoc, List.take_append_drop, List.append_assoc, h1, List.take_append_drop, List.take_append_drop]

theorem mask_lt (v : Bytes) : beToNat (v.take 2) < 2 ^ 16 := by
  have h := beToNat_lt (v.take 2)
  have : 256 ^ (v.take 2).length ≤ 256 ^ 2 := Nat.pow_le_pow_right (by omega) (by rw [List.length_take]; omega)
  have h3 : (256 : Nat) ^ 2 = 2 ^ 16 := by decide
  omega

end Silkworm.Trie
