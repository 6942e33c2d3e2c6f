import Verif.Common.TextLemmas

/-!
# Lemmas about splitting
-/

namespace Silkworm

open Spec

/-- `find` finds the delimiter, and not in what comes before it. -/
theorem findSub_some {d s : Bytes} {n : Nat} (h : findSub d s = some n) :
    s = s.take n ++ d ++ s.drop (n + d.length) ∧ n + d.length ≤ s.length ∧
      ∀ x y, s = x ++ d ++ y → n ≤ x.length := by
  induction s generalizing n with
  | nil =>
    unfold findSub at h
    split at h
    · rename_i hd
      have := Option.some.inj h
      subst this
      subst hd
      exact ⟨rfl, Nat.le_refl _, fun _ _ _ => Nat.zero_le _⟩
    · cases h
  | cons c s ih =>
    unfold findSub at h
    split at h
    · rename_i hp
      have := Option.some.inj h
      subst this
      obtain ⟨t, ht⟩ := List.isPrefixOf_iff_prefix.mp hp
      rw [← ht]
      refine ⟨?_, by simp, fun _ _ _ => Nat.zero_le _⟩
      simp
    · rename_i hp
      obtain ⟨m, hm, rfl⟩ := Option.map_eq_some_iff.mp h
      obtain ⟨h1, h2, h3⟩ := ih hm
      refine ⟨?_, by rw [List.length_cons]; omega, fun x y hxy => ?_⟩
      · rw [List.take_succ_cons, show m + 1 + d.length = m + d.length + 1 by omega, List.drop_succ_cons, List.cons_append,
          List.cons_append, ← h1]
      · cases x with
        | nil =>
          exfalso
          apply hp
          rw [List.isPrefixOf_iff_prefix]
          exact ⟨y, by simpa using hxy.symm⟩
        | cons e x =>
          rw [List.cons_append, List.cons_append] at hxy
          have := h3 x y (List.cons.inj hxy).2
          rw [List.length_cons]
          omega

theorem findSub_none {d s : Bytes} (h : findSub d s = none) : ¬ Contains d s := by
  induction s with
  | nil =>
    unfold findSub at h
    split at h
    · cases h
    · rename_i hd
      rintro ⟨x, y, hxy⟩
      have := congrArg List.length hxy
      simp only [List.length_nil, List.length_append] at this
      exact hd (List.length_eq_zero_iff.mp (by omega))
  | cons c s ih =>
    unfold findSub at h
    split at h
    · cases h
    · rename_i hp
      rintro ⟨x, y, hxy⟩
      cases x with
      | nil => exact hp (List.isPrefixOf_iff_prefix.mpr ⟨y, by simpa using hxy.symm⟩)
      | cons e x =>
        rw [List.cons_append, List.cons_append] at hxy
        exact ih (Option.map_eq_none_iff.mp h) ⟨x, y, (List.cons.inj hxy).2⟩

theorem joinWith_cons {d p : Bytes} {ps : List Bytes} (h : ps ≠ []) : joinWith d (p :: ps) = p ++ d ++ joinWith d ps := by
  cases ps with
  | nil => exact absurd rfl h
  | cons q qs => rfl

/-- The parts in terms of the text. -/
theorem splitLoop_spec {d : Bytes} (hd : d ≠ []) (n : Nat) (s : Bytes) (hn : s.length ≤ n) :
    (∀ p ∈ splitLoop d n s, ¬ Contains d p) ∧
    (s ≠ [] → splitLoop d n s ≠ [] ∧
      (joinWith d (splitLoop d n s) = s ∨ joinWith d (splitLoop d n s) ++ d = s)) ∧
    (s = [] → splitLoop d n s = []) := by
  induction n generalizing s with
  | zero =>
    have : s = [] := List.length_eq_zero_iff.mp (by omega)
    subst this
    exact ⟨fun p hp => absurd hp (by simp [splitLoop]), fun h => absurd rfl h, fun _ => rfl⟩
  | succ n ih =>
    unfold splitLoop
    cases hf : findSub d s with
    | none =>
      dsimp only
      by_cases h0 : s = []
      · rw [if_pos h0]
        exact ⟨fun p hp => absurd hp (by simp), fun h => absurd h0 h, fun _ => rfl⟩
      · rw [if_neg h0]
        refine ⟨fun p hp => ?_, fun _ => ⟨by simp, .inl rfl⟩, fun h => absurd h h0⟩
        rw [List.mem_singleton.mp hp]
        exact findSub_none hf
    | some pos =>
      dsimp only
      obtain ⟨h1, h2, h3⟩ := findSub_some hf
      have hd0 : 0 < d.length := by
        rcases Nat.eq_zero_or_pos d.length with h | h
        · exact absurd (List.length_eq_zero_iff.mp h) hd
        · exact h
      have hl : (s.drop (pos + d.length)).length ≤ n := by rw [List.length_drop]; omega
      obtain ⟨i1, i2, i3⟩ := ih _ hl
      refine ⟨fun p hp => ?_, fun _ => ⟨by simp, ?_⟩, fun h => ?_⟩
      · rcases List.mem_cons.mp hp with rfl | hp
        · rintro ⟨x, y, hxy⟩
          have := h3 x (y ++ (d ++ s.drop (pos + d.length))) (by
            rw [← List.append_assoc, ← hxy, ← List.append_assoc]
            exact h1)
          have hlen := congrArg List.length hxy
          rw [List.length_take, List.length_append, List.length_append] at hlen
          omega
        · exact i1 p hp
      · by_cases hr : s.drop (pos + d.length) = []
        · rw [i3 hr]
          right
          rw [hr, List.append_nil] at h1
          exact h1.symm
        · obtain ⟨j1, j2⟩ := i2 hr
          rw [joinWith_cons j1]
          rcases j2 with j2 | j2
          · left
            rw [j2]; exact h1.symm
          · right
            rw [List.append_assoc, j2]; exact h1.symm
      · rw [h] at h2
        rw [List.length_nil] at h2
        omega

/-- Enough rounds are enough. -/
theorem splitLoop_rounds {d : Bytes} (hd : d ≠ []) (n m : Nat) (s : Bytes) (hn : s.length ≤ n) (hm : s.length ≤ m) :
    splitLoop d n s = splitLoop d m s := by
  induction n generalizing m s with
  | zero =>
    have : s = [] := List.length_eq_zero_iff.mp (by omega)
    subst this
    rw [(splitLoop_spec hd 0 [] (Nat.zero_le _)).2.2 rfl, (splitLoop_spec hd m [] (Nat.zero_le _)).2.2 rfl]
  | succ n ih =>
    cases m with
    | zero =>
      have : s = [] := List.length_eq_zero_iff.mp (by omega)
      subst this
      rw [(splitLoop_spec hd _ [] (Nat.zero_le _)).2.2 rfl, (splitLoop_spec hd 0 [] (Nat.zero_le _)).2.2 rfl]
    | succ m =>
      unfold splitLoop
      cases hf : findSub d s with
      | none => rfl
      | some pos =>
        dsimp only
        have hd0 : 0 < d.length := by
          rcases Nat.eq_zero_or_pos d.length with h | h
          · exact absurd (List.length_eq_zero_iff.mp h) hd
          · exact h
        have := (findSub_some hf).2.1
        rw [ih m _ (by rw [List.length_drop]; omega) (by rw [List.length_drop]; omega)]

/-! ## Delimiters of one character -/

theorem findSub_single {c : UInt8} {x y : Bytes} (h : c ∉ x) : findSub [c] (x ++ c :: y) = some x.length := by
  induction x with
  | nil =>
    rw [List.nil_append]
    unfold findSub
    simp
  | cons e x ih =>
    rw [List.cons_append]
    unfold findSub
    have he : e ≠ c := fun he => h (by rw [he]; exact List.mem_cons_self)
    rw [if_neg (by simp [Ne.symm he]), ih (fun hx => h (List.mem_cons_of_mem _ hx))]
    rfl

/-- Text that begins with a part. -/
theorem splitLoop_part {c : UInt8} {x y : Bytes} (h : c ∉ x) (n : Nat) (hn : x.length + y.length + 1 ≤ n) :
    splitLoop [c] n (x ++ c :: y) = x :: splitLoop [c] n y := by
  cases n with
  | zero => omega
  | succ n =>
    rw [splitLoop_rounds (d := [c]) (by simp) (n + 1) n y (by omega) (by omega)]
    conv => lhs; unfold splitLoop
    rw [findSub_single h]
    dsimp only
    rw [List.take_left' rfl, show (x ++ c :: y).drop (x.length + [c].length) = y by
      rw [show x ++ c :: y = (x ++ [c]) ++ y by simp]
      exact List.drop_left' (by simp)]

/-- The parts of a text that ends with the delimiter, each of which the delimiter follows. -/
theorem splitLoop_ended (c : UInt8) (n : Nat) : ∀ (k : Nat) (b y : Bytes), b.length ≤ k → b.length + y.length + 1 ≤ n →
    ∃ ps, ps ≠ [] ∧ splitLoop [c] n (b ++ c :: y) = ps ++ splitLoop [c] n y ∧ ps.flatMap (fun t => t ++ [c]) = b ++ [c] := by
  intro k
  induction k with
  | zero =>
    intro b y hk hn
    have : b = [] := List.length_eq_zero_iff.mp (by omega)
    subst this
    refine ⟨[[]], by simp, ?_, by simp⟩
    exact splitLoop_part (x := []) (by simp) n (by simpa using hn)
  | succ k ih =>
    intro b y hk hn
    by_cases hb : c ∈ b
    · obtain ⟨x, z, rfl, hx⟩ := List.eq_append_cons_of_mem hb
      rw [List.length_append, List.length_cons] at hk hn
      obtain ⟨ps, h1, h2, h3⟩ := ih z y (by omega) (by omega)
      refine ⟨x :: ps, by simp, ?_, ?_⟩
      · rw [List.append_assoc, List.cons_append, splitLoop_part hx n (by
          rw [List.length_append, List.length_cons]; omega), h2, List.cons_append]
      · rw [List.flatMap_cons, h3]
        simp
    · exact ⟨[b], by simp, splitLoop_part hb n hn, by simp⟩

end Silkworm
