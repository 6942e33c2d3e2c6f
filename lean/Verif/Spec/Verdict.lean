import Verif.Base.Outcome

/-!
# Verdicts against a list of rules

`Verdict rules o` says that `o` is the right outcome of checking the rules in order: the error code of the first rule
that does not hold, or success if all hold.
-/

namespace Silkworm.Spec

/-- The outcome of checking rules in order. -/
inductive Verdict {ε : Type} : List (ε × Prop) → Outcome ε Unit → Prop
  | nil : Verdict [] (.ok ())
  | broken {e : ε} {P : Prop} {rest : List (ε × Prop)} : ¬ P → Verdict ((e, P) :: rest) (.err e)
  | holds {e : ε} {P : Prop} {rest : List (ε × Prop)} {o : Outcome ε Unit} :
      P → Verdict rest o → Verdict ((e, P) :: rest) o

namespace Verdict

variable {ε : Type}

/-- Success means that every rule holds. -/
theorem ok_iff {rules : List (ε × Prop)} {o : Outcome ε Unit} (h : Verdict rules o) :
    o = .ok () ↔ ∀ r ∈ rules, r.2 := by
  induction h with
  | nil => simp
  | broken h => simp [h]
  | holds hp _ ih => simp [ih, hp]

/-- An error code is returned only if a rule with that code is broken, and all earlier rules hold. -/
theorem err {rules : List (ε × Prop)} {o : Outcome ε Unit} (h : Verdict rules o) {e : ε} (he : o = .err e) :
    ∃ pre P post, rules = pre ++ (e, P) :: post ∧ ¬ P ∧ ∀ r ∈ pre, r.2 := by
  induction h with
  | nil => cases he
  | broken hp => cases he; exact ⟨[], _, _, rfl, hp, by simp⟩
  | @holds e' P rest o hp _ ih =>
    obtain ⟨pre, Q, post, h1, h2, h3⟩ := ih he
    refine ⟨(e', P) :: pre, Q, post, by simp [h1], h2, ?_⟩
    intro r hr
    rcases List.mem_cons.mp hr with h | h
    · subst h; exact hp
    · exact h3 r h

/-- A verdict is never undefined behaviour. -/
theorem ne_ub {rules : List (ε × Prop)} {o : Outcome ε Unit} (h : Verdict rules o) : o ≠ .ub := by
  induction h with
  | nil => simp
  | broken _ => simp
  | holds _ _ ih => exact ih

/-- Proof rule for a check `if c then error else continue`. -/
theorem step {e : ε} {P : Prop} {rest : List (ε × Prop)} {c : Prop} [Decidable c] {o : Outcome ε Unit}
    (hc : c ↔ ¬ P) (h : P → Verdict rest o) : Verdict ((e, P) :: rest) (if c then .err e else o) := by
  by_cases hp : P
  · rw [if_neg (by rw [hc]; exact not_not_intro hp)]
    exact .holds hp (h hp)
  · rw [if_pos (hc.mpr hp)]
    exact .broken hp

/-- Verdicts of two rule lists, one after the other. -/
theorem append {r1 r2 : List (ε × Prop)} {o1 : Outcome ε Unit} {o2 : Outcome ε Unit} (h1 : Verdict r1 o1)
    (h2 : (∀ r ∈ r1, r.2) → Verdict r2 o2) : Verdict (r1 ++ r2) (o1 >>= fun _ => o2) := by
  induction h1 with
  | nil => simpa using h2 (by simp)
  | broken h => exact .broken h
  | holds hp _ ih =>
    refine .holds hp (ih ?_)
    intro h
    apply h2
    intro r hr
    rcases List.mem_cons.mp hr with h' | h'
    · subst h'; exact hp
    · exact h r h'

/-- Two verdicts of the same rules agree. -/
theorem unique {rules : List (ε × Prop)} {o1 o2 : Outcome ε Unit} (h1 : Verdict rules o1) (h2 : Verdict rules o2) :
    o1 = o2 := by
  induction h1 generalizing o2 with
  | nil => cases h2; rfl
  | broken h => cases h2 with
    | broken _ => rfl
    | holds hp _ => exact absurd hp h
  | holds hp _ ih => cases h2 with
    | broken h => exact absurd hp h
    | holds _ h => exact ih h

end Verdict

end Silkworm.Spec
