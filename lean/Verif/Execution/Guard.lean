import Verif.Execution.Refunds

/-!
# Accounts stay, and guarded accounts keep their code and nonce

Helper lemmas.
-/

namespace Silkworm.Evm

open IntraBlockState
open Spec.Execution (balance nonce codeHash live slot originalSlot CallOk AnswerOk ProgramOk InterpreterOk)

variable {env : Env} {guard : Option Bytes}

/-! ## Accounts stay -/

theorem cur_shapeStep (o : Op) (v : View) (a : Bytes) (h : (v.cur a).isSome) :
    ((shapeStep env.crypto.keccak env.db o v).cur a).isSome := by
  have hm : ∀ b f, ((v.modify b f).cur a).isSome := by
    intro b f
    rw [View.cur_modify]
    split
    · rfl
    · exact h
  cases o with
  | createContract b =>
    show ((View.createContract env.db v b).cur a).isSome
    unfold View.createContract View.cur upd
    dsimp only
    by_cases hb : a = b
    · rw [if_pos hb]; rfl
    · rw [if_neg hb]; exact h
  | setBalance b x => unfold shapeStep; exact hm _ _
  | addToBalance b x => unfold shapeStep; exact hm _ _
  | subtractFromBalance b x => unfold shapeStep; exact hm _ _
  | setNonce b x => unfold shapeStep; exact hm _ _
  | setCode b x => unfold shapeStep; exact hm _ _
  | setStorage b k x =>
    show ((View.setStorage v b k x).cur a).isSome
    have e : ∀ (p : Prop) [Decidable p] (w : View), w.obj = v.obj → (if p then v else w).obj = v.obj := by
      intro p _ w hw
      split
      · rfl
      · exact hw
    unfold View.setStorage View.cur at *
    rw [e]
    · exact h
    · rfl
  | _ => exact h

theorem op_live (o : Op) (s : IntraBlockState) (a : Bytes) (h : live env.db s a = true) :
    live env.db (o.step env.crypto.keccak env.db s).2 a = true := by
  rw [live_view] at h ⊢
  have hs := step_shape (keccak := env.crypto.keccak) (db := env.db) s o
  have hc := cur_shapeStep (env := env) o _ a h
  unfold View.cur at hc ⊢
  rw [hs.obj]
  exact hc

theorem trace_undoable (p : Trace) (s : IntraBlockState)
    (hp : p.All env.crypto.keccak env.db (fun o s => o.LiveStorage env.db s) s) :
    Undoable env s (p.run env.crypto.keccak env.db s).2 := by
  refine run_ok p s (fun _ => hp) ?_
  clear hp
  induction p generalizing s with
  | nil => trivial
  | op o rest ih => exact ⟨by cases o <;> trivial, ih _⟩
  | scope body revert rest ih1 ih2 => exact ⟨ih1 _, ih2 _⟩

theorem Steps.alive {s t : IntraBlockState} (h : Steps env s t) (a : Bytes) (hl : live env.db s a = true) :
    live env.db t a = true := by
  obtain ⟨p, rfl, hp⟩ := h
  induction p generalizing s with
  | nil => exact hl
  | op o rest ih => exact ih (op_live o s a hl) hp.2
  | scope body revert rest _ ih =>
    refine ih ?_ hp.2
    cases revert with
    | false => rename_i ihb; exact ihb hl hp.1
    | true =>
      show live env.db ((body.run env.crypto.keccak env.db s).2.revertToSnapshot s.takeSnapshot) a = true
      rw [live_view] at hl ⊢
      unfold View.cur at hl ⊢
      rw [(revert_view (trace_undoable body s hp.1)).1]
      exact hl

theorem Effects.alive {x : Bool} {s t : IntraBlockState} {A A' : Acc} (h : Effects env guard x s A t A') (a : Bytes)
    (hl : live env.db s a = true) : live env.db t a = true := h.steps.alive a hl

theorem balance_of_same {s t : IntraBlockState} (h : Same env.db s t) (a : Bytes) :
    balance env.db t a = balance env.db s a := by rw [balance_view, balance_view, view_of_same h]

theorem nonce_of_same {s t : IntraBlockState} (h : Same env.db s t) (a : Bytes) :
    nonce env.db t a = nonce env.db s a := by rw [nonce_view, nonce_view, view_of_same h]

theorem codeHash_of_same {s t : IntraBlockState} (h : Same env.db s t) (a : Bytes) :
    codeHash env.db t a = codeHash env.db s a := by rw [codeHash_view, codeHash_view, view_of_same h]

/-! ## Guarded accounts -/

/-- A guarded account has no code but a nonce. -/
def Safe (env : Env) (guard : Option Bytes) (s : IntraBlockState) : Prop :=
  ∀ x, guard = some x → codeHash env.db s x = kEmptyHash ∧ nonce env.db s x ≠ 0

/-- What other accounts do to an account: its nonce and code stay. -/
theorem effect_other (s : IntraBlockState) (e : Effect) (x : Bytes) (h : e.actor ≠ some x) :
    (view env.db (e.run env s)).nonce x = (view env.db s).nonce x ∧
    (view env.db (e.run env s)).hash x = (view env.db s).hash x := by
  have ofObj : ∀ {v w : View}, v.obj x = w.obj x → v.nonce x = w.nonce x ∧ v.hash x = w.hash x := by
    intro v w hvw
    unfold View.nonce View.hash View.cur
    rw [hvw]
    exact ⟨rfl, rfl⟩
  cases e with
  | accessAccount a => unfold Effect.run; rw [accessAccount_view]; exact ofObj rfl
  | accessStorage a k => unfold Effect.run; rw [accessStorage_view]; exact ofObj rfl
  | sstore a k v =>
    obtain ⟨r, hr⟩ := setStorage_effect (env := env) s a k v
    unfold Effect.run
    dsimp only
    rw [hr]
    refine ofObj ?_
    dsimp only
    rw [(View.setStorage_obj _ a k v).1]
  | log l => exact ofObj rfl
  | selfdestruct a b =>
    have hx : x ≠ a := fun hh => h (by rw [hh]; rfl)
    have e1 : view env.db (recordSuicide s a) = { view env.db s with selfDestructs := setInsert (view env.db s).selfDestructs a } :=
      recordSuicide_view s a
    unfold Effect.run Evm.selfdestruct
    dsimp only
    have k2 : Same env.db (recordSuicide s a) (getBalance env.db (recordSuicide s a) a).2 :=
      read_same (env := env) _ (o := .getBalance a) rfl
    have v2 := view_of_same k2
    generalize (getBalance env.db (recordSuicide s a) a).2 = s2 at v2
    generalize (getBalance env.db (recordSuicide s a) a).1 = n
    rw [setBalance_view, View.nonce_touch, View.hash_touch, View.nonce_modify, View.hash_modify, if_neg hx, if_neg hx,
      nonce_addToBalance, hash_addToBalance, v2, e1]
    exact ofObj rfl
  | touch a =>
    unfold Effect.run
    dsimp only
    rw [touch_view]
    exact ⟨View.nonce_touch .., View.hash_touch ..⟩
  | transfer a b v =>
    unfold Effect.run
    dsimp only
    rw [nonce_addToBalance, hash_addToBalance, nonce_subtractFromBalance, hash_subtractFromBalance]
    exact ⟨rfl, rfl⟩
  | bumpNonce a =>
    have hx : x ≠ a := fun hh => h (by rw [hh]; rfl)
    unfold Effect.run
    dsimp only
    rw [setNonce_view, View.nonce_modify, View.hash_modify, if_neg hx, if_neg hx]
    exact ⟨rfl, rfl⟩
  | newContract a =>
    have hx : x ≠ a := fun hh => h (by rw [hh]; rfl)
    have hc : (view env.db (createContract env.db s a)).nonce x = (view env.db s).nonce x ∧
        (view env.db (createContract env.db s a)).hash x = (view env.db s).hash x := by
      rw [createContract_view]
      refine ofObj ?_
      unfold View.createContract
      dsimp only
      rw [upd_ne _ _ hx]
    unfold Effect.run
    dsimp only
    split
    · rw [setNonce_view, View.nonce_modify, View.hash_modify, if_neg hx, if_neg hx]; exact hc
    · exact hc
  | deposit a code =>
    have hx : x ≠ a := fun hh => h (by rw [hh]; rfl)
    unfold Effect.run
    dsimp only
    rw [setCode_view]
    refine ofObj ?_
    unfold View.modify
    dsimp only
    rw [upd_ne _ _ hx]

theorem effect_guard (s : IntraBlockState) (e : Effect) (x : Bytes) (h : e.Guarded env (some x) s) (A : Acc) :
    (view env.db (e.run env s)).nonce x + A.bumps = (view env.db s).nonce x + (e.count (some x) A).bumps ∧
    (view env.db (e.run env s)).hash x = (view env.db s).hash x := by
  by_cases ha : e.actor = some x
  · have hg := h x rfl ha
    cases e with
    | transfer a b v =>
      unfold Effect.run Effect.count
      dsimp only
      rw [nonce_addToBalance, hash_addToBalance, nonce_subtractFromBalance, hash_subtractFromBalance]
      refine ⟨?_, rfl⟩
      split <;> rfl
    | bumpNonce a =>
      have hx : a = x := Option.some.inj ha
      subst hx
      have hg : nonce env.db s a + 1 < 2 ^ 64 := hg
      unfold Effect.run Effect.count
      dsimp only
      rw [setNonce_view, View.nonce_modify, View.hash_modify, if_pos rfl, if_pos rfl, if_pos rfl, ← nonce_view,
        View.hash_getD]
      refine ⟨?_, rfl⟩
      rw [Nat.mod_eq_of_lt hg]
      dsimp only
      omega
    | _ => first | exact hg.elim | cases ha
  · obtain ⟨h1, h2⟩ := effect_other (env := env) s e x ha
    rw [h1]
    refine ⟨?_, h2⟩
    have : (e.count (some x) A).bumps = A.bumps := by
      cases e with
      | transfer a b v => unfold Effect.count; dsimp only; split <;> rfl
      | bumpNonce a =>
        unfold Effect.count
        dsimp only
        rw [if_neg (fun hh => ha hh.symm)]
      | _ => rfl
    rw [this]

theorem Effects.guarded {x : Bytes} {st : Bool} {s t : IntraBlockState} {A A' : Acc}
    (h : Effects env (some x) st s A t A') :
    (view env.db t).nonce x + A.bumps = (view env.db s).nonce x + A'.bumps ∧
    (view env.db t).hash x = (view env.db s).hash x ∧ A.bumps ≤ A'.bumps := by
  induction h with
  | nil => exact ⟨rfl, rfl, Nat.le_refl _⟩
  | read o ho => rw [view_of_same (read_same (env := env) _ ho)]; exact ⟨rfl, rfl, Nat.le_refl _⟩
  | @step s A e _ _ h3 =>
    obtain ⟨h1, h2⟩ := effect_guard s e x h3 A
    refine ⟨h1, h2, ?_⟩
    cases e with
    | transfer a b v => unfold Effect.count; dsimp only; split <;> exact Nat.le_refl _
    | bumpNonce a =>
      unfold Effect.count
      dsimp only
      split
      · exact Nat.le_succ _
      · exact Nat.le_refl _
    | _ => exact Nat.le_refl _
  | trans _ _ ih1 ih2 =>
    exact ⟨by omega, ih2.2.1.trans ih1.2.1, Nat.le_trans ih1.2.2 ih2.2.2⟩
  | revert h _ =>
    have hv := (revert_view h.undoable).1
    unfold View.nonce View.hash View.cur
    rw [hv]
    exact ⟨rfl, rfl, Nat.le_refl _⟩

theorem Effects.safe {st : Bool} {s t : IntraBlockState} {A A' : Acc}
    (h : Effects env guard st s A t A') (hs : Safe env guard s) : Safe env guard t := by
  intro x hx
  subst hx
  obtain ⟨h1, h2, h3⟩ := h.guarded
  obtain ⟨g1, g2⟩ := hs x rfl
  rw [codeHash_view] at g1 ⊢
  rw [nonce_view] at g2 ⊢
  exact ⟨h2.trans g1, by omega⟩

end Silkworm.Evm
