import Verif.Execution.Run

/-!
# Total balances

Helper lemmas.
-/

namespace Silkworm.Spec.Execution

theorem sum_change {f g : Bytes → Nat} {a : Bytes} (l : List Bytes) (hl : l.Nodup) (ha : a ∈ l)
    (h : ∀ b, b ≠ a → g b = f b) : (l.map g).sum + f a = (l.map f).sum + g a := by
  induction l with
  | nil => cases ha
  | cons b l ih =>
    obtain ⟨h1, h2⟩ := List.nodup_cons.mp hl
    simp only [List.map_cons, List.sum_cons]
    by_cases hb : b = a
    · subst hb
      have e : l.map g = l.map f := List.map_congr_left fun c hc => h c (fun hh => h1 (hh ▸ hc))
      rw [e]; omega
    · have := ih h2 ((List.mem_cons.mp ha).resolve_left (fun hh => hb hh.symm))
      rw [h b hb]; omega

theorem HasTotal.with {f : Bytes → Nat} {t : Nat} (h : HasTotal f t) (a : Bytes) :
    ∃ l : List Bytes, l.Nodup ∧ a ∈ l ∧ (∀ b, b ∉ l → f b = 0) ∧ (l.map f).sum = t := by
  obtain ⟨l, h1, h2, h3⟩ := h
  by_cases ha : a ∈ l
  · exact ⟨l, h1, ha, h2, h3⟩
  · refine ⟨a :: l, List.nodup_cons.mpr ⟨ha, h1⟩, List.mem_cons_self .., fun b hb => ?_, ?_⟩
    · exact h2 b fun hh => hb (List.mem_cons_of_mem _ hh)
    · rw [List.map_cons, List.sum_cons, h2 a ha, h3, Nat.zero_add]

theorem le_sum {f : Bytes → Nat} {a : Bytes} (l : List Bytes) (h : a ∈ l) : f a ≤ (l.map f).sum := by
  induction l with
  | nil => cases h
  | cons b l ih =>
    rw [List.map_cons, List.sum_cons]
    rcases List.mem_cons.mp h with rfl | h
    · omega
    · have := ih h; omega

theorem HasTotal.le {f : Bytes → Nat} {t : Nat} (h : HasTotal f t) (a : Bytes) : f a ≤ t := by
  obtain ⟨l, _, h2, _, h4⟩ := h.with a
  rw [← h4]
  exact le_sum l h2

/-- One value changes. -/
theorem HasTotal.change {f g : Bytes → Nat} {t : Nat} (h : HasTotal f t) (a : Bytes) (hg : ∀ b, b ≠ a → g b = f b) :
    HasTotal g (t - f a + g a) := by
  obtain ⟨l, h1, h2, h3, h4⟩ := h.with a
  refine ⟨l, h1, fun b hb => ?_, ?_⟩
  · rw [hg b (fun hh => hb (hh ▸ h2))]; exact h3 b hb
  · have := sum_change l h1 h2 hg
    have := le_sum (f := f) l h2
    omega

theorem HasTotal.congr {f g : Bytes → Nat} {t : Nat} (h : HasTotal f t) (hg : ∀ b, g b = f b) : HasTotal g t := by
  rw [show g = f from funext hg]; exact h

/-- There is only one total. -/
theorem HasTotal.unique {f : Bytes → Nat} {t u : Nat} (h : HasTotal f t) (g : HasTotal f u) : t = u := by
  obtain ⟨l, h1, h2, h3⟩ := h
  induction l generalizing f t u with
  | nil =>
    obtain ⟨m, _, _, g3⟩ := g
    have e : m.map f = m.map fun _ => 0 := List.map_congr_left fun b _ => h2 b List.not_mem_nil
    rw [e] at g3
    have : ∀ m : List Bytes, (m.map fun _ => 0).sum = 0 := by
      intro m
      induction m with
      | nil => rfl
      | cons _ _ ih => rw [List.map_cons, List.sum_cons, ih]
    rw [this] at g3
    rw [← h3, ← g3]
    rfl
  | cons a l ih =>
    obtain ⟨n1, n2⟩ := List.nodup_cons.mp h1
    have hg := g.change (g := fun b => if b = a then 0 else f b) a (fun b hb => if_neg hb)
    have e := ih hg (t := (l.map f).sum) n2 (fun b hb => ?_) ?_
    · rw [List.map_cons, List.sum_cons] at h3
      have := g.le a
      simp only [if_true] at e
      omega
    · by_cases hba : b = a
      · exact if_pos hba
      · rw [if_neg hba]
        exact h2 b fun hh => (List.mem_cons.mp hh).elim hba hb
    · congr 1
      exact List.map_congr_left fun b hb => if_neg fun (hh : b = a) => n1 (hh ▸ hb)

end Silkworm.Spec.Execution

namespace Silkworm.Evm

open IntraBlockState
open Spec.Execution (balance nonce codeHash live HasTotal)

variable {env : Env} {guard : Option Bytes}

/-- A transfer of `v` from `a` to `b`. -/
theorem transfer_bal (s : IntraBlockState) (a b : Bytes) (v T : Nat) (hT : T < 2 ^ 256)
    (ht : HasTotal (view env.db s).bal T) (hv : v ≤ (view env.db s).bal a) :
    HasTotal (view env.db (addToBalance env.db (subtractFromBalance env.db s a v) b v)).bal T ∧
    ∀ x, (view env.db (addToBalance env.db (subtractFromBalance env.db s a v) b v)).bal x + (if x = a then v else 0) =
      (view env.db s).bal x + (if x = b then v else 0) := by
  have ha := ht.le a
  have h1 : ∀ x, (view env.db (subtractFromBalance env.db s a v)).bal x =
      if x = a then (view env.db s).bal a - v else (view env.db s).bal x := by
    intro x
    rw [bal_subtractFromBalance]
    by_cases hx : x = a
    · rw [if_pos hx, if_pos hx]
      generalize (view env.db s).bal a = n at *
      clear ht
      omega
    · rw [if_neg hx, if_neg hx]
  have t1 : HasTotal (view env.db (subtractFromBalance env.db s a v)).bal (T - v) := by
    have := ht.change (g := (view env.db (subtractFromBalance env.db s a v)).bal) a
      (fun x hx => by rw [h1, if_neg hx])
    rw [h1, if_pos rfl] at this
    rwa [show T - (view env.db s).bal a + ((view env.db s).bal a - v) = T - v by omega] at this
  have hb := t1.le b
  have h2 : ∀ x, (view env.db (addToBalance env.db (subtractFromBalance env.db s a v) b v)).bal x =
      if x = b then (view env.db (subtractFromBalance env.db s a v)).bal b + v
      else (view env.db (subtractFromBalance env.db s a v)).bal x := by
    intro x
    rw [bal_addToBalance]
    by_cases hx : x = b
    · rw [if_pos hx, if_pos hx]
      exact Nat.mod_eq_of_lt (by omega)
    · rw [if_neg hx, if_neg hx]
  constructor
  · have := t1.change (g := (view env.db (addToBalance env.db (subtractFromBalance env.db s a v) b v)).bal) b
      (fun x hx => by rw [h2, if_neg hx])
    rw [h2, if_pos rfl] at this
    rwa [show T - v - (view env.db (subtractFromBalance env.db s a v)).bal b +
      ((view env.db (subtractFromBalance env.db s a v)).bal b + v) = T by omega] at this
  · intro x
    rw [h2]
    by_cases hx : x = b
    · subst hx
      rw [if_pos rfl, if_pos rfl, h1]
      by_cases hxa : x = a
      · subst hxa; rw [if_pos rfl, if_pos rfl]; omega
      · rw [if_neg hxa, if_neg hxa]; omega
    · rw [if_neg hx, if_neg hx, h1]
      by_cases hxa : x = a
      · subst hxa; rw [if_pos rfl, if_pos rfl]; omega
      · rw [if_neg hxa, if_neg hxa]

/-- What `SELFDESTRUCT` does to balances: a destroyed account that is its own beneficiary loses its balance. -/
theorem selfdestruct_bal (s : IntraBlockState) (a b : Bytes) (T : Nat) (hT : T < 2 ^ 256)
    (ht : HasTotal (view env.db s).bal T) :
    HasTotal (view env.db (Evm.selfdestruct env s a b)).bal (if a = b then T - (view env.db s).bal a else T) ∧
    (∀ x, x ≠ a → (view env.db s).bal x ≤ (view env.db (Evm.selfdestruct env s a b)).bal x) ∧
    (view env.db (Evm.selfdestruct env s a b)).selfDestructs = setInsert s.selfDestructs a := by
  have v1 : view env.db (recordSuicide s a) = { view env.db s with selfDestructs := setInsert (view env.db s).selfDestructs a } :=
    recordSuicide_view s a
  have k2 : Same env.db (recordSuicide s a) (getBalance env.db (recordSuicide s a) a).2 :=
    read_same (env := env) _ (o := .getBalance a) rfl
  have v2 := (view_of_same k2).trans v1
  have hn : (getBalance env.db (recordSuicide s a) a).1 = (view env.db s).bal a := by
    show balance env.db (recordSuicide s a) a = _
    rw [balance_view, v1]; rfl
  unfold Evm.selfdestruct
  dsimp only
  rw [hn]
  generalize (getBalance env.db (recordSuicide s a) a).2 = s2 at v2
  have hb2 : ∀ x, (view env.db s2).bal x = (view env.db s).bal x := fun x => by rw [v2]; rfl
  have hsd : (view env.db (setBalance env.db (addToBalance env.db s2 b ((view env.db s).bal a)) a 0)).selfDestructs =
      setInsert s.selfDestructs a := by
    have e : ∀ (v : View) c, (v.touch c).selfDestructs = v.selfDestructs := by
      intro v c; unfold View.touch; split <;> rfl
    rw [setBalance_view, e, addToBalance_view]
    show (View.touch _ b).selfDestructs = _
    rw [e]
    show (view env.db s2).selfDestructs = _
    rw [v2]; rfl
  have ha := ht.le a
  have hbal : ∀ x, (view env.db (setBalance env.db (addToBalance env.db s2 b ((view env.db s).bal a)) a 0)).bal x =
      if x = a then 0 else if x = b then ((view env.db s).bal b + (view env.db s).bal a) % 2 ^ 256 else (view env.db s).bal x := by
    intro x
    rw [bal_setBalance, bal_addToBalance, hb2, hb2]
  generalize view env.db (setBalance env.db (addToBalance env.db s2 b ((view env.db s).bal a)) a 0) = w at *
  have t1 : HasTotal (fun x => if x = a then 0 else (view env.db s).bal x) (T - (view env.db s).bal a) := by
    have := ht.change (g := fun x => if x = a then 0 else (view env.db s).bal x) a (fun x hx => if_neg hx)
    rwa [if_pos rfl, Nat.add_zero] at this
  refine ⟨?_, ?_, hsd⟩
  · by_cases hab : a = b
    · rw [if_pos hab]
      refine t1.congr fun x => ?_
      rw [hbal]
      by_cases hx : x = a
      · rw [if_pos hx, if_pos hx]
      · rw [if_neg hx, if_neg hx, if_neg (fun hh => hx (hh.trans hab.symm))]
    · rw [if_neg hab]
      have hb1 := t1.le b
      rw [if_neg (fun hh => hab hh.symm)] at hb1
      have := t1.change (g := w.bal) b (fun x hx => by rw [hbal, if_neg hx])
      rw [hbal, if_neg (fun hh => hab hh.symm), if_pos rfl, if_neg (fun hh => hab hh.symm),
        Nat.mod_eq_of_lt (show (view env.db s).bal b + (view env.db s).bal a < 2 ^ 256 by omega)] at this
      rwa [show T - (view env.db s).bal a - (view env.db s).bal b + ((view env.db s).bal b + (view env.db s).bal a) = T
        by omega] at this
  · intro x hx
    rw [hbal, if_neg hx]
    by_cases hb : x = b
    · subst hb
      rw [if_pos rfl]
      have hb1 := t1.le x
      rw [if_neg hx] at hb1
      rw [Nat.mod_eq_of_lt (by omega)]
      omega
    · rw [if_neg hb]; exact Nat.le_refl _

/-- Effects other than those leave balances and the list of destroyed accounts. -/
theorem effect_bal (s : IntraBlockState) (e : Effect)
    (h : match e with | .transfer _ _ _ => False | .selfdestruct _ _ => False | _ => True) :
    (view env.db (e.run env s)).bal = (view env.db s).bal ∧ (e.run env s).selfDestructs = s.selfDestructs := by
  have ofView : ∀ {t : IntraBlockState}, (view env.db t).obj = (view env.db s).obj →
      (view env.db t).selfDestructs = (view env.db s).selfDestructs →
      (view env.db t).bal = (view env.db s).bal ∧ t.selfDestructs = s.selfDestructs := by
    intro t h1 h2
    refine ⟨?_, h2⟩
    funext x
    unfold View.bal View.cur
    rw [h1]
  cases e with
  | accessAccount a => exact ofView (by unfold Effect.run; rw [accessAccount_view]) (by unfold Effect.run; rw [accessAccount_view])
  | accessStorage a k => exact ofView (by unfold Effect.run; rw [accessStorage_view]) (by unfold Effect.run; rw [accessStorage_view])
  | sstore a k v =>
    obtain ⟨r, hr⟩ := setStorage_effect (env := env) s a k v
    have e : ((view env.db s).setStorage a k v).selfDestructs = (view env.db s).selfDestructs := by
      unfold View.setStorage; split <;> split <;> rfl
    refine ofView ?_ ?_
    · show (view env.db (setStorage env s a k v).2).obj = _
      rw [hr]; exact (View.setStorage_obj _ a k v).1
    · show (view env.db (setStorage env s a k v).2).selfDestructs = _
      rw [hr]; exact e
  | log l => exact ofView rfl rfl
  | selfdestruct a b => exact h.elim
  | touch a =>
    have e : ∀ (v : View) c, (v.touch c).selfDestructs = v.selfDestructs ∧ (v.touch c).obj = v.obj := by
      intro v c; unfold View.touch; split <;> exact ⟨rfl, rfl⟩
    refine ofView ?_ ?_
    · show (view env.db (s.touch a)).obj = _
      rw [touch_view]; exact (e _ a).2
    · show (view env.db (s.touch a)).selfDestructs = _
      rw [touch_view]; exact (e _ a).1
  | transfer a b v => exact h.elim
  | bumpNonce a =>
    have key : ∀ n, (view env.db (setNonce env.db s a n)).bal = (view env.db s).bal ∧
        (setNonce env.db s a n).selfDestructs = s.selfDestructs := by
      intro n
      refine ⟨funext fun x => bal_setNonce s a n x, ?_⟩
      show (view env.db (setNonce env.db s a n)).selfDestructs = _
      rw [setNonce_view]; rfl
    exact key _
  | newContract a =>
    have hc : (view env.db (createContract env.db s a)).bal = (view env.db s).bal ∧
        (createContract env.db s a).selfDestructs = s.selfDestructs := by
      constructor
      · funext x
        rw [createContract_view]
        unfold View.bal View.createContract View.cur upd
        dsimp only
        by_cases hx : x = a
        · rw [if_pos hx, hx]; rfl
        · rw [if_neg hx]
      · show (view env.db (createContract env.db s a)).selfDestructs = _
        rw [createContract_view]; rfl
    unfold Effect.run
    dsimp only
    split
    · refine ⟨(funext fun x => bal_setNonce _ a 1 x).trans hc.1, ?_⟩
      refine Eq.trans ?_ hc.2
      show (view env.db (setNonce env.db (createContract env.db s a) a 1)).selfDestructs = _
      rw [setNonce_view]; rfl
    · exact hc
  | deposit a code =>
    constructor
    · funext x
      show (view env.db (s.setCode env.crypto.keccak env.db a code)).bal x = _
      rw [setCode_view]
      show ((view env.db s).modify a (fun c => { c with codeHash := env.crypto.keccak code })).bal x = _
      rw [View.bal_modify]
      split
      · next hx => rw [View.bal_getD, hx]
      · rfl
    · show (view env.db (s.setCode env.crypto.keccak env.db a code)).selfDestructs = _
      rw [setCode_view]; rfl

/-- What effects do to balances. -/
structure Money (env : Env) (guard : Option Bytes) (T : Nat) (s : IntraBlockState) (A : Acc) (t : IntraBlockState) (A' : Acc) :
    Prop where
  total : ∃ loss, loss ≤ T ∧ HasTotal (view env.db t).bal (T - loss) ∧ (t.selfDestructs = [] → loss = 0)
  destroyed : ∀ x ∈ s.selfDestructs, x ∈ t.selfDestructs
  spent : ∀ x, guard = some x → (view env.db s).bal x + A.spent ≤ (view env.db t).bal x + A'.spent
  guarded : ∀ x, guard = some x → x ∉ s.selfDestructs → x ∉ t.selfDestructs

theorem mem_setInsert {l : List Bytes} {a x : Bytes} : x ∈ setInsert l a ↔ x = a ∨ x ∈ l := by
  unfold setInsert
  split
  · next h =>
    constructor
    · exact Or.inr
    · rintro (rfl | h')
      · simpa using h
      · exact h'
  · simp [or_comm]

theorem Effects.money {st : Bool} {s t : IntraBlockState} {A A' : Acc} (h : Effects env guard st s A t A') :
    ∀ T, T < 2 ^ 256 → HasTotal (view env.db s).bal T → Money env guard T s A t A' := by
  induction h with
  | nil =>
    intro T _ ht
    exact ⟨⟨0, Nat.zero_le _, ht, fun _ => rfl⟩, fun x hx => hx, fun _ _ => Nat.le_refl _, fun _ _ hx => hx⟩
  | @read s A o ho =>
    intro T _ ht
    have k := read_same (env := env) s ho
    have v := view_of_same k
    have hsd := k.selfDestructs
    refine ⟨⟨0, Nat.zero_le _, by rw [v]; exact ht, fun _ => rfl⟩, fun x hx => by rw [← hsd]; exact hx,
      fun _ _ => by rw [v]; exact Nat.le_refl _, fun _ _ hx => by rw [← hsd]; exact hx⟩
  | @step s A e h1 h2 h3 =>
    intro T hT ht
    have plain := effect_bal (env := env) s e
    cases e with
    | transfer a b v =>
      obtain ⟨t1, t2⟩ := transfer_bal (env := env) s a b v T hT ht (by rw [← balance_view]; exact h1)
      have hsd : (Effect.run env s (.transfer a b v)).selfDestructs = s.selfDestructs := by
        have e : ∀ (v : View) c, (v.touch c).selfDestructs = v.selfDestructs := by
          intro v c; unfold View.touch; split <;> rfl
        show (view env.db (addToBalance env.db (subtractFromBalance env.db s a v) b v)).selfDestructs = _
        rw [addToBalance_view, e]
        show (view env.db (subtractFromBalance env.db s a v)).selfDestructs = _
        rw [subtractFromBalance_view, e]
        rfl
      refine ⟨⟨0, Nat.zero_le _, t1, fun _ => rfl⟩, fun x hx => by rw [hsd]; exact hx, fun x hx => ?_,
        fun _ _ hx => by rw [hsd]; exact hx⟩
      have hx2 := t2 x
      unfold Effect.count Effect.run
      dsimp only
      by_cases hxa : x = a
      · subst hxa
        rw [if_pos hx]
        rw [if_pos rfl] at hx2
        dsimp only
        omega
      · rw [if_neg (fun hh => hxa (Option.some.inj (hx.symm.trans hh)))]
        rw [if_neg hxa] at hx2
        omega
    | selfdestruct a b =>
      obtain ⟨t1, t2, t3⟩ := selfdestruct_bal (env := env) s a b T hT ht
      have t3 : (Effect.run env s (.selfdestruct a b)).selfDestructs = setInsert s.selfDestructs a := t3
      have ha := ht.le a
      refine ⟨?_, fun x hx => ?_, fun x hx => ?_, fun x hx hn => ?_⟩
      · by_cases hab : a = b
        · rw [if_pos hab] at t1
          refine ⟨_, ha, t1, fun hh => ?_⟩
          rw [t3] at hh
          have : a ∈ setInsert s.selfDestructs a := mem_setInsert.mpr (Or.inl rfl)
          rw [hh] at this
          cases this
        · rw [if_neg hab] at t1
          exact ⟨0, Nat.zero_le _, t1, fun _ => rfl⟩
      · rw [t3]; exact mem_setInsert.mpr (Or.inr hx)
      · have hxa : x ≠ a := fun hh => h3 x hx (by rw [hh]; rfl)
        have := t2 x hxa
        show _ ≤ (view env.db (Evm.selfdestruct env s a b)).bal x + A.spent
        omega
      · have hxa : x ≠ a := fun hh => h3 x hx (by rw [hh]; rfl)
        rw [t3]
        exact fun hh => (mem_setInsert.mp hh).elim hxa hn
    | _ =>
      obtain ⟨b1, b2⟩ := plain trivial
      refine ⟨⟨0, Nat.zero_le _, by rw [b1]; exact ht, fun _ => rfl⟩, fun x hx => by rw [b2]; exact hx,
        fun x hx => ?_, fun _ _ hx => by rw [b2]; exact hx⟩
      rw [b1]
      unfold Effect.count
      dsimp only
      first
        | exact Nat.le_refl _
        | (split <;> exact Nat.le_refl _)
  | @trans s t u A A' A'' _ _ ih1 ih2 =>
    intro T hT ht
    obtain ⟨⟨l1, b1, t1, z1⟩, d1, s1, g1⟩ := ih1 T hT ht
    obtain ⟨⟨l2, b2, t2, z2⟩, d2, s2, g2⟩ := ih2 (T - l1) (by omega) t1
    refine ⟨⟨l1 + l2, by omega, by rwa [Nat.sub_sub] at t2, fun hu => ?_⟩, fun x hx => d2 x (d1 x hx), fun x hx => ?_,
      fun x hx hn => g2 x hx (g1 x hx hn)⟩
    · have ht : t.selfDestructs = [] := by
        cases hc : t.selfDestructs with
        | nil => rfl
        | cons y ys =>
          have := d2 y (by rw [hc]; exact List.mem_cons_self ..)
          rw [hu] at this
          cases this
      rw [z1 ht, z2 hu]
    · have := s1 x hx
      have := s2 x hx
      omega
  | @revert s t A A' h _ =>
    intro T _ ht
    obtain ⟨r1, _, _, r4, _, _⟩ := revert_view h.undoable
    have hb : (view env.db (t.revertToSnapshot s.takeSnapshot)).bal = (view env.db s).bal := by
      funext x; unfold View.bal View.cur; rw [r1]
    exact ⟨⟨0, Nat.zero_le _, by rw [hb]; exact ht, fun _ => rfl⟩, fun x hx => by rw [r4]; exact hx,
      fun x _ => by rw [hb]; exact Nat.le_refl _, fun _ _ hx => by rw [r4]; exact hx⟩

end Silkworm.Evm
