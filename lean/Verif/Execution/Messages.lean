import Verif.Execution.Settlement

/-!
# Lemmas about messages
-/

namespace Silkworm.Evm

open IntraBlockState
open Spec.Execution

variable {env : Env} {guard : Option Bytes}

/-- From views to what can be observed. -/
theorem SameWorld.of_view {s t : IntraBlockState} (h1 : (view env.db t).obj = (view env.db s).obj)
    (h2 : (view env.db t).orig = (view env.db s).orig) (h3 : (view env.db t).curv = (view env.db s).curv)
    (h4 : t.logs = s.logs) (h5 : t.selfDestructs = s.selfDestructs) (h6 : t.refund = s.refund) : SameWorld env.db s t := by
  have hc : ∀ a, (view env.db t).cur a = (view env.db s).cur a := fun a => by unfold View.cur; rw [h1]
  refine ⟨fun a => ?_, fun a => ?_, fun a => ?_, fun a => ?_, fun a k => ?_, fun a k => ?_, h4, h5, h6⟩
  · rw [balance_view, balance_view]; unfold View.bal; rw [hc]
  · rw [nonce_view, nonce_view]; unfold View.nonce; rw [hc]
  · rw [codeHash_view, codeHash_view]; unfold View.hash; rw [hc]
  · rw [live_view, live_view, hc]
  · rw [slot_view, slot_view, hc, h3]
  · rw [originalSlot_view, originalSlot_view, hc, h2]

theorem Unchanged.sameWorld {s t : IntraBlockState} (h : Unchanged env s t) : SameWorld env.db s t := by
  obtain ⟨code, ripemd, h⟩ := h
  exact SameWorld.of_view (by rw [h]) (by rw [h]) (by rw [h])
    (show (view env.db t).logs = (view env.db s).logs by rw [h])
    (show (view env.db t).selfDestructs = (view env.db s).selfDestructs by rw [h])
    (show (view env.db t).refund = (view env.db s).refund by rw [h])

/-! ## Static calls -/

theorem Effects.static {st : Bool} {s t : IntraBlockState} {A A' : Acc} (h : Effects env guard st s A t A') (hst : st = true) :
    (view env.db t).obj = (view env.db s).obj ∧ (view env.db t).orig = (view env.db s).orig ∧
    (view env.db t).curv = (view env.db s).curv ∧ t.logs = s.logs ∧ t.selfDestructs = s.selfDestructs ∧ t.refund = s.refund := by
  have fromView : ∀ {s t : IntraBlockState} {v : View}, view env.db t = v → v.obj = (view env.db s).obj →
      v.orig = (view env.db s).orig → v.curv = (view env.db s).curv → v.logs = s.logs → v.selfDestructs = s.selfDestructs →
      v.refund = s.refund →
      (view env.db t).obj = (view env.db s).obj ∧ (view env.db t).orig = (view env.db s).orig ∧
      (view env.db t).curv = (view env.db s).curv ∧ t.logs = s.logs ∧ t.selfDestructs = s.selfDestructs ∧ t.refund = s.refund := by
    intro s t v h h1 h2 h3 h4 h5 h6
    subst h
    exact ⟨h1, h2, h3, h4, h5, h6⟩
  induction h with
  | nil => exact ⟨rfl, rfl, rfl, rfl, rfl, rfl⟩
  | @read s A o ho => exact fromView (view_of_same (read_same (env := env) s ho)) rfl rfl rfl rfl rfl rfl
  | @step s A e _ h2 _ =>
    cases e with
    | accessAccount a => exact fromView (accessAccount_view s a) rfl rfl rfl rfl rfl rfl
    | accessStorage a k => exact fromView (accessStorage_view s a k) rfl rfl rfl rfl rfl rfl
    | touch a =>
      have e : (view env.db (s.touch a)) = (view env.db s).touch a := touch_view s a
      refine fromView e ?_ ?_ ?_ ?_ ?_ ?_ <;> (unfold View.touch; split <;> rfl)
    | _ => exact absurd (h2 hst) (fun hh => Bool.noConfusion hh)
  | trans _ _ ih1 ih2 =>
    obtain ⟨a1, a2, a3, a4, a5, a6⟩ := ih1
    obtain ⟨b1, b2, b3, b4, b5, b6⟩ := ih2
    exact ⟨b1.trans a1, b2.trans a2, b3.trans a3, b4.trans a4, b5.trans a5, b6.trans a6⟩
  | revert h _ =>
    obtain ⟨r1, r2, r3, r4, r5, r6⟩ := revert_view h.undoable
    exact ⟨r1, r2, r3, r5, r4, r6⟩

/-! ## Creation -/

/-- `create` step by step: `s` is the state after the nonce has been increased. -/
theorem create_cases {txn : Transaction} {sub : Message → Machine → Outcome Fault (Result × Machine)} {msg : Message} {m : Machine}
    {x : Result × Machine} (h : create env txn sub msg m = .ok x) :
    (balance env.db m.state msg.sender < msg.value ∧ x.1 = ⟨.insufficientBalance, msg.gas, [], zeroAddress⟩ ∧
      Same env.db m.state x.2.state) ∨
    (msg.value ≤ balance env.db m.state msg.sender ∧ ∃ s,
      view env.db s = view env.db ((setNonce env.db m.state msg.sender ((nonce env.db m.state msg.sender + 1) % 2 ^ 64)).accessAccount
        (contractAddress env msg (nonce env.db m.state msg.sender))).2 ∧
      (((nonce env.db s (contractAddress env msg (nonce env.db m.state msg.sender)) ≠ 0 ∨
          codeHash env.db s (contractAddress env msg (nonce env.db m.state msg.sender)) ≠ kEmptyHash) ∧
        x = (⟨.invalidInstruction, 0, [], zeroAddress⟩, { m with state := s })) ∨
       (nonce env.db s (contractAddress env msg (nonce env.db m.state msg.sender)) = 0 ∧
          codeHash env.db s (contractAddress env msg (nonce env.db m.state msg.sender)) = kEmptyHash ∧
        deploy env txn sub msg (contractAddress env msg (nonce env.db m.state msg.sender)) { m with state := s } = .ok x))) := by
  unfold create at h
  dsimp only at h
  have k1 : Same env.db m.state (getBalance env.db m.state msg.sender).2 :=
    read_same (env := env) m.state (o := .getBalance msg.sender) rfl
  by_cases hv : (getBalance env.db m.state msg.sender).1 < msg.value
  · rw [if_pos hv] at h
    refine Or.inl ⟨hv, ?_, ?_⟩
    · rw [← Outcome.ok.inj h]
    · rw [← Outcome.ok.inj h]; exact k1
  · rw [if_neg hv] at h
    refine Or.inr ⟨Nat.le_of_not_lt hv, ?_⟩
    generalize (getBalance env.db m.state msg.sender).2 = s1 at h k1
    have k2 : Same env.db s1 (getNonce env.db s1 msg.sender).2 := read_same (env := env) s1 (o := .getNonce msg.sender) rfl
    have hn : (getNonce env.db s1 msg.sender).1 = nonce env.db m.state msg.sender := nonce_of_same k1 msg.sender
    rw [hn] at h
    generalize (getNonce env.db s1 msg.sender).2 = s2 at h k2
    have v2 : view env.db s2 = view env.db m.state := (view_of_same k2).trans (view_of_same k1)
    have v3 : ∀ n, view env.db (setNonce env.db s2 msg.sender n) = view env.db (setNonce env.db m.state msg.sender n) := by
      intro n; rw [setNonce_view, setNonce_view, v2]
    have v3 := v3 ((nonce env.db m.state msg.sender + 1) % 2 ^ 64)
    generalize contractAddress env msg (nonce env.db m.state msg.sender) = address at h ⊢
    generalize setNonce env.db s2 msg.sender ((nonce env.db m.state msg.sender + 1) % 2 ^ 64) = s3 at h v3
    generalize setNonce env.db m.state msg.sender ((nonce env.db m.state msg.sender + 1) % 2 ^ 64) = t3 at v3 ⊢
    have v4 : view env.db (s3.accessAccount address).2 = view env.db (t3.accessAccount address).2 := by
      rw [accessAccount_view, accessAccount_view, v3]
    generalize (s3.accessAccount address).2 = s4 at h v4
    have k5 : Same env.db s4 (getNonce env.db s4 address).2 := read_same (env := env) s4 (o := .getNonce address) rfl
    have hn5 : (getNonce env.db s4 address).1 = nonce env.db s4 address := rfl
    rw [hn5] at h
    have k6 : Same env.db (getNonce env.db s4 address).2 (IntraBlockState.getCodeHash env.db (getNonce env.db s4 address).2 address).2 :=
      read_same (env := env) _ (o := .getCodeHash address) rfl
    have hc6 : (IntraBlockState.getCodeHash env.db (getNonce env.db s4 address).2 address).1 =
        codeHash env.db (getNonce env.db s4 address).2 address := rfl
    rw [hc6, codeHash_of_same k5] at h
    have v6 : view env.db (IntraBlockState.getCodeHash env.db (getNonce env.db s4 address).2 address).2 = view env.db s4 :=
      (view_of_same k6).trans (view_of_same k5)
    generalize (IntraBlockState.getCodeHash env.db (getNonce env.db s4 address).2 address).2 = s6 at h v6
    have en : nonce env.db s6 address = nonce env.db s4 address := by rw [nonce_view, nonce_view, v6]
    have ec : codeHash env.db s6 address = codeHash env.db s4 address := by rw [codeHash_view, codeHash_view, v6]
    rw [← en, ← ec] at h
    refine ⟨s6, v6.trans v4, ?_⟩
    by_cases hx : nonce env.db s6 address ≠ 0 ∨ codeHash env.db s6 address ≠ kEmptyHash
    · rw [if_pos hx] at h
      exact Or.inl ⟨hx, (Outcome.ok.inj h).symm⟩
    · rw [if_neg hx] at h
      exact Or.inr ⟨Classical.byContradiction fun hh => hx (Or.inl hh), Classical.byContradiction fun hh => hx (Or.inr hh), h⟩

/-- A deployment that fails leaves no trace; one that succeeds leaves the code, within limits and paid for. -/
theorem deploy_ok {txn : Transaction} {sub : Message → Machine → Outcome Fault (Result × Machine)}
    (hsub : SubOk env none sub) (hi : InterpreterOk env.interpreter) {msg : Message} {address : Bytes} {m : Machine}
    (hg : 0 ≤ msg.gas) (hb : msg.value ≤ balance env.db m.state msg.sender) (hn : nonce env.db m.state address = 0)
    (hc : codeHash env.db m.state address = kEmptyHash)
    {x : Result × Machine} (h : deploy env txn sub msg address m = .ok x) :
    (x.1.status ≠ .success → Unchanged env m.state x.2.state ∧ (x.1.status = .revert ∨ x.1.gasLeft = 0)) ∧
    (x.1.status = .success →
      x.1.createAddress = address ∧ live env.db x.2.state address = true ∧
      (env.revision ≥ Revision.homestead →
        codeHash env.db x.2.state address = env.crypto.keccak x.1.output ∧
        (env.revision ≥ Revision.spuriousDragon → x.1.output.length ≤ 0x6000) ∧
        (env.revision ≥ Revision.london → x.1.output.head? ≠ some 0xEF) ∧
        (x.1.output.length < 2 ^ 56 → x.1.gasLeft + 200 * x.1.output.length ≤ msg.gas))) := by
  unfold deploy at h
  dsimp only at h
  obtain ⟨o1, o2⟩ := Leads.open (guard := none) msg address m.state hb hn hc (fun hh => by cases hh)
  generalize openContract env msg address m.state = s7 at h o1 o2
  obtain ⟨y, g1, g2⟩ := Outcome.bind_eq_ok.mp h
  obtain ⟨e1, e2, e3, e4⟩ := execute_code hsub hi (msg := deployMessage msg address) hg
    (m := { m with state := s7 }) ⟨o2, (fun hh => by cases hh), fun _ hh => by cases hh⟩ g1
  have e1 : Leads env none false 0 0 s7 y.2.state := e1
  have e4 : y.1.gasLeft ≤ msg.gas := e4
  have hl := e1.alive _ o2
  obtain ⟨d1, d2, d3⟩ := deposit_ok (env := env) (guard := none) address y.1 y.2.state hl e3 (fun hh => by cases hh)
  obtain ⟨t1, t2, t3, t4⟩ := settle_ok ((o1.quiet e1).quiet d1) (depositCode env address y.1 y.2.state).1 d2
  rw [← Outcome.ok.inj g2]
  dsimp only
  refine ⟨fun hf => ?_, fun hs => ?_⟩
  · by_cases hss : (settle m.state.takeSnapshot (depositCode env address y.1 y.2.state).1
        (depositCode env address y.1 y.2.state).2).1.status = .success
    · rw [if_pos hss] at hf
      exact absurd hss hf
    · rw [if_neg hss] at hf ⊢
      refine ⟨t4 hss, ?_⟩
      unfold settle at hss ⊢
      split at hss
      · next hh => exact absurd hh hss
      · next hh =>
        rw [if_neg hh]
        dsimp only
        split
        · next hr => exact Or.inl hr
        · exact Or.inr rfl
  · have hss : (settle m.state.takeSnapshot (depositCode env address y.1 y.2.state).1
        (depositCode env address y.1 y.2.state).2).1.status = .success := by
      refine Classical.byContradiction fun hh => ?_
      rw [if_neg hh] at hs
      exact hh hs
    rw [if_pos hss]
    have hds : (depositCode env address y.1 y.2.state).1.status = .success := by
      unfold settle at hss
      split at hss
      · assumption
      · next hh =>
        exfalso
        dsimp only at hss
        split at hss
        · exact hh hss
        · exact hh hss
    have hse : settle m.state.takeSnapshot (depositCode env address y.1 y.2.state).1 (depositCode env address y.1 y.2.state).2 =
        depositCode env address y.1 y.2.state := by unfold settle; rw [if_pos hds]
    rw [hse]
    refine ⟨rfl, d1.alive _ hl, fun hrev => ?_⟩
    unfold depositCode at hds ⊢
    by_cases hys : y.1.status = .success
    · rw [if_pos hys] at hds ⊢
      dsimp only at hds ⊢
      split at hds
      · cases hds
      · next h1 =>
        rw [if_neg h1]
        split at hds
        · cases hds
        · next h2 =>
          rw [if_neg h2]
          split at hds
          · next h3 =>
            rw [if_pos h3]
            dsimp only
            refine ⟨?_, fun hr => Nat.le_of_not_lt fun hlt => h2 ⟨hr, hlt⟩, fun hr he => h1 ⟨hr, he⟩, fun hlen => ?_⟩
            · rw [codeHash_view, setCode_view]
              show ((view env.db y.2.state).modify address (fun c => { c with codeHash := env.crypto.keccak y.1.output })).hash address = _
              rw [View.hash_modify, if_pos rfl]
            · have h3 := h3.2
              have : y.1.output.length * 200 % 2 ^ 64 = y.1.output.length * 200 := Nat.mod_eq_of_lt (by omega)
              rw [this] at h3 ⊢
              omega
          · first
              | (rw [if_pos hrev] at hds; cases hds)
              | (split at hds
                 · cases hds
                 · next hh => exact absurd hrev hh)
              | cases hds
              | (next hh => exact absurd hrev hh)
    · rw [if_neg hys] at hds
      exact absurd hds hys

/-- The gas of failed calls. -/
theorem call_gas {txn : Transaction} {sub : Message → Machine → Outcome Fault (Result × Machine)} {msg : Message} {m : Machine}
    {x : Result × Machine} (h : call env txn sub msg m = .ok x) :
    x.1.status = .success ∨ x.1.status = .revert ∨ x.1.gasLeft = 0 ∨
      (x.1.status = .insufficientBalance ∧ balance env.db m.state msg.sender < msg.value) := by
  have he : ∀ {r : Bytes} {m : Machine} {x : Result × Machine}, enter env txn sub msg r m = .ok x →
      x.1.status = .success ∨ x.1.status = .revert ∨ x.1.gasLeft = 0 := by
    intro r m x h
    unfold enter at h
    dsimp only at h
    obtain ⟨y, _, h2⟩ := Outcome.bind_eq_ok.mp h
    rw [← Outcome.ok.inj h2]
    dsimp only
    unfold settle
    split
    · next hs => exact Or.inl hs
    · dsimp only
      split
      · next hr => exact Or.inr (Or.inl hr)
      · exact Or.inr (Or.inr rfl)
  have weaken : (x.1.status = .success ∨ x.1.status = .revert ∨ x.1.gasLeft = 0) → _ := fun hh =>
    (show x.1.status = .success ∨ x.1.status = .revert ∨ x.1.gasLeft = 0 ∨
      (x.1.status = .insufficientBalance ∧ balance env.db m.state msg.sender < msg.value) from
      hh.imp id (Or.imp id Or.inl))
  have tail : ∀ {s : IntraBlockState}, (do
      let r ← recipient msg m.addressStack
      if msg.value = 0 ∧ env.revision ≥ Revision.spuriousDragon ∧ env.isPrecompiled msg.destination = false then
        if (exists? env.db s msg.destination).1 = false then
          .ok (⟨.success, msg.gas, [], zeroAddress⟩, { m with state := (exists? env.db s msg.destination).2 })
        else enter env txn sub msg r { m with state := (exists? env.db s msg.destination).2 }
      else enter env txn sub msg r { m with state := s }) = Outcome.ok x →
      x.1.status = .success ∨ x.1.status = .revert ∨ x.1.gasLeft = 0 := by
    intro s h
    obtain ⟨r, _, h2⟩ := Outcome.bind_eq_ok.mp h
    split at h2
    · split at h2
      · rw [← Outcome.ok.inj h2]; exact Or.inl rfl
      · exact he h2
    · exact he h2
  unfold call at h
  dsimp only at h
  by_cases hk : msg.kind = .delegatecall
  · rw [if_neg (fun hh => hh.1 hk)] at h
    exact weaken (tail h)
  · rw [if_neg hk] at h
    by_cases hv : (getBalance env.db m.state msg.sender).1 < msg.value
    · rw [if_pos ⟨hk, hv⟩] at h
      rw [← Outcome.ok.inj h]
      exact Or.inr (Or.inr (Or.inr ⟨rfl, hv⟩))
    · rw [if_neg (fun hh => hv hh.2)] at h
      exact weaken (tail h)

/-! ## Calls to accounts without code -/

theorem getCode_empty {s : IntraBlockState} {a : Bytes} (h : codeHash env.db s a = kEmptyHash) :
    (getCode env.db s a).1.isEmpty = true := by
  refine Classical.byContradiction fun hh => (code_live hh).2 h

theorem moved_of_same {s s' t t' : IntraBlockState} {a b : Bytes} {v : Nat} (h : Moved env.db a b v s t)
    (hs : view env.db s = view env.db s') (ht : view env.db t' = view env.db t) : Moved env.db a b v s' t' := by
  obtain ⟨h1, h2, h3, h4, h5, h6, h7, h8⟩ := h
  refine ⟨fun x => ?_, fun x => ?_, fun x => ?_, fun x k => ?_, fun x k => ?_, ?_, ?_, ?_⟩
  · have := h1 x
    simp only [balance_view] at this ⊢
    rw [ht, ← hs]; exact this
  · have := h2 x
    simp only [nonce_view] at this ⊢
    rw [ht, ← hs]; exact this
  · have := h3 x
    simp only [codeHash_view] at this ⊢
    rw [ht, ← hs]; exact this
  · have := h4 x k
    simp only [slot_view, live_view] at this ⊢
    rw [ht, ← hs]; exact this
  · have := h5 x k
    simp only [originalSlot_view, live_view] at this ⊢
    rw [ht, ← hs]; exact this
  · exact (congrArg View.logs ht).trans (h6.trans (congrArg View.logs hs))
  · exact (congrArg View.selfDestructs ht).trans (h7.trans (congrArg View.selfDestructs hs))
  · exact (congrArg View.refund ht).trans (h8.trans (congrArg View.refund hs))

theorem moved_transfer {s : IntraBlockState} {a b : Bytes} {v T : Nat} (hT : T < 2 ^ 256)
    (ht : HasTotal (balance env.db s) T) (hv : v ≤ balance env.db s a) :
    Moved env.db a b v s (addToBalance env.db (subtractFromBalance env.db s a v) b v) := by
  have f := (subtractFromBalance_frame env.db s a v).trans (addToBalance_frame env.db _ b v)
  have hcur : ∀ x, live env.db s x = true → live env.db (addToBalance env.db (subtractFromBalance env.db s a v) b v) x = true := by
    intro x hx
    rw [live_view] at hx ⊢
    rw [addToBalance_view, View.cur_touch, View.cur_modify, subtractFromBalance_view, View.cur_touch]
    split
    · rfl
    · rw [View.cur_touch, View.cur_modify]
      split
      · rfl
      · exact hx
  refine ⟨fun x => ?_, fun x => ?_, fun x => ?_, fun x k hx => ?_, fun x k hx => ?_, f.logs, f.selfDestructs, f.refund⟩
  · have := (transfer_bal (env := env) s a b v T hT (ht.congr fun y => (balance_view s y).symm)
      (by rw [← balance_view]; exact hv)).2 x
    rw [← balance_view, ← balance_view] at this
    exact this
  · rw [nonce_view, nonce_view, nonce_addToBalance, nonce_subtractFromBalance]
  · rw [codeHash_view, codeHash_view, hash_addToBalance, hash_subtractFromBalance]
  · have hx' := hcur x hx
    rw [live_view] at hx hx'
    rw [slot_view, slot_view, f.curv]
    rw [Option.isSome_iff_exists] at hx hx'
    obtain ⟨c, hc⟩ := hx
    obtain ⟨c', hc'⟩ := hx'
    rw [hc, hc']
  · have hx' := hcur x hx
    rw [live_view] at hx hx'
    rw [originalSlot_view, originalSlot_view, f.orig]
    rw [Option.isSome_iff_exists] at hx hx'
    obtain ⟨c, hc⟩ := hx
    obtain ⟨c', hc'⟩ := hx'
    rw [hc, hc']

theorem plain_call {txn : Transaction} {sub : Message → Machine → Outcome Fault (Result × Machine)} {msg : Message} {m : Machine}
    {T : Nat} (hk : msg.kind = .call) (hst : msg.isStatic = false) (hp : env.isPrecompiled msg.destination = false)
    (hc : codeHash env.db m.state msg.destination = kEmptyHash) (hT : T < 2 ^ 256) (ht : HasTotal (balance env.db m.state) T)
    (hv : msg.value ≤ balance env.db m.state msg.sender) :
    ∃ s, call env txn sub msg m = .ok (⟨.success, msg.gas, [], zeroAddress⟩, { m with state := s }) ∧
      Moved env.db msg.sender msg.destination msg.value m.state s := by
  have kd : msg.kind ≠ .delegatecall := by rw [hk]; decide
  have vb : view env.db (getBalance env.db m.state msg.sender).2 = view env.db m.state :=
    view_of_same (read_same (env := env) m.state (o := .getBalance msg.sender) rfl)
  have hv' : ¬ (getBalance env.db m.state msg.sender).1 < msg.value := Nat.not_lt.mpr hv
  have key : ∀ s, view env.db s = view env.db m.state → ∃ s',
      enter env txn sub msg msg.destination { m with state := s } = .ok (⟨.success, msg.gas, [], zeroAddress⟩, { m with state := s' }) ∧
      Moved env.db msg.sender msg.destination msg.value m.state s' := by
    intro s hs
    have hbs : ∀ x, balance env.db s x = balance env.db m.state x := fun x => by rw [balance_view, balance_view, hs]
    have hm := moved_transfer (env := env) (s := s) (a := msg.sender) (b := msg.destination) (v := msg.value) hT
      (ht.congr hbs) (by rw [hbs]; exact hv)
    unfold enter transfer
    dsimp only
    rw [if_pos hk, hst, if_neg Bool.false_ne_true, hp, if_neg Bool.false_ne_true]
    have hcd := hm.codeHash msg.destination
    generalize addToBalance env.db (subtractFromBalance env.db s msg.sender msg.value) msg.destination msg.value = t at hm hcd
    have hce : (getCode env.db t msg.destination).1.isEmpty = true := by
      refine getCode_empty (hcd.trans ?_)
      rw [codeHash_view, hs, ← codeHash_view]; exact hc
    have vt : view env.db (getCode env.db t msg.destination).2 = view env.db t :=
      view_of_same (read_same (env := env) t (o := .getCode msg.destination) rfl)
    unfold runCode
    dsimp only
    rw [if_pos hce]
    exact ⟨_, rfl, moved_of_same hm hs vt⟩
  unfold call
  dsimp only
  rw [if_neg kd, if_neg (fun hh => hv' hh.2)]
  unfold recipient
  rw [hk]
  show ∃ s, (if msg.value = 0 ∧ env.revision ≥ Revision.spuriousDragon ∧ env.isPrecompiled msg.destination = false then _ else _) = _ ∧ _
  split
  · next hz =>
    have ve : view env.db (exists? env.db (getBalance env.db m.state msg.sender).2 msg.destination).2 = view env.db m.state :=
      (view_of_same (read_same (env := env) _ (o := .doesExist msg.destination) rfl)).trans vb
    split
    · refine ⟨_, rfl, moved_of_same (env := env) (s := m.state) (t := m.state) ?_ rfl ve⟩
      refine ⟨fun x => ?_, fun x => rfl, fun x => rfl, fun x k _ => rfl, fun x k _ => rfl, rfl, rfl, rfl⟩
      rw [hz.1, ite_self, ite_self]
    · exact key _ ve
  · exact key _ vb

end Silkworm.Evm
