import Verif.Execution.Guard

/-!
# Every message is a sequence of effects

Helper lemmas: induction over the interpreter's program and over the nesting of messages.
-/

namespace Silkworm.Evm

open IntraBlockState
open Spec.Execution (balance nonce codeHash live slot originalSlot CallOk AnswerOk ProgramOk InterpreterOk)

variable {env : Env} {guard : Option Bytes}

/-! ## What a message guarantees -/

/-- The state is as it was, apart from the cached code and the touched account 3 (EIP-161). -/
def Unchanged (env : Env) (s t : IntraBlockState) : Prop :=
  ∃ code ripemd, view env.db t = { view env.db s with code := code, ripemd := ripemd }

theorem Unchanged.of_same {s t : IntraBlockState} (h : Same env.db s t) : Unchanged env s t :=
  ⟨_, _, view_of_same h⟩

theorem Unchanged.of_revert {s t : IntraBlockState} (h : Undoable env s t) :
    Unchanged env s (t.revertToSnapshot s.takeSnapshot) := ⟨_, _, IntraBlockState.revert_view h⟩

theorem Unchanged.trans {s t u : IntraBlockState} (h : Unchanged env s t) (g : Unchanged env t u) : Unchanged env s u := by
  obtain ⟨c, r, h⟩ := h
  obtain ⟨c', r', g⟩ := g
  exact ⟨c', r', by rw [g, h]⟩

/-- `create` or `create2`. -/
def Message.isCreate (msg : Message) : Prop := msg.kind = .create ∨ msg.kind = .create2

instance (msg : Message) : Decidable msg.isCreate := inferInstanceAs (Decidable (_ ∨ _))

/-- What holds when a message starts. -/
structure Pre (env : Env) (guard : Option Bytes) (msg : Message) (m : Machine) : Prop where
  gas : 0 ≤ msg.gas
  noCreate : msg.isStatic = true → ¬ msg.isCreate
  callcode : msg.kind = .callcode → live env.db m.state msg.sender = true ∧ guard ≠ some msg.sender
  delegate : msg.kind = .delegatecall →
    ∀ top rest, m.addressStack = top :: rest → live env.db m.state top = true ∧ guard ≠ some top
  code : ∀ x, guard = some x → codeHash env.db m.state x = kEmptyHash
  nonce : ∀ x, guard = some x → Spec.Execution.nonce env.db m.state x ≠ 0 ∨ (msg.isCreate ∧ msg.sender = x)
  bump : msg.isCreate → guard = some msg.sender → Spec.Execution.nonce env.db m.state msg.sender + 1 < 2 ^ 64

/-- Effects, whatever the count is; the guarded account spends at most `n`, and its nonce is increased `b` times. -/
def Leads (env : Env) (guard : Option Bytes) (static : Bool) (n b : Nat) (s t : IntraBlockState) : Prop :=
  ∀ A, ∃ A', Effects env guard static s A t A' ∧ A'.spent ≤ A.spent + n ∧ A'.bumps = A.bumps + b

theorem Leads.refl (static : Bool) (s : IntraBlockState) : Leads env guard static 0 0 s s :=
  fun A => ⟨A, .nil, Nat.le_refl _, rfl⟩

theorem Leads.trans {static : Bool} {n n' b b' : Nat} {s t u : IntraBlockState} (h : Leads env guard static n b s t)
    (g : Leads env guard static n' b' t u) : Leads env guard static (n + n') (b + b') s u := by
  intro A
  obtain ⟨A1, h1, h2, h3⟩ := h A
  obtain ⟨A2, g1, g2, g3⟩ := g A1
  exact ⟨A2, h1.trans g1, by omega, by omega⟩

theorem Leads.quiet {static : Bool} {n b : Nat} {s t u : IntraBlockState} (h : Leads env guard static n b s t)
    (g : Leads env guard static 0 0 t u) : Leads env guard static n b s u := h.trans g

theorem Leads.after {static : Bool} {n b : Nat} {s t u : IntraBlockState} (h : Leads env guard static 0 0 s t)
    (g : Leads env guard static n b t u) : Leads env guard static n b s u := by
  have := h.trans g
  rwa [Nat.zero_add, Nat.zero_add] at this

theorem Leads.read (static : Bool) (s : IntraBlockState) (o : Op) (h : IsReadOp o = true) :
    Leads env guard static 0 0 s (o.step env.crypto.keccak env.db s).2 := fun A => ⟨A, .read o h, Nat.le_refl _, rfl⟩

theorem Leads.step (static : Bool) (s : IntraBlockState) (e : Effect) (h : e.Ok env s)
    (hs : static = true → e.harmless = true) (hg : ∀ x, guard = some x → e.actor ≠ some x) :
    Leads env guard static 0 0 s (e.run env s) := by
  intro A
  refine ⟨_, .step e h hs (fun x hx ha => absurd ha (hg x hx)), ?_⟩
  cases e with
  | transfer a b v =>
    unfold Effect.count
    dsimp only
    rw [if_neg (fun hh => hg a hh rfl)]
    exact ⟨Nat.le_refl _, rfl⟩
  | bumpNonce a =>
    unfold Effect.count
    dsimp only
    rw [if_neg (fun hh => hg a hh rfl)]
    exact ⟨Nat.le_refl _, rfl⟩
  | _ => exact ⟨Nat.le_refl _, rfl⟩

theorem Leads.revert {static : Bool} {n : Nat} {s t : IntraBlockState} (h : Leads env guard static n 0 s t) :
    Leads env guard static n 0 s (t.revertToSnapshot s.takeSnapshot) := by
  intro A
  obtain ⟨A1, h1, _⟩ := h A
  exact ⟨A, h1.revert, Nat.le_add_right _ _, rfl⟩

theorem Leads.mono {x y : Bool} {n b : Nat} (h : y = true → x = true) {s t : IntraBlockState}
    (e : Leads env guard x n b s t) : Leads env guard y n b s t := by
  intro A
  obtain ⟨A1, h1, h2⟩ := e A
  exact ⟨A1, h1.mono h, h2⟩

theorem Leads.more {x : Bool} {n n' b : Nat} (h : n ≤ n') {s t : IntraBlockState} (e : Leads env guard x n b s t) :
    Leads env guard x n' b s t := by
  intro A
  obtain ⟨A1, h1, h2, h3⟩ := e A
  exact ⟨A1, h1, by omega, h3⟩

theorem Leads.alive {static : Bool} {n b : Nat} {s t : IntraBlockState} (h : Leads env guard static n b s t) (a : Bytes)
    (hl : live env.db s a = true) : live env.db t a = true := by
  obtain ⟨A1, h1, _⟩ := h {}
  exact h1.alive a hl

theorem Leads.undoable {static : Bool} {n b : Nat} {s t : IntraBlockState} (h : Leads env guard static n b s t) :
    Undoable env s t := by
  obtain ⟨A1, h1, _⟩ := h {}
  exact h1.undoable

theorem Leads.safe {static : Bool} {n b : Nat} {s t : IntraBlockState} (h : Leads env guard static n b s t)
    (hs : Safe env guard s) : Safe env guard t := by
  obtain ⟨A1, h1, _⟩ := h {}
  exact h1.safe hs

theorem Leads.code {static : Bool} {n b : Nat} {s t : IntraBlockState} (h : Leads env guard static n b s t)
    (hs : ∀ x, guard = some x → codeHash env.db s x = kEmptyHash) :
    ∀ x, guard = some x → codeHash env.db t x = kEmptyHash := by
  intro x hx
  subst hx
  obtain ⟨A1, h1, _⟩ := h {}
  have := hs x rfl
  rw [codeHash_view] at this ⊢
  exact h1.guarded.2.1.trans this

/-- What the guarded account may spend on a message. -/
def spend (guard : Option Bytes) (msg : Message) : Nat :=
  if msg.kind ≠ .delegatecall ∧ guard = some msg.sender then msg.value else 0

/-- How often its nonce is increased. -/
def bumps (env : Env) (guard : Option Bytes) (msg : Message) (s : IntraBlockState) : Nat :=
  if msg.isCreate ∧ guard = some msg.sender ∧ msg.value ≤ balance env.db s msg.sender then 1 else 0

/-- What holds when it has ended. -/
structure Post (env : Env) (guard : Option Bytes) (msg : Message) (m : Machine) (x : Result × Machine) : Prop where
  leads : Leads env guard msg.isStatic (spend guard msg) (bumps env guard msg m.state) m.state x.2.state
  stack : x.2.addressStack = m.addressStack
  gas : 0 ≤ x.1.gasLeft ∧ x.1.gasLeft ≤ msg.gas
  failed : x.1.status ≠ .success → ¬ msg.isCreate → Unchanged env m.state x.2.state

/-- `sub` does what is expected of messages. -/
def SubOk (env : Env) (guard : Option Bytes) (sub : Message → Machine → Outcome Fault (Result × Machine)) : Prop :=
  ∀ msg m x, Pre env guard msg m → sub msg m = .ok x → Post env guard msg m x

/-- What holds while code runs. -/
structure Running (env : Env) (guard : Option Bytes) (msg : Message) (m : Machine) : Prop where
  live : Spec.Execution.live env.db m.state msg.destination = true
  other : guard ≠ some msg.destination
  safe : Safe env guard m.state

/-! ## The host -/

/-- A machine whose state has been replaced. -/
theorem host_state {α : Type} {m : Machine} {a x : α} {s : IntraBlockState} {m' : Machine}
    (h : (Outcome.ok (a, { m with state := s }) : Outcome Fault (α × Machine)) = .ok (x, m')) :
    m'.state = s ∧ m'.addressStack = m.addressStack := by
  have h2 := (Prod.mk.inj (Outcome.ok.inj h)).2
  rw [← h2]
  exact ⟨rfl, rfl⟩

theorem host_ok {txn : Transaction} {sub : Message → Machine → Outcome Fault (Result × Machine)} (hsub : SubOk env guard sub)
    {msg : Message} {m : Machine} {rest : List Bytes} (hst : m.addressStack = msg.destination :: rest)
    (hrun : Running env guard msg m) (c : HostCall) (hc : CallOk msg c) (a : c.Answer) (m' : Machine)
    (h : host env txn sub m c = .ok (a, m')) :
    AnswerOk c a ∧ Leads env guard msg.isStatic 0 0 m.state m'.state ∧ m'.addressStack = m.addressStack := by
  cases c with
  | accountExists b =>
    obtain ⟨h1, h2⟩ := host_state h
    refine ⟨trivial, ?_, h2⟩
    rw [h1]
    unfold accountExists
    split
    · exact Leads.read _ _ (.isDead b) rfl
    · exact Leads.read _ _ (.doesExist b) rfl
  | accessAccount b =>
    obtain ⟨h1, h2⟩ := host_state h
    refine ⟨trivial, ?_, h2⟩
    rw [h1]
    unfold accessAccount
    split
    · exact .refl _ _
    · exact Leads.step _ _ (.accessAccount b) trivial (fun _ => rfl) (fun _ _ hh => by cases hh)
  | accessStorage b k =>
    obtain ⟨h1, h2⟩ := host_state h
    refine ⟨trivial, ?_, h2⟩
    rw [h1]
    exact Leads.step _ _ (.accessStorage b k) trivial (fun _ => rfl) (fun _ _ hh => by cases hh)
  | getStorage b k =>
    obtain ⟨h1, h2⟩ := host_state h
    refine ⟨trivial, ?_, h2⟩
    rw [h1]
    exact Leads.read _ _ (.getCurrentStorage b k) rfl
  | setStorage b k v =>
    obtain ⟨h1, h2⟩ := host_state h
    refine ⟨trivial, ?_, h2⟩
    rw [h1]
    refine Leads.step _ _ (.sstore b k v) (show live env.db m.state b = true by rw [hc.1]; exact hrun.live) ?_
      (fun x hx ha => hrun.other (by rw [hx, ← hc.1]; exact ha.symm))
    intro hs; rw [hc.2] at hs; cases hs
  | getBalance b =>
    obtain ⟨h1, h2⟩ := host_state h
    refine ⟨trivial, ?_, h2⟩
    rw [h1]
    exact Leads.read _ _ (.getBalance b) rfl
  | getCodeSize b =>
    obtain ⟨h1, h2⟩ := host_state h
    refine ⟨trivial, ?_, h2⟩
    rw [h1]
    exact Leads.read _ _ (.getCode b) rfl
  | getCodeHash b =>
    obtain ⟨h1, h2⟩ := host_state h
    refine ⟨trivial, ?_, h2⟩
    rw [h1]
    have k1 : Leads env guard msg.isStatic 0 0 m.state (isDead env.db m.state b).2 := Leads.read _ _ (.isDead b) rfl
    unfold getCodeHash
    dsimp only
    split
    · exact k1
    · exact k1.quiet (Leads.read _ _ (.getCodeHash b) rfl)
  | copyCode b o n =>
    obtain ⟨h1, h2⟩ := host_state h
    refine ⟨trivial, ?_, h2⟩
    rw [h1]
    have k1 : Leads env guard msg.isStatic 0 0 m.state (getCode env.db m.state b).2 := Leads.read _ _ (.getCode b) rfl
    unfold copyCode
    dsimp only
    split
    · exact k1
    · exact k1
  | selfdestruct b c =>
    obtain ⟨h1, h2⟩ := host_state h
    refine ⟨trivial, ?_, h2⟩
    rw [h1]
    refine Leads.step _ _ (.selfdestruct b c) (show live env.db m.state b = true by rw [hc.1]; exact hrun.live) ?_
      (fun x hx ha => hrun.other (by rw [hx, ← hc.1]; exact ha.symm))
    intro hs; rw [hc.2] at hs; cases hs
  | call q =>
    obtain ⟨c1, _, _, c4, c5, c6⟩ := hc
    have hb : (sub q m).bind (fun r =>
        (.ok (if q.kind = .create ∨ q.kind = .create2 then stripOutput r.1 else r.1, r.2) :
          Outcome Fault (Result × Machine))) = .ok (a, m') := h
    obtain ⟨x, h1, h2⟩ := Outcome.bind_eq_ok.mp hb
    have h3 := Prod.mk.inj (Outcome.ok.inj h2)
    have hsend : q.kind ≠ .delegatecall → guard ≠ some q.sender := fun hk hg => hrun.other (by rw [← c1 hk]; exact hg)
    have hpre : Pre env guard q m := by
      refine ⟨c4, fun hs hk => ?_, fun hk => ?_, fun _ top rest' ht => ?_, fun x hx => (hrun.safe x hx).1,
        fun x hx => Or.inl (hrun.safe x hx).2, fun hk hg => ?_⟩
      · rcases hk with hk | hk
        · exact (c6 hs).1 hk
        · exact (c6 hs).2 hk
      · refine ⟨?_, hsend (by rw [hk]; decide)⟩
        rw [c1 (by rw [hk]; decide)]; exact hrun.live
      · rw [hst] at ht
        rw [← (List.cons.inj ht).1]; exact ⟨hrun.live, hrun.other⟩
      · refine absurd hg (hsend ?_)
        rcases hk with hk | hk <;> (rw [hk]; decide)
    have hpost := hsub q m x hpre h1
    have hsp : spend guard q = 0 := by unfold spend; rw [if_neg (fun hh => hsend hh.1 hh.2)]
    have hbm : bumps env guard q m.state = 0 := by
      unfold bumps
      rw [if_neg]
      intro hh
      refine absurd hh.2.1 (hsend ?_)
      rcases hh.1 with hk | hk <;> (rw [hk]; decide)
    rw [← h3.2]
    refine ⟨?_, ?_, hpost.stack⟩
    rotate_left
    · have := hpost.leads
      rw [hsp, hbm] at this
      exact this.mono c5
    show 0 ≤ Result.gasLeft a ∧ Result.gasLeft a ≤ q.gas
    rw [← h3.1]
    have hg : (stripOutput x.1).gasLeft = x.1.gasLeft := by unfold stripOutput; split <;> rfl
    split
    · rw [hg]; exact hpost.gas
    · exact hpost.gas
  | getTxContext =>
    obtain ⟨x, _, h2⟩ := Outcome.bind_eq_ok.mp (show (lift (getTxContext env txn)).bind (fun c =>
      (.ok (c, m) : Outcome Fault (TxContext × Machine))) = .ok (a, m') from h)
    rw [← (Prod.mk.inj (Outcome.ok.inj h2)).2]
    exact ⟨trivial, .refl _ _, rfl⟩
  | getBlockHash n =>
    obtain ⟨x, _, h2⟩ := Outcome.bind_eq_ok.mp (show (lift (getBlockHash env m.blockHashes n)).bind (fun r =>
      (.ok (r.1, { m with blockHashes := r.2 }) : Outcome Fault (Bytes × Machine))) = .ok (a, m') from h)
    rw [← (Prod.mk.inj (Outcome.ok.inj h2)).2]
    exact ⟨trivial, .refl _ _, rfl⟩
  | emitLog b d t =>
    obtain ⟨h1, h2⟩ := host_state h
    refine ⟨trivial, ?_, h2⟩
    rw [h1]
    refine Leads.step _ _ (.log ⟨b, t, d⟩) trivial ?_
      (fun x hx ha => hrun.other (by rw [hx, ← hc.1]; exact ha.symm))
    intro hs; rw [hc.2] at hs; cases hs

theorem run_program {txn : Transaction} {sub : Message → Machine → Outcome Fault (Result × Machine)} (hsub : SubOk env guard sub)
    {msg : Message} {rest : List Bytes} {prog : Program} (hp : ProgramOk msg prog) {m : Machine}
    (hst : m.addressStack = msg.destination :: rest) (hrun : Running env guard msg m)
    {x : Result × Machine} (h : runProgram env txn sub prog m = .ok x) :
    Leads env guard msg.isStatic 0 0 m.state x.2.state ∧ x.2.addressStack = m.addressStack ∧
      0 ≤ x.1.gasLeft ∧ x.1.gasLeft ≤ msg.gas := by
  induction hp generalizing m with
  | done h1 h2 =>
    unfold runProgram at h
    rw [← Outcome.ok.inj h]
    exact ⟨.refl _ _, rfl, h1, h2⟩
  | @ask c next hc _ ih =>
    unfold runProgram at h
    obtain ⟨y, h1, h2⟩ := Outcome.bind_eq_ok.mp h
    obtain ⟨k1, k2, k3⟩ := host_ok hsub hst hrun c hc y.1 y.2 h1
    obtain ⟨g1, g2, g3⟩ := ih y.1 k1 (k3.trans hst) ⟨k2.alive _ hrun.live, hrun.other, k2.safe hrun.safe⟩ h2
    exact ⟨k2.quiet g1, g2.trans k3, g3⟩

theorem execute_code {txn : Transaction} {sub : Message → Machine → Outcome Fault (Result × Machine)} (hsub : SubOk env guard sub)
    (hi : InterpreterOk env.interpreter) {msg : Message} {code : Bytes} (hg : 0 ≤ msg.gas) {m : Machine}
    (hrun : Running env guard msg m) {x : Result × Machine}
    (h : executeCode env txn sub msg code m = .ok x) :
    Leads env guard msg.isStatic 0 0 m.state x.2.state ∧ x.2.addressStack = m.addressStack ∧
      0 ≤ x.1.gasLeft ∧ x.1.gasLeft ≤ msg.gas := by
  unfold executeCode at h
  obtain ⟨y, h1, h2⟩ := Outcome.bind_eq_ok.mp h
  obtain ⟨k1, k2, k3⟩ := run_program hsub (hi env.revision msg code hg)
    (m := { m with addressStack := msg.destination :: m.addressStack }) rfl ⟨hrun.live, hrun.other, hrun.safe⟩ h1
  obtain ⟨q, h3, h4⟩ := Outcome.bind_eq_ok.mp h2
  have e : q = { y.2 with addressStack := m.addressStack } := by
    unfold Machine.pop at h3
    rw [k2] at h3
    exact (Outcome.ok.inj h3).symm
  rw [← Outcome.ok.inj h4, e]
  exact ⟨k1, rfl, k3⟩

/-! ## Creation -/

/-- A transfer, possibly by the guarded account. -/
theorem Leads.transfer (static : Bool) (hs : static = false) (s : IntraBlockState) (a b : Bytes) (v : Nat)
    (h : v ≤ balance env.db s a) :
    Leads env guard static (if guard = some a then v else 0) 0 s
      (addToBalance env.db (subtractFromBalance env.db s a v) b v) := by
  intro A
  refine ⟨_, .step (.transfer a b v) h (fun hh => by rw [hs] at hh; cases hh) (fun _ _ _ => trivial), ?_⟩
  unfold Effect.count
  dsimp only
  split
  · exact ⟨Nat.le_refl _, rfl⟩
  · exact ⟨Nat.le_refl _, rfl⟩

/-- A nonce is increased. -/
theorem Leads.bump (static : Bool) (hs : static = false) (s : IntraBlockState) (a : Bytes)
    (h : guard = some a → nonce env.db s a + 1 < 2 ^ 64) :
    Leads env guard static 0 (if guard = some a then 1 else 0) s
      (setNonce env.db s a ((nonce env.db s a + 1) % 2 ^ 64)) := by
  intro A
  refine ⟨_, .step (.bumpNonce a) trivial (fun hh => by rw [hs] at hh; cases hh) (fun x hx ha => ?_), ?_⟩
  · have hax : a = x := Option.some.inj ha
    subst hax
    exact h hx
  · unfold Effect.count
    dsimp only
    split
    · exact ⟨Nat.le_refl _, rfl⟩
    · exact ⟨Nat.le_refl _, rfl⟩

theorem Leads.open (msg : Message) (address : Bytes) (s : IntraBlockState)
    (hb : msg.value ≤ balance env.db s msg.sender) (hn : nonce env.db s address = 0)
    (hh : codeHash env.db s address = kEmptyHash) (hg : guard ≠ some address) :
    Leads env guard false (if guard = some msg.sender then msg.value else 0) 0 s (openContract env msg address s) ∧
      live env.db (openContract env msg address s) address = true := by
  have h1 : Leads env guard false 0 0 s (Effect.run env s (.newContract address)) :=
    Leads.step _ _ (.newContract address) ⟨hn, hh⟩ (fun h => by cases h) (fun x hx ha => hg (by rw [hx]; exact ha.symm))
  have hbal : balance env.db (Effect.run env s (.newContract address)) msg.sender = balance env.db s msg.sender := by
    have hc : (view env.db (createContract env.db s address)).bal msg.sender = (view env.db s).bal msg.sender := by
      rw [createContract_view]
      unfold View.bal View.createContract View.cur upd
      dsimp only
      by_cases h : msg.sender = address
      · rw [if_pos h, h]
        rfl
      · rw [if_neg h]
    rw [balance_view, balance_view]
    unfold Effect.run
    dsimp only
    split
    · rw [bal_setNonce, hc]
    · exact hc
  have hl : live env.db (Effect.run env s (.newContract address)) address = true := by
    have hc : live env.db (createContract env.db s address) address = true := by
      rw [live_view, createContract_view]
      unfold View.createContract View.cur upd
      dsimp only
      rw [if_pos rfl]
      rfl
    unfold Effect.run
    dsimp only
    split
    · exact op_live (.setNonce address 1) _ _ hc
    · exact hc
  have h2 := Leads.transfer (env := env) (guard := guard) false rfl (Effect.run env s (.newContract address)) msg.sender
    address msg.value (by rw [hbal]; exact hb)
  exact ⟨h1.after h2, h2.alive _ hl⟩

theorem deposit_ok (address : Bytes) (r : Result) (s : IntraBlockState) (hl : live env.db s address = true)
    (hg : 0 ≤ r.gasLeft) (ho : guard ≠ some address) :
    Leads env guard false 0 0 s (depositCode env address r s).2 ∧ 0 ≤ (depositCode env address r s).1.gasLeft ∧
      (depositCode env address r s).1.gasLeft ≤ r.gasLeft := by
  unfold depositCode
  dsimp only
  split
  · split
    · exact ⟨.refl _ _, hg, Int.le_refl _⟩
    · next h1 =>
      split
      · exact ⟨.refl _ _, hg, Int.le_refl _⟩
      · next h2 =>
        split
        · next h3 =>
          refine ⟨Leads.step _ _ (.deposit address r.output) ⟨hl, fun hr he => h1 ⟨hr, he⟩, fun hr => ?_⟩ (fun h => by cases h)
            (fun x hx ha => ho (by rw [hx]; exact ha.symm)), ?_, ?_⟩
          · exact Nat.le_of_not_lt fun hlt => h2 ⟨hr, hlt⟩
          · have := h3.2; dsimp only; omega
          · dsimp only; omega
        · split
          · exact ⟨.refl _ _, hg, Int.le_refl _⟩
          · exact ⟨.refl _ _, hg, Int.le_refl _⟩
  · exact ⟨.refl _ _, hg, Int.le_refl _⟩

theorem settle_ok {static : Bool} {n : Nat} {s t : IntraBlockState} (h : Leads env guard static n 0 s t) (r : Result)
    (hg : 0 ≤ r.gasLeft) :
    Leads env guard static n 0 s (settle s.takeSnapshot r t).2 ∧ 0 ≤ (settle s.takeSnapshot r t).1.gasLeft ∧
      (settle s.takeSnapshot r t).1.gasLeft ≤ r.gasLeft ∧
      ((settle s.takeSnapshot r t).1.status ≠ .success → Unchanged env s (settle s.takeSnapshot r t).2) := by
  unfold settle
  split
  · next hs => exact ⟨h, hg, Int.le_refl _, fun hn => absurd hs hn⟩
  · refine ⟨h.revert, ?_, ?_, fun _ => .of_revert h.undoable⟩
    · dsimp only; split
      · exact hg
      · exact Int.le_refl _
    · dsimp only; split
      · exact Int.le_refl _
      · exact hg

theorem create_ok {txn : Transaction} {sub : Message → Machine → Outcome Fault (Result × Machine)}
    (hsub : SubOk env guard sub) (hi : InterpreterOk env.interpreter) {msg : Message} (hk : msg.isCreate) {m : Machine}
    (hpre : Pre env guard msg m) {x : Result × Machine} (h : create env txn sub msg m = .ok x) :
    Post env guard msg m x := by
  have hst : msg.isStatic = false := by
    cases hs : msg.isStatic with
    | false => rfl
    | true => exact absurd hk (hpre.noCreate hs)
  have hkd : msg.kind ≠ .delegatecall := by rcases hk with hk | hk <;> (rw [hk]; decide)
  have hsp : spend guard msg = if guard = some msg.sender then msg.value else 0 := by
    unfold spend
    by_cases hg : guard = some msg.sender
    · rw [if_pos ⟨hkd, hg⟩, if_pos hg]
    · rw [if_neg (fun hh => hg hh.2), if_neg hg]
  unfold create at h
  dsimp only at h
  have h1 : Leads env guard msg.isStatic 0 0 m.state (getBalance env.db m.state msg.sender).2 :=
    Leads.read _ _ (.getBalance msg.sender) rfl
  have k1 : Same env.db m.state (getBalance env.db m.state msg.sender).2 :=
    read_same (env := env) m.state (o := .getBalance msg.sender) rfl
  by_cases hv : (getBalance env.db m.state msg.sender).1 < msg.value
  · rw [if_pos hv] at h
    rw [← Outcome.ok.inj h]
    have hbm : bumps env guard msg m.state = 0 := by
      unfold bumps
      rw [if_neg]
      intro hh
      exact absurd hv (Nat.not_lt.mpr hh.2.2)
    refine ⟨?_, rfl, ⟨hpre.gas, Int.le_refl _⟩, fun _ hn => absurd hk hn⟩
    rw [hbm]
    exact h1.more (Nat.zero_le _)
  · rw [if_neg hv] at h
    have hbm : bumps env guard msg m.state = if guard = some msg.sender then 1 else 0 := by
      unfold bumps
      by_cases hg : guard = some msg.sender
      · rw [if_pos ⟨hk, hg, Nat.le_of_not_lt hv⟩, if_pos hg]
      · rw [if_neg (fun hh => hg hh.2.1), if_neg hg]
    have hb : msg.value ≤ balance env.db (getBalance env.db m.state msg.sender).2 msg.sender := by
      rw [balance_of_same k1]; exact Nat.le_of_not_lt hv
    generalize (getBalance env.db m.state msg.sender).2 = s1 at h h1 hb k1
    have h2 : Leads env guard msg.isStatic 0 0 s1 (getNonce env.db s1 msg.sender).2 :=
      Leads.read _ _ (.getNonce msg.sender) rfl
    have k2 : Same env.db s1 (getNonce env.db s1 msg.sender).2 := read_same (env := env) s1 (o := .getNonce msg.sender) rfl
    have hn : (getNonce env.db s1 msg.sender).1 = nonce env.db (getNonce env.db s1 msg.sender).2 msg.sender :=
      (nonce_of_same k2 msg.sender).symm
    rw [hn] at h
    have hb2 : msg.value ≤ balance env.db (getNonce env.db s1 msg.sender).2 msg.sender := by
      rw [balance_of_same k2]; exact hb
    generalize (getNonce env.db s1 msg.sender).2 = s2 at h h2 hb2 k2
    have hn2 : ∀ y, nonce env.db s2 y = nonce env.db m.state y := fun y => by rw [nonce_of_same k2, nonce_of_same k1]
    have h3 := Leads.bump (env := env) (guard := guard) msg.isStatic hst s2 msg.sender
      (fun hg => by rw [hn2]; exact hpre.bump hk hg)
    have hb3 : ∀ n, balance env.db (setNonce env.db s2 msg.sender n) msg.sender = balance env.db s2 msg.sender := by
      intro n; rw [balance_view, balance_view, bal_setNonce]
    have hb3 := hb3 ((nonce env.db s2 msg.sender + 1) % 2 ^ 64)
    have hs3 : Safe env guard (setNonce env.db s2 msg.sender ((nonce env.db s2 msg.sender + 1) % 2 ^ 64)) := by
      intro y hy
      refine ⟨((h1.quiet h2).trans h3).code hpre.code y hy, ?_⟩
      have e : ∀ n, nonce env.db (setNonce env.db s2 msg.sender n) y = if y = msg.sender then n else nonce env.db s2 y := by
        intro n; rw [nonce_view, nonce_view, nonce_setNonce]
      rw [e]
      by_cases hys : y = msg.sender
      · subst hys
        rw [if_pos rfl, hn2]
        have := hpre.bump hk hy
        rw [Nat.mod_eq_of_lt this]
        exact Nat.succ_ne_zero _
      · rw [if_neg hys, hn2]
        rcases hpre.nonce y hy with hh | hh
        · exact hh
        · exact absurd hh.2.symm hys
    generalize setNonce env.db s2 msg.sender ((nonce env.db s2 msg.sender + 1) % 2 ^ 64) = s3 at h h3 hb3 hs3
    generalize contractAddress env msg (nonce env.db s2 msg.sender) = address at h
    have h4 : Leads env guard msg.isStatic 0 0 s3 (s3.accessAccount address).2 :=
      Leads.step _ _ (.accessAccount address) trivial (fun _ => rfl) (fun _ _ hh => by cases hh)
    have hb4 : balance env.db (s3.accessAccount address).2 msg.sender = balance env.db s3 msg.sender := by
      rw [balance_view, balance_view, accessAccount_view]; rfl
    generalize (s3.accessAccount address).2 = s4 at h h4 hb4
    have h5 : Leads env guard msg.isStatic 0 0 s4 (getNonce env.db s4 address).2 := Leads.read _ _ (.getNonce address) rfl
    have k5 : Same env.db s4 (getNonce env.db s4 address).2 := read_same (env := env) s4 (o := .getNonce address) rfl
    have hn5 : (getNonce env.db s4 address).1 = nonce env.db (getNonce env.db s4 address).2 address :=
      (nonce_of_same k5 address).symm
    have hb5 := balance_of_same k5 msg.sender
    rw [hn5] at h
    generalize (getNonce env.db s4 address).2 = s5 at h h5 hb5
    have h6 : Leads env guard msg.isStatic 0 0 s5 (IntraBlockState.getCodeHash env.db s5 address).2 :=
      Leads.read _ _ (.getCodeHash address) rfl
    have k6 : Same env.db s5 (IntraBlockState.getCodeHash env.db s5 address).2 :=
      read_same (env := env) s5 (o := .getCodeHash address) rfl
    have hc6 : (IntraBlockState.getCodeHash env.db s5 address).1 =
        codeHash env.db (IntraBlockState.getCodeHash env.db s5 address).2 address := (codeHash_of_same k6 address).symm
    have hb6 := balance_of_same k6 msg.sender
    have hn6 := nonce_of_same k6 address
    rw [hc6, ← hn6] at h
    generalize (IntraBlockState.getCodeHash env.db s5 address).2 = s6 at h h6 hb6 hn6
    have hsafe : Safe env guard s6 := ((h4.quiet h5).quiet h6).safe hs3
    have hlead := (h1.quiet h2).after (((h3.quiet h4).quiet h5).quiet h6)
    rw [← hbm] at hlead
    have hbal : msg.value ≤ balance env.db s6 msg.sender := by rw [hb6, hb5, hb4, hb3]; exact hb2
    by_cases hx : nonce env.db s6 address ≠ 0 ∨ codeHash env.db s6 address ≠ kEmptyHash
    · rw [if_pos hx] at h
      rw [← Outcome.ok.inj h]
      exact ⟨hlead.more (Nat.zero_le _), rfl, ⟨Int.le_refl _, hpre.gas⟩, fun _ hn => absurd hk hn⟩
    · rw [if_neg hx] at h
      have hx1 : nonce env.db s6 address = 0 := Classical.byContradiction fun hh => hx (Or.inl hh)
      have hx2 : codeHash env.db s6 address = kEmptyHash := Classical.byContradiction fun hh => hx (Or.inr hh)
      have hga : guard ≠ some address := fun hg => (hsafe address hg).2 hx1
      unfold deploy at h
      dsimp only at h
      obtain ⟨o1, o2⟩ := Leads.open msg address s6 hbal hx1 hx2 hga
      generalize openContract env msg address s6 = s7 at h o1 o2
      obtain ⟨y, g1, g2⟩ := Outcome.bind_eq_ok.mp h
      obtain ⟨e1, e2, e3, e4⟩ := execute_code hsub hi (msg := deployMessage msg address) hpre.gas
        (m := { m with state := s7 }) ⟨o2, hga, o1.safe hsafe⟩ g1
      have e1 : Leads env guard false 0 0 s7 y.2.state := e1
      obtain ⟨d1, d2, d3⟩ := deposit_ok (env := env) address y.1 y.2.state (e1.alive _ o2) e3 hga
      obtain ⟨t1, t2, t3, _⟩ := settle_ok ((o1.quiet e1).quiet d1) (depositCode env address y.1 y.2.state).1 d2
      rw [← Outcome.ok.inj g2]
      refine ⟨?_, e2, ?_, fun _ hn => absurd hk hn⟩
      · rw [hsp]
        rw [hst] at hlead ⊢
        have := hlead.trans t1
        rwa [Nat.zero_add] at this
      · dsimp only
        have e4 : y.1.gasLeft ≤ msg.gas := e4
        split
        · exact ⟨t2, by dsimp only; omega⟩
        · exact ⟨t2, by omega⟩

/-! ## Calls -/

theorem transfer_ok (msg : Message) (r : Bytes) (s : IntraBlockState)
    (hb : msg.kind ≠ .delegatecall → msg.value ≤ balance env.db s msg.sender) :
    Leads env guard msg.isStatic (spend guard msg) 0 s (transfer env msg r s) := by
  unfold transfer
  split
  · next hk =>
    have hkd : msg.kind ≠ .delegatecall := by rw [hk]; decide
    split
    · exact (Leads.step _ _ (.touch r) trivial (fun _ => rfl) (fun _ _ hh => by cases hh)).more (Nat.zero_le _)
    · next hs =>
      refine (Leads.transfer msg.isStatic (by simpa using hs) s msg.sender r msg.value (hb hkd)).more ?_
      unfold spend
      by_cases hg : guard = some msg.sender
      · rw [if_pos hg, if_pos ⟨hkd, hg⟩]; exact Nat.le_refl _
      · rw [if_neg hg]; exact Nat.zero_le _
  · exact (Leads.refl _ _).more (Nat.zero_le _)

theorem precompiled_gas {msg : Message} (hg : 0 ≤ msg.gas) {r : Result} (h : lift (runPrecompiled env msg) = .ok r) :
    0 ≤ r.gasLeft ∧ r.gasLeft ≤ msg.gas := by
  have h : runPrecompiled env msg = .ok r := by
    generalize runPrecompiled env msg = o at h
    cases o with
    | ok a => unfold lift at h; exact congrArg _ (Outcome.ok.inj h)
    | err e => exact e.elim
    | ub => unfold lift at h; cases h
  unfold runPrecompiled at h
  obtain ⟨g, _, h2⟩ := Outcome.bind_eq_ok.mp h
  dsimp only at h2
  split at h2
  · rw [← Outcome.ok.inj h2]; exact ⟨hg, Int.le_refl _⟩
  · next hn =>
    obtain ⟨o, _, h4⟩ := Outcome.bind_eq_ok.mp h2
    cases o with
    | none => rw [← Outcome.ok.inj h4]; exact ⟨hg, Int.le_refl _⟩
    | some out =>
      rw [← Outcome.ok.inj h4]
      dsimp only
      constructor <;> omega

theorem code_live {s : IntraBlockState} {a : Bytes} (h : ¬ (getCode env.db s a).1.isEmpty = true) :
    live env.db s a = true ∧ codeHash env.db s a ≠ kEmptyHash := by
  obtain ⟨t, e, _⟩ := getCode_eq (db := env.db) s a
  rw [e] at h
  rw [live_view, codeHash_view]
  show (curOf env.db s a).isSome = true ∧ ((curOf env.db s a).map (·.codeHash)).getD kEmptyHash ≠ kEmptyHash
  cases hc : curOf env.db s a with
  | none => rw [hc] at h; exact absurd rfl h
  | some c =>
    refine ⟨rfl, fun hh => h ?_⟩
    rw [hc]
    have hh : c.codeHash = kEmptyHash := hh
    unfold codeOf
    simp [hh]

theorem runCode_ok {txn : Transaction} {sub : Message → Machine → Outcome Fault (Result × Machine)}
    (hsub : SubOk env guard sub) (hi : InterpreterOk env.interpreter) {msg : Message} {r : Bytes} {m : Machine}
    (hg : 0 ≤ msg.gas) (hs : Safe env guard m.state)
    (hr : msg.destination = r ∨ (live env.db m.state r = true ∧ guard ≠ some r))
    {x : Result × Machine} (h : runCode env txn sub msg r m = .ok x) :
    Leads env guard msg.isStatic 0 0 m.state x.2.state ∧ x.2.addressStack = m.addressStack ∧
      0 ≤ x.1.gasLeft ∧ x.1.gasLeft ≤ msg.gas := by
  unfold runCode at h
  dsimp only at h
  have h1 : Leads env guard msg.isStatic 0 0 m.state (getCode env.db m.state msg.destination).2 :=
    Leads.read _ _ (.getCode msg.destination) rfl
  by_cases hc : (getCode env.db m.state msg.destination).1.isEmpty = true
  · rw [if_pos hc] at h
    rw [← Outcome.ok.inj h]
    exact ⟨h1, rfl, hg, Int.le_refl _⟩
  · rw [if_neg hc] at h
    have hl : live env.db m.state r = true ∧ guard ≠ some r := by
      rcases hr with rfl | hr
      · exact ⟨(code_live hc).1, fun hh => (code_live hc).2 (hs _ hh).1⟩
      · exact hr
    generalize (getCode env.db m.state msg.destination).2 = s1 at h h1
    have h2 : Leads env guard msg.isStatic 0 0 s1 (IntraBlockState.getCodeHash env.db s1 msg.destination).2 :=
      Leads.read _ _ (.getCodeHash msg.destination) rfl
    generalize (IntraBlockState.getCodeHash env.db s1 msg.destination).2 = s2 at h h2
    have h12 := h1.quiet h2
    obtain ⟨e1, e2, e3, e4⟩ := execute_code hsub hi (msg := { msg with destination := r }) hg
      (m := { m with state := s2 }) ⟨h12.alive _ hl.1, hl.2, h12.safe hs⟩ h
    exact ⟨h12.quiet e1, e2, e3, e4⟩

theorem enter_ok {txn : Transaction} {sub : Message → Machine → Outcome Fault (Result × Machine)}
    (hsub : SubOk env guard sub) (hi : InterpreterOk env.interpreter) {msg : Message} {r : Bytes} {m : Machine}
    (hk : ¬ msg.isCreate) (hg : 0 ≤ msg.gas) (hs : Safe env guard m.state)
    (hb : msg.kind ≠ .delegatecall → msg.value ≤ balance env.db m.state msg.sender)
    (hr : msg.destination = r ∨ (live env.db m.state r = true ∧ guard ≠ some r))
    {x : Result × Machine} (h : enter env txn sub msg r m = .ok x) : Post env guard msg m x := by
  have hbm : bumps env guard msg m.state = 0 := by unfold bumps; rw [if_neg (fun hh => hk hh.1)]
  unfold enter at h
  dsimp only at h
  obtain ⟨y, h1, h2⟩ := Outcome.bind_eq_ok.mp h
  have ht := transfer_ok (env := env) (guard := guard) msg r m.state hb
  have key : Leads env guard msg.isStatic (spend guard msg) 0 m.state y.2.state ∧ y.2.addressStack = m.addressStack ∧
      0 ≤ y.1.gasLeft ∧ y.1.gasLeft ≤ msg.gas := by
    by_cases hp : env.isPrecompiled msg.destination = true
    · rw [if_pos hp] at h1
      obtain ⟨q, g1, g2⟩ := Outcome.bind_eq_ok.mp h1
      rw [← Outcome.ok.inj g2]
      exact ⟨ht, rfl, precompiled_gas hg g1⟩
    · rw [if_neg hp] at h1
      obtain ⟨e1, e2, e3⟩ := runCode_ok hsub hi (m := { m with state := transfer env msg r m.state }) hg (ht.safe hs)
        (hr.imp id fun hh => ⟨ht.alive _ hh.1, hh.2⟩) h1
      exact ⟨ht.quiet e1, e2, e3⟩
  obtain ⟨k1, k2, k3, k4⟩ := key
  obtain ⟨t1, t2, t3, t4⟩ := settle_ok k1 y.1 k3
  rw [← Outcome.ok.inj h2]
  refine ⟨?_, k2, ⟨t2, by dsimp only; omega⟩, fun hn _ => t4 hn⟩
  rw [hbm]
  exact t1

theorem recipient_live {msg : Message} {m : Machine} (hpre : Pre env guard msg m) {r : Bytes}
    (h : recipient msg m.addressStack = .ok r) :
    msg.destination = r ∨ (live env.db m.state r = true ∧ guard ≠ some r) := by
  unfold recipient at h
  cases hk : msg.kind with
  | callcode => rw [hk] at h; rw [← Outcome.ok.inj h]; exact Or.inr (hpre.callcode hk)
  | delegatecall =>
    rw [hk] at h
    cases hs : m.addressStack with
    | nil => rw [hs] at h; cases h
    | cons top rest => rw [hs] at h; rw [← Outcome.ok.inj h]; exact Or.inr (hpre.delegate hk top rest hs)
  | call => rw [hk] at h; exact Or.inl (Outcome.ok.inj h)
  | create => rw [hk] at h; cases h
  | create2 => rw [hk] at h; cases h

theorem Post.from {msg : Message} (hk : ¬ msg.isCreate) {m : Machine} {s : IntraBlockState} {x : Result × Machine}
    (hs : Leads env guard msg.isStatic 0 0 m.state s) (hu : Unchanged env m.state s)
    (h : Post env guard msg { m with state := s } x) : Post env guard msg m x := by
  have e : ∀ t, bumps env guard msg t = 0 := fun t => by unfold bumps; rw [if_neg (fun hh => hk hh.1)]
  refine ⟨?_, h.stack, h.gas, fun a b => hu.trans (h.failed a b)⟩
  have := h.leads
  rw [e] at this ⊢
  exact hs.after this

theorem call_ok {txn : Transaction} {sub : Message → Machine → Outcome Fault (Result × Machine)}
    (hsub : SubOk env guard sub) (hi : InterpreterOk env.interpreter) {msg : Message} (hk : ¬ msg.isCreate) {m : Machine}
    (hpre : Pre env guard msg m) {x : Result × Machine} (h : call env txn sub msg m = .ok x) :
    Post env guard msg m x := by
  have hbm : ∀ t, bumps env guard msg t = 0 := fun t => by unfold bumps; rw [if_neg (fun hh => hk hh.1)]
  have hsafe : Safe env guard m.state := fun y hy => ⟨hpre.code y hy, (hpre.nonce y hy).resolve_right (fun hh => hk hh.1)⟩
  unfold call at h
  dsimp only at h
  have hb : ∃ b : Nat × IntraBlockState,
      b = (if msg.kind = .delegatecall then (msg.value, m.state) else getBalance env.db m.state msg.sender) ∧
      Leads env guard msg.isStatic 0 0 m.state b.2 ∧ Same env.db m.state b.2 ∧
      (msg.kind ≠ .delegatecall → b.1 = balance env.db b.2 msg.sender) := by
    refine ⟨_, rfl, ?_⟩
    split
    · next hk => exact ⟨.refl _ _, Same.refl _, fun hn => absurd hk hn⟩
    · have k1 : Same env.db m.state (getBalance env.db m.state msg.sender).2 :=
        read_same (env := env) m.state (o := .getBalance msg.sender) rfl
      exact ⟨Leads.read _ _ (.getBalance msg.sender) rfl, k1, fun _ => (balance_of_same k1 msg.sender).symm⟩
  obtain ⟨b, hbe, b1, b2, b3⟩ := hb
  rw [← hbe] at h
  by_cases hv : msg.kind ≠ .delegatecall ∧ b.1 < msg.value
  · rw [if_pos hv] at h
    rw [← Outcome.ok.inj h]
    refine ⟨?_, rfl, ⟨hpre.gas, Int.le_refl _⟩, fun _ _ => .of_same b2⟩
    rw [hbm]
    exact b1.more (Nat.zero_le _)
  · rw [if_neg hv] at h
    obtain ⟨r, h1, h2⟩ := Outcome.bind_eq_ok.mp h
    have hr := recipient_live hpre h1
    have hbal : msg.kind ≠ .delegatecall → msg.value ≤ balance env.db b.2 msg.sender := by
      intro hk
      rw [← b3 hk]
      exact Nat.le_of_not_lt fun hlt => hv ⟨hk, hlt⟩
    have hrb : msg.destination = r ∨ (live env.db b.2 r = true ∧ guard ≠ some r) :=
      hr.imp id (fun hl => ⟨b1.alive _ hl.1, hl.2⟩)
    split at h2
    · have k2 : Same env.db b.2 (exists? env.db b.2 msg.destination).2 :=
        read_same (env := env) b.2 (o := .doesExist msg.destination) rfl
      have l2 : Leads env guard msg.isStatic 0 0 b.2 (exists? env.db b.2 msg.destination).2 :=
        Leads.read _ _ (.doesExist msg.destination) rfl
      split at h2
      · rw [← Outcome.ok.inj h2]
        refine ⟨?_, rfl, ⟨hpre.gas, Int.le_refl _⟩, fun hn _ => absurd rfl hn⟩
        rw [hbm]
        exact (b1.quiet l2).more (Nat.zero_le _)
      · refine Post.from hk (b1.quiet l2) ((Unchanged.of_same b2).trans (.of_same k2))
          (enter_ok hsub hi hk hpre.gas ((b1.quiet l2).safe hsafe) ?_ (hrb.imp id (fun hl => ⟨l2.alive _ hl.1, hl.2⟩)) h2)
        intro hk
        show _ ≤ balance env.db (exists? env.db b.2 msg.destination).2 msg.sender
        rw [balance_of_same k2]
        exact hbal hk
    · exact Post.from hk b1 (.of_same b2) (enter_ok hsub hi hk hpre.gas (b1.safe hsafe) hbal hrb h2)

/-- Messages do what is expected, however deep they are nested. -/
theorem message_ok {txn : Transaction} (hi : InterpreterOk env.interpreter) (fuel : Nat) :
    SubOk env guard (message env txn fuel) := by
  induction fuel with
  | zero => intro msg m x _ h; cases h
  | succ n ih =>
    intro msg m x hpre h
    unfold message at h
    by_cases hk : msg.kind = .create ∨ msg.kind = .create2
    · rw [if_pos hk] at h; exact create_ok ih hi hk hpre h
    · rw [if_neg hk] at h; exact call_ok ih hi hk hpre h

end Silkworm.Evm
