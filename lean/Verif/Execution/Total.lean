import Verif.Execution.Messages
import Verif.Properties.Precompiled

/-!
# Lemmas: execution is defined
-/

namespace Silkworm.Evm

open IntraBlockState
open Spec.Execution

variable {env : Env}

/-- What is needed of a message, and what it ensures, apart from the state. -/
def SubTotal (txn : Transaction) (fuel : Nat) (env : Env) : Prop :=
  ∀ (msg : Message) (m : Machine), 0 ≤ msg.gas → msg.gas < 2 ^ 62 → 1026 ≤ msg.depth + fuel → msg.depth ≤ 1024 →
    (msg.kind = .delegatecall → m.addressStack ≠ []) →
    ∃ x, message env txn fuel msg m = .ok x ∧ x.2.addressStack = m.addressStack ∧ 0 ≤ x.1.gasLeft ∧ x.1.gasLeft ≤ msg.gas

theorem okBind {ε α β : Type} {o : Outcome ε α} {a : α} (h : o = .ok a) (f : α → Outcome ε β) : o.bind f = f a := by rw [h]; rfl

/-- What is assumed of the transaction: it has a sender and pays the base fee. -/
structure TxnOk (env : Env) (txn : Transaction) : Prop where
  sender : ∃ a, txn.sender = some a
  fee : env.block.header.baseFeePerGas.getD 0 ≤ txn.maxFeePerGas
  maxFee : txn.maxFeePerGas < 2 ^ 256

theorem host_total {txn : Transaction} (ht : TxnOk env txn) (hb : env.block.header.number < 2 ^ 64) {fuel : Nat}
    (hsub : SubTotal txn fuel env) {msg : Message} (hd : 1025 ≤ msg.depth + fuel) {m : Machine} (hst : m.addressStack ≠ [])
    (c : HostCall) (hc : CallOk msg c)
    (h1 : ∀ n, c = .getBlockHash n → (env.block.header.number : Int) - 256 ≤ n ∧ n < env.block.header.number ∧ 0 ≤ n)
    (h2 : ∀ m, c = .call m → m.gas < 2 ^ 62) :
    ∃ y, host env txn (message env txn fuel) m c = .ok y ∧ AnswerOk c y.1 ∧ y.2.addressStack = m.addressStack := by
  cases c with
  | call msg' =>
    obtain ⟨_, c2, c3, c4, _⟩ := hc
    obtain ⟨x, k1, k2, k3, k4⟩ := hsub msg' m c4 (h2 msg' rfl) (by omega) c3 (fun _ => hst)
    refine ⟨_, okBind k1 _, ?_, k2⟩
    show 0 ≤ Result.gasLeft (if msg'.kind = .create ∨ msg'.kind = .create2 then stripOutput x.1 else x.1) ∧
      Result.gasLeft (if msg'.kind = .create ∨ msg'.kind = .create2 then stripOutput x.1 else x.1) ≤ msg'.gas
    have : (stripOutput x.1).gasLeft = x.1.gasLeft := by unfold stripOutput; split <;> rfl
    split
    · rw [this]; exact ⟨k3, k4⟩
    · exact ⟨k3, k4⟩
  | getTxContext =>
    obtain ⟨a, ha⟩ := ht.sender
    have hc : ∃ y, getTxContext env txn = .ok y := by
      unfold getTxContext
      dsimp only
      rw [okBind (effectiveGasPrice_le ht.fee ht.maxFee).2]
      rw [ha]
      exact ⟨_, rfl⟩
    obtain ⟨y, hy⟩ := hc
    refine ⟨(y, m), ?_, trivial, rfl⟩
    show (lift (getTxContext env txn)).bind _ = _
    rw [hy]
    rfl
  | getBlockHash n =>
    obtain ⟨n1, n2, n3⟩ := h1 n rfl
    have hc : ∃ y, getBlockHash env m.blockHashes n = .ok y := by
      unfold getBlockHash
      dsimp only
      have e : ((env.block.header.number : Int) - n).emod (2 ^ 64) = (env.block.header.number : Int) - n :=
        Int.emod_eq_of_lt (by omega) (by omega)
      rw [e, if_neg (by omega), if_neg (by omega)]
      exact ⟨_, rfl⟩
    obtain ⟨y, hy⟩ := hc
    refine ⟨(y.1, { m with blockHashes := y.2 }), ?_, trivial, rfl⟩
    show (lift (getBlockHash env m.blockHashes n)).bind _ = _
    rw [hy]
    rfl
  | _ => exact ⟨_, rfl, trivial, rfl⟩

theorem runProgram_total {txn : Transaction} (ht : TxnOk env txn) (hb : env.block.header.number < 2 ^ 64) {fuel : Nat}
    (hsub : SubTotal txn fuel env) {msg : Message} (hd : 1025 ≤ msg.depth + fuel) {prog : Program} (hp : ProgramOk msg prog)
    (hr : ProgramInRange env.block.header.number prog) (m : Machine) (hst : m.addressStack ≠ []) :
    ∃ x, runProgram env txn (message env txn fuel) prog m = .ok x ∧ x.2.addressStack = m.addressStack ∧
      0 ≤ x.1.gasLeft ∧ x.1.gasLeft ≤ msg.gas := by
  induction hp generalizing m with
  | done h1 h2 => exact ⟨_, rfl, rfl, h1, h2⟩
  | @ask c next hc _ ih =>
    cases hr with
    | ask r1 r2 r3 =>
      obtain ⟨y, k1, k2, k3⟩ := host_total ht hb hsub hd hst c hc r1 r2
      obtain ⟨x, g1, g2, g3⟩ := ih y.1 k2 (r3 y.1 k2) y.2 (by rw [k3]; exact hst)
      refine ⟨x, ?_, g2.trans k3, g3⟩
      unfold runProgram
      rw [okBind k1]
      exact g1

theorem executeCode_total {txn : Transaction} (ht : TxnOk env txn) (hb : env.block.header.number < 2 ^ 64)
    (hi : InterpreterOk env.interpreter) (hir : InterpreterInRange env.block.header.number env.interpreter) {fuel : Nat}
    (hsub : SubTotal txn fuel env) {msg : Message} (hg : 0 ≤ msg.gas) (hg' : msg.gas < 2 ^ 62) (hd : 1025 ≤ msg.depth + fuel)
    (code : Bytes) (m : Machine) :
    ∃ x, executeCode env txn (message env txn fuel) msg code m = .ok x ∧ x.2.addressStack = m.addressStack ∧
      0 ≤ x.1.gasLeft ∧ x.1.gasLeft ≤ msg.gas := by
  obtain ⟨y, k1, k2, k3, k4⟩ := runProgram_total ht hb hsub hd (hi env.revision msg code hg) (hir env.revision msg code hg hg')
    { m with addressStack := msg.destination :: m.addressStack } (List.cons_ne_nil _ _)
  have hpop : y.2.pop = .ok { y.2 with addressStack := m.addressStack } := by
    unfold Machine.pop; rw [k2]
  refine ⟨(y.1, { y.2 with addressStack := m.addressStack }), ?_, rfl, k3, k4⟩
  unfold executeCode
  rw [okBind k1, okBind hpop]

theorem settle_gas (snapshot : Snapshot) (r : Result) (s : IntraBlockState) {g : Int} (h : 0 ≤ r.gasLeft) (h' : r.gasLeft ≤ g) :
    0 ≤ (settle snapshot r s).1.gasLeft ∧ (settle snapshot r s).1.gasLeft ≤ g := by
  unfold settle
  split
  · exact ⟨h, h'⟩
  · dsimp only
    split
    · exact ⟨h, h'⟩
    · exact ⟨Int.le_refl _, by show (0 : Int) ≤ g; omega⟩

theorem deposit_gas (address : Bytes) (r : Result) (s : IntraBlockState) {g : Int} (h : 0 ≤ r.gasLeft) (h' : r.gasLeft ≤ g) :
    0 ≤ (depositCode env address r s).1.gasLeft ∧ (depositCode env address r s).1.gasLeft ≤ g := by
  unfold depositCode
  split
  · dsimp only
    split
    · exact ⟨h, h'⟩
    · split
      · exact ⟨h, h'⟩
      · split
        · next hc =>
          generalize r.output.length * 200 % 2 ^ 64 = c at hc
          exact ⟨by show 0 ≤ r.gasLeft - c; omega, by show r.gasLeft - c ≤ g; omega⟩
        · split <;> exact ⟨h, h'⟩
  · exact ⟨h, h'⟩

theorem expmodGas_lt {input : Bytes} {rev g : Nat} (h : Precompiled.expmodGas input rev = .ok g) : g < 2 ^ 64 := by
  rw [Precompiled.expmodGas_eval] at h
  split at h
  · rw [← Outcome.ok.inj h]; split <;> decide
  · split at h
    · rw [← Outcome.ok.inj h]; decide
    · rw [← Outcome.ok.inj h]
      have cap : ∀ m g : Nat, m ≤ 200 → (if g ≥ 2 ^ 64 then 2 ^ 64 - 1 else max m g) < 2 ^ 64 := by
        intro m g hm; split <;> omega
      exact cap _ _ (by split <;> decide)

theorem runPrecompiled_total (hrec : Spec.Precompiled.RecoverOk env.crypto.recover) {msg : Message}
    (hp : env.isPrecompiled msg.destination = true) (hg' : msg.gas < 2 ^ 62) : ∃ r, runPrecompiled env msg = .ok r := by
  unfold Env.isPrecompiled at hp
  simp only [Bool.and_eq_true, bne_iff_ne, decide_eq_true_eq] at hp
  obtain ⟨p1, p2⟩ := hp
  have p3 : Precompiled.number env.revision ≤ 9 := by
    unfold Precompiled.number
    split
    · decide
    · split <;> decide
  have hmod : beToNat msg.destination % 256 = beToNat msg.destination := Nat.mod_eq_of_lt (by omega)
  unfold runPrecompiled
  dsimp only
  rw [hmod]
  generalize beToNat msg.destination = num at *
  have hgas : ∃ g, Precompiled.gas num msg.input env.revision = .ok g ∧ (num = 5 → Precompiled.expmodGas msg.input env.revision = .ok g) := by
    by_cases h5 : num = 5
    · subst h5
      have : ∃ g, Precompiled.expmodGas msg.input env.revision = .ok g := by
        rw [Precompiled.expmodGas_eval]
        split
        · exact ⟨_, rfl⟩
        · split <;> exact ⟨_, rfl⟩
      obtain ⟨g, hg⟩ := this
      exact ⟨g, hg, fun _ => hg⟩
    · have : num = 1 ∨ num = 2 ∨ num = 3 ∨ num = 4 ∨ num = 6 ∨ num = 7 ∨ num = 8 ∨ num = 9 := by omega
      rcases this with h | h | h | h | h | h | h | h <;> subst h <;> exact ⟨_, rfl, fun hh => absurd hh h5⟩
  obtain ⟨g, hg, hg5⟩ := hgas
  rw [okBind hg]
  split
  · exact ⟨_, rfl⟩
  · next hle =>
    have hrun : ∃ o, Precompiled.run env.crypto num msg.input = .ok o := by
      by_cases h5 : num = 5
      · have hlt : g < 2 ^ 62 ∨ 2 ^ 64 ≤ g := by
          unfold toInt64 at hle
          split at hle <;> omega
        rcases hlt with hlt | hlt
        · obtain ⟨o, ho, _⟩ := Properties.c45_modexp env.revision msg.input g (hg5 h5) hlt
          subst h5
          exact ⟨some o, ho⟩
        · exfalso
          have := expmodGas_lt (hg5 h5)
          omega
      · by_cases h1 : num = 1
        · subst h1
          exact ⟨_, Properties.c72_ecrecover env.crypto hrec msg.input⟩
        · have : num = 2 ∨ num = 3 ∨ num = 4 ∨ num = 6 ∨ num = 7 ∨ num = 8 ∨ num = 9 := by omega
          rcases this with h | h | h | h | h | h | h <;> subst h <;> exact ⟨_, rfl⟩
    obtain ⟨o, ho⟩ := hrun
    rw [okBind ho]
    cases o <;> exact ⟨_, rfl⟩

/-- What is assumed of the environment. -/
structure EnvOk (env : Env) : Prop where
  interpreter : InterpreterOk env.interpreter
  inRange : InterpreterInRange env.block.header.number env.interpreter
  recover : Spec.Precompiled.RecoverOk env.crypto.recover
  number : env.block.header.number < 2 ^ 64

theorem deploy_total {txn : Transaction} (ht : TxnOk env txn) (he : EnvOk env) {fuel : Nat} (hsub : SubTotal txn fuel env)
    {msg : Message} (hg : 0 ≤ msg.gas) (hg' : msg.gas < 2 ^ 62) (hd : 1025 ≤ msg.depth + fuel) (address : Bytes) (m : Machine) :
    ∃ x, deploy env txn (message env txn fuel) msg address m = .ok x ∧ x.2.addressStack = m.addressStack ∧
      0 ≤ x.1.gasLeft ∧ x.1.gasLeft ≤ msg.gas := by
  obtain ⟨y, k1, k2, k3, k4⟩ := executeCode_total ht he.number he.interpreter he.inRange hsub
    (msg := deployMessage msg address) hg hg' hd msg.input { m with state := openContract env msg address m.state }
  have k4 : y.1.gasLeft ≤ msg.gas := k4
  unfold deploy
  dsimp only
  rw [okBind k1]
  refine ⟨_, rfl, k2, ?_⟩
  obtain ⟨d1, d2⟩ := deposit_gas (env := env) address y.1 y.2.state k3 k4
  obtain ⟨s1, s2⟩ := settle_gas m.state.takeSnapshot _ (depositCode env address y.1 y.2.state).2 d1 d2
  dsimp only
  split
  · exact ⟨s1, s2⟩
  · exact ⟨s1, s2⟩

theorem enter_total {txn : Transaction} (ht : TxnOk env txn) (he : EnvOk env) {fuel : Nat} (hsub : SubTotal txn fuel env)
    {msg : Message} (hg : 0 ≤ msg.gas) (hg' : msg.gas < 2 ^ 62) (hd : 1025 ≤ msg.depth + fuel) (r : Bytes) (m : Machine) :
    ∃ x, enter env txn (message env txn fuel) msg r m = .ok x ∧ x.2.addressStack = m.addressStack ∧
      0 ≤ x.1.gasLeft ∧ x.1.gasLeft ≤ msg.gas := by
  have key : ∀ m' : Machine, ∃ y,
      (if env.isPrecompiled msg.destination then (lift (runPrecompiled env msg)).bind fun r => .ok (r, m')
       else runCode env txn (message env txn fuel) msg r m') = .ok y ∧ y.2.addressStack = m'.addressStack ∧
      0 ≤ y.1.gasLeft ∧ y.1.gasLeft ≤ msg.gas := by
    intro m'
    by_cases hp : env.isPrecompiled msg.destination = true
    · rw [if_pos hp]
      obtain ⟨q, hq⟩ := runPrecompiled_total (env := env) he.recover hp hg'
      have hl : lift (runPrecompiled env msg) = .ok q := by rw [hq]; rfl
      rw [okBind hl]
      obtain ⟨g1, g2⟩ := precompiled_gas hg hl
      exact ⟨_, rfl, rfl, g1, g2⟩
    · rw [if_neg hp]
      unfold runCode
      dsimp only
      split
      · exact ⟨_, rfl, rfl, hg, Int.le_refl _⟩
      · obtain ⟨y, k1, k2, k3, k4⟩ := executeCode_total ht he.number he.interpreter he.inRange hsub
          (msg := { msg with destination := r }) hg hg' hd (getCode env.db m'.state msg.destination).1
          { m' with state := (IntraBlockState.getCodeHash env.db (getCode env.db m'.state msg.destination).2 msg.destination).2 }
        exact ⟨y, k1, k2, k3, k4⟩
  obtain ⟨y, k1, k2, k3, k4⟩ := key { m with state := transfer env msg r m.state }
  unfold enter
  dsimp only
  rw [okBind k1]
  obtain ⟨s1, s2⟩ := settle_gas m.state.takeSnapshot y.1 y.2.state k3 k4
  exact ⟨_, rfl, k2, s1, s2⟩

theorem message_total {txn : Transaction} (ht : TxnOk env txn) (he : EnvOk env) (fuel : Nat) : SubTotal txn fuel env := by
  induction fuel with
  | zero => intro msg m _ _ h h' _; omega
  | succ n ih =>
    intro msg m hg hg' hd hd' hst
    have hd2 : 1025 ≤ msg.depth + n := by omega
    unfold message
    by_cases hk : msg.kind = .create ∨ msg.kind = .create2
    · rw [if_pos hk]
      unfold create
      dsimp only
      split
      · exact ⟨_, rfl, rfl, hg, Int.le_refl _⟩
      · split
        · exact ⟨_, rfl, rfl, Int.le_refl _, hg⟩
        · obtain ⟨x, k⟩ := deploy_total ht he ih hg hg' hd2
            (contractAddress env msg (getNonce env.db (getBalance env.db m.state msg.sender).2 msg.sender).1)
            { m with state := _ }
          exact ⟨x, k⟩
    · rw [if_neg hk]
      unfold call
      dsimp only
      generalize (if msg.kind = .delegatecall then (msg.value, m.state) else getBalance env.db m.state msg.sender) = b
      by_cases hv : msg.kind ≠ .delegatecall ∧ b.1 < msg.value
      · rw [if_pos hv]; exact ⟨_, rfl, rfl, hg, Int.le_refl _⟩
      · rw [if_neg hv]
        have hr : ∃ r, recipient msg m.addressStack = .ok r := by
          unfold recipient
          cases hkk : msg.kind with
          | call => exact ⟨_, rfl⟩
          | callcode => exact ⟨_, rfl⟩
          | delegatecall =>
            cases hs : m.addressStack with
            | nil => exact absurd hs (hst hkk)
            | cons top rest => exact ⟨_, rfl⟩
          | create => exact absurd (Or.inl hkk) hk
          | create2 => exact absurd (Or.inr hkk) hk
        obtain ⟨r, hr⟩ := hr
        rw [okBind hr]
        split
        · split
          · exact ⟨_, rfl, rfl, hg, Int.le_refl _⟩
          · obtain ⟨x, k⟩ := enter_total ht he ih hg hg' hd2 r { m with state := _ }
            exact ⟨x, k⟩
        · obtain ⟨x, k⟩ := enter_total ht he ih hg hg' hd2 r { m with state := _ }
          exact ⟨x, k⟩

theorem executeTransaction_total {txn : Transaction} (ht : TxnOk env txn) (he : EnvOk env) (hg : upfront env txn ≤ txn.gasLimit)
    (hl : txn.gasLimit < 2 ^ 62) (p : Processor) : ∃ x, executeTransaction env p txn = .ok x := by
  obtain ⟨a, ha⟩ := ht.sender
  obtain ⟨f1, f2⟩ := effectiveGasPrice_le ht.fee ht.maxFee
  unfold executeTransaction
  rw [ha]
  dsimp only
  rw [f2]
  have hup : intrinsicGas txn (decide (env.revision ≥ Revision.homestead)) (decide (env.revision ≥ Revision.istanbul)) =
    upfront env txn := rfl
  rw [hup]
  have hsub : sub64 txn.gasLimit (upfront env txn) = txn.gasLimit - upfront env txn := by unfold sub64; omega
  rw [hsub]
  show ∃ x, (if upfront env txn ≥ 2 ^ 64 then Outcome.ub else _) = Outcome.ok x
  rw [if_neg (by omega)]
  generalize beginTransaction env txn a (min txn.maxPriorityFeePerGas (txn.maxFeePerGas - env.block.header.baseFeePerGas.getD 0) +
    env.block.header.baseFeePerGas.getD 0) p.state = s
  have hto : toInt64 (txn.gasLimit - upfront env txn) = ((txn.gasLimit - upfront env txn : Nat) : Int) := by
    unfold toInt64; rw [if_pos (by omega)]
  have hkind : (transactionMessage txn a (txn.gasLimit - upfront env txn)).kind ≠ .delegatecall := by
    unfold transactionMessage; dsimp only; split <;> exact fun h => nomatch h
  obtain ⟨x, hx, _⟩ := message_total ht he maxNesting (transactionMessage txn a (txn.gasLimit - upfront env txn))
    { p.machine with state := s } (by show 0 ≤ toInt64 _; rw [hto]; omega) (by show toInt64 _ < _; rw [hto]; omega)
    (show 1026 ≤ 0 + 1026 by decide) (Nat.zero_le _) (fun h => absurd h hkind)
  have hex : ∃ y, execute env txn (txn.gasLimit - upfront env txn) { p.machine with state := s } = .ok y := by
    unfold execute
    rw [ha]
    dsimp only
    rw [okBind hx]
    exact ⟨_, rfl⟩
  obtain ⟨y, hy⟩ := hex
  rw [okBind hy]
  have hfee : lift (txn.priorityFeePerGas (env.block.header.baseFeePerGas.getD 0)) =
      Outcome.ok (min txn.maxPriorityFeePerGas (txn.maxFeePerGas - env.block.header.baseFeePerGas.getD 0)) := by
    rw [f1]; rfl
  rw [okBind hfee]
  exact ⟨_, rfl⟩

theorem executeTransactions_total (he : EnvOk env) (txs : List Transaction)
    (h : ∀ t ∈ txs, env.block.header.baseFeePerGas.getD 0 ≤ t.maxFeePerGas ∧ t.maxFeePerGas < 2 ^ 256 ∧
      upfront env t ≤ t.gasLimit ∧ t.gasLimit < 2 ^ 62) (p : Processor) :
    ∃ x, executeTransactions env p txs = .ok x := by
  induction txs generalizing p with
  | nil => exact ⟨_, rfl⟩
  | cons t txs ih =>
    unfold executeTransactions
    dsimp only
    cases hv : (validateTransaction env p t).1 with
    | some e => exact ⟨_, rfl⟩
    | none =>
      dsimp only
      obtain ⟨h1, h2, h3, h4⟩ := h t List.mem_cons_self
      have hs : ∃ a, t.sender = some a := by
        unfold validateTransaction at hv
        cases hs : t.sender with
        | none => rw [hs] at hv; cases hv
        | some a => exact ⟨a, rfl⟩
      obtain ⟨x, hx⟩ := executeTransaction_total ⟨hs, h1, h2⟩ he h3 h4 (validateTransaction env p t).2
      rw [okBind hx]
      obtain ⟨y, hy⟩ := ih (fun t ht => h t (List.mem_cons_of_mem _ ht)) x.2
      rw [okBind hy]
      exact ⟨_, rfl⟩

end Silkworm.Evm
