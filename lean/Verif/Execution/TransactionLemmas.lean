import Verif.Execution.Fresh

/-!
# Lemmas about the execution of a transaction
-/

namespace Silkworm.Evm

open IntraBlockState
open Spec.Execution

variable {env : Env}

theorem toInt64_eq {n : Nat} (h : n < 2 ^ 63) : toInt64 n = n := by
  unfold toInt64
  rw [if_pos (by omega)]

/-- What is known about the message of a transaction before it runs. -/
theorem transaction_pre (guard : Option Bytes) {txn : Transaction} {sender : Bytes} {gas : Nat} {m : Machine} (hgas : gas < 2 ^ 63)
    (code : ∀ x, guard = some x → codeHash env.db m.state x = kEmptyHash)
    (hn : ∀ x, guard = some x → nonce env.db m.state x ≠ 0 ∨ (txn.to = none ∧ sender = x))
    (bump : txn.to = none → guard = some sender → nonce env.db m.state sender + 1 < 2 ^ 64) :
    Pre env guard (transactionMessage txn sender gas) m := by
  have hc : (transactionMessage txn sender gas).isCreate → txn.to = none := by
    intro h
    unfold Message.isCreate transactionMessage at h
    dsimp only at h
    cases ht : txn.to with
    | none => rfl
    | some b => rw [ht] at h; rcases h with h | h <;> cases h
  have hk : (transactionMessage txn sender gas).kind = .call ∨ (transactionMessage txn sender gas).kind = .create := by
    unfold transactionMessage
    dsimp only
    split
    · exact Or.inl rfl
    · exact Or.inr rfl
  refine ⟨?_, fun h => ?_, fun h => ?_, fun h => ?_, code, fun x hx => ?_, fun h hs => bump (hc h) hs⟩
  · show 0 ≤ toInt64 gas
    rw [toInt64_eq hgas]
    exact Int.natCast_nonneg _
  · cases h
  · rcases hk with e | e <;> rw [e] at h <;> cases h
  · rcases hk with e | e <;> rw [e] at h <;> cases h
  · rcases hn x hx with h | ⟨h1, h2⟩
    · exact Or.inl h
    · refine Or.inr ⟨?_, h2⟩
      unfold Message.isCreate transactionMessage
      dsimp only
      rw [h1]
      exact Or.inl rfl

theorem execute_ok (hi : InterpreterOk env.interpreter) (guard : Option Bytes) {txn : Transaction} {sender : Bytes}
    (hs : txn.sender = some sender) {gas : Nat} {m m' : Machine} {r : CallResult} (hgas : gas < 2 ^ 63)
    (hpre : Pre env guard (transactionMessage txn sender gas) m) (h : execute env txn gas m = .ok (r, m')) :
    Leads env guard false (spend guard (transactionMessage txn sender gas))
      (bumps env guard (transactionMessage txn sender gas) m.state) m.state m'.state ∧
    r.gasLeft ≤ gas ∧ (r.status ≠ .success → txn.to ≠ none → Unchanged env m.state m'.state) := by
  unfold execute at h
  rw [hs] at h
  dsimp only at h
  obtain ⟨x, hx, h⟩ := Outcome.bind_eq_ok.mp h
  have hp := message_ok (guard := guard) hi maxNesting _ _ _ hpre hx
  obtain ⟨h1, h2⟩ := Prod.mk.inj (Outcome.ok.inj h)
  subst h1 h2
  obtain ⟨l, _, g, f⟩ := hp
  have hm : (transactionMessage txn sender gas).gas = gas := toInt64_eq hgas
  rw [hm] at g
  refine ⟨l, ?_, fun hf ht => f hf ?_⟩
  · show (x.1.gasLeft.emod (2 ^ 64)).toNat ≤ gas
    have : x.1.gasLeft.emod (2 ^ 64) = x.1.gasLeft := Int.emod_eq_of_lt g.1 (by omega)
    rw [this]
    omega
  · intro hcr
    unfold Message.isCreate transactionMessage at hcr
    dsimp only at hcr
    cases ht' : txn.to with
    | none => exact ht ht'
    | some b => rw [ht'] at hcr; rcases hcr with h | h <;> cases h

/-! ## The parts of a transaction -/

/-- The state in which the EVM starts. -/
def begun (env : Env) (p : Processor) (txn : Transaction) (sender : Bytes) (price : Nat) : Machine :=
  { p.machine with state := beginTransaction env txn sender price p.state }

/-- The gas that is paid before the EVM starts. -/
def upfront (env : Env) (txn : Transaction) : Nat :=
  intrinsicGas txn (decide (env.revision ≥ Revision.homestead)) (decide (env.revision ≥ Revision.istanbul))

/-- How the parts of a transaction follow each other. -/
structure Ran (env : Env) (p : Processor) (txn : Transaction) (receipt : Receipt) (p' : Processor) (sender : Bytes)
    (price fee : Nat) (r : CallResult) (m : Machine) (refund used : Nat) : Prop where
  hasSender : txn.sender = some sender
  hasPrice : txn.effectiveGasPrice (env.block.header.baseFeePerGas.getD 0) = .ok price
  hasFee : txn.priorityFeePerGas (env.block.header.baseFeePerGas.getD 0) = .ok fee
  run : execute env txn (txn.gasLimit - upfront env txn) (begun env p txn sender price) = .ok (r, m)
  left : r.gasLeft + upfront env txn ≤ txn.gasLimit
  atMost : refund ≤ (txn.gasLimit - r.gasLeft) / (if env.revision ≥ Revision.london then 5 else 2)
  counted : m.state.refund + 24000 * m.state.selfDestructs.length < 2 ^ 64 →
    refund = min (if env.revision < Revision.london then m.state.refund + 24000 * m.state.selfDestructs.length else m.state.refund)
      ((txn.gasLimit - r.gasLeft) / (if env.revision ≥ Revision.london then 5 else 2))
  sum : used + (r.gasLeft + refund) = txn.gasLimit
  state : p'.state = endTransaction env (payGas env sender price fee (r.gasLeft + refund) used m.state)
  cumulative : p'.cumulativeGasUsed = (p.cumulativeGasUsed + used) % 2 ^ 64
  hasReceipt : receipt = ⟨txn.type, decide (r.status = .success), p'.cumulativeGasUsed,
    logsBloom env.crypto.keccak p'.state.logs, p'.state.logs⟩

theorem lift_ok {α : Type} {x : Outcome Empty α} {a : α} (h : lift x = .ok a) : x = .ok a := by
  cases x with
  | ok b => exact congrArg Outcome.ok (Outcome.ok.inj h)
  | err e => exact e.elim
  | ub => cases h

theorem refundedGas_eq {rev gasLimit gasLeft : Nat} {s : IntraBlockState} (h : gasLeft ≤ gasLimit) (hl : gasLimit < 2 ^ 63) :
    ∃ n, refundedGas rev s gasLimit gasLeft = gasLeft + n ∧
      n ≤ (gasLimit - gasLeft) / (if rev ≥ Revision.london then 5 else 2) ∧
      (s.refund + 24000 * s.selfDestructs.length < 2 ^ 64 →
        n = min (if rev < Revision.london then s.refund + 24000 * s.selfDestructs.length else s.refund)
          ((gasLimit - gasLeft) / (if rev ≥ Revision.london then 5 else 2))) := by
  have hs : sub64 gasLimit gasLeft = gasLimit - gasLeft := by unfold sub64; omega
  unfold refundedGas
  dsimp only
  rw [hs]
  generalize hq : (if rev ≥ Revision.london then 5 else 2) = q
  have hdiv : (gasLimit - gasLeft) / q ≤ gasLimit - gasLeft := Nat.div_le_self _ _
  generalize (gasLimit - gasLeft) / q = lim at hdiv ⊢
  unfold numberOfSelfDestructs
  refine ⟨_, Nat.mod_eq_of_lt ?_, Nat.min_le_right _ _, fun hc => ?_⟩
  · have := Nat.min_le_right (if rev < Revision.london then (s.refund + 24000 * s.selfDestructs.length % 2 ^ 64) % 2 ^ 64 else s.refund) lim
    omega
  · congr 1
    split
    · generalize s.selfDestructs.length = n at *
      omega
    · rfl

theorem executeTransaction_ran (hi : InterpreterOk env.interpreter) {p p' : Processor} {txn : Transaction} {receipt : Receipt}
    (hg : upfront env txn ≤ txn.gasLimit) (hl : txn.gasLimit < 2 ^ 63)
    (h : executeTransaction env p txn = .ok (receipt, p')) :
    ∃ sender price fee r m refund used, Ran env p txn receipt p' sender price fee r m refund used := by
  unfold executeTransaction at h
  cases hs : txn.sender with
  | none => rw [hs] at h; cases h
  | some sender =>
    rw [hs] at h
    dsimp only at h
    obtain ⟨price, hprice, h⟩ := Outcome.bind_eq_ok.mp h
    have hg' : intrinsicGas txn (decide (env.revision ≥ Revision.homestead)) (decide (env.revision ≥ Revision.istanbul)) =
      upfront env txn := rfl
    rw [hg', if_neg (by omega)] at h
    obtain ⟨⟨r, m⟩, hrun, h⟩ := Outcome.bind_eq_ok.mp h
    obtain ⟨fee, hfee, h⟩ := Outcome.bind_eq_ok.mp h
    have hsub : sub64 txn.gasLimit (upfront env txn) = txn.gasLimit - upfront env txn := by unfold sub64; omega
    rw [hsub] at hrun
    obtain ⟨_, hleft, _⟩ := execute_ok hi none hs (by omega)
      (transaction_pre none (by omega) (fun _ hx => nomatch hx) (fun _ hx => nomatch hx) (fun _ hx => nomatch hx)) hrun
    dsimp only at h
    obtain ⟨n, hn, hlim, hcount⟩ := refundedGas_eq (rev := env.revision) (s := m.state) (show r.gasLeft ≤ txn.gasLimit by omega) hl
    rw [hn] at h
    have hdiv : (txn.gasLimit - r.gasLeft) / (if env.revision ≥ Revision.london then 5 else 2) ≤ txn.gasLimit - r.gasLeft :=
      Nat.div_le_self _ _
    have hsub2 : sub64 txn.gasLimit (r.gasLeft + n) = txn.gasLimit - (r.gasLeft + n) := by unfold sub64; omega
    rw [hsub2] at h
    obtain ⟨h1, h2⟩ := Prod.mk.inj (Outcome.ok.inj h)
    refine ⟨sender, price, fee, r, m, n, txn.gasLimit - (r.gasLeft + n), hs, lift_ok hprice, lift_ok hfee, hrun, by omega, hlim,
      hcount, by omega, ?_, ?_, ?_⟩
    · rw [← h2]; rfl
    · rw [← h2]
    · rw [← h1, ← h2]; rfl

/-! ## The end of a transaction -/

theorem foldl_destruct_cur {db : StateReader} (l : List Bytes) (v : View) (b : Bytes) :
    (l.foldl (fun v a => v.destruct db a) v).cur b = if b ∈ l then none else v.cur b := by
  induction l generalizing v with
  | nil => rw [if_neg List.not_mem_nil]; rfl
  | cons a l ih =>
    rw [List.foldl_cons, ih, View.destruct_cur]
    by_cases hl : b ∈ l
    · rw [if_pos hl, if_pos (List.mem_cons_of_mem _ hl)]
    · rw [if_neg hl]
      by_cases hb : b = a
      · rw [if_pos hb, if_pos (hb ▸ List.mem_cons_self ..)]
      · rw [if_neg hb, if_neg (fun hh => (List.mem_cons.mp hh).elim hb hl)]

/-- An account at the end of a transaction. -/
theorem endTransaction_account (s : IntraBlockState) (b : Bytes) :
    (view env.db (endTransaction env s)).bal b = (if b ∈ s.selfDestructs then 0 else (view env.db s).bal b) ∧
    (view env.db (endTransaction env s)).nonce b = (if b ∈ s.selfDestructs then 0 else (view env.db s).nonce b) ∧
    (view env.db (endTransaction env s)).hash b = (if b ∈ s.selfDestructs then kEmptyHash else (view env.db s).hash b) := by
  have h1 : (view env.db (s.destructSuicides env.db)).cur b = if b ∈ s.selfDestructs then none else (view env.db s).cur b := by
    unfold destructSuicides
    rw [(foldl_destruct_view s.selfDestructs s).1]
    exact foldl_destruct_cur _ _ _
  have hfin : ∀ t : IntraBlockState, (view env.db t.finalizeTransaction).cur b = (view env.db t).cur b := by
    intro t; rw [finalize_view]; rfl
  have e1 : ∀ v : View, v.cur b = (if b ∈ s.selfDestructs then none else (view env.db s).cur b) →
      v.bal b = (if b ∈ s.selfDestructs then 0 else (view env.db s).bal b) ∧
      v.nonce b = (if b ∈ s.selfDestructs then 0 else (view env.db s).nonce b) ∧
      v.hash b = (if b ∈ s.selfDestructs then kEmptyHash else (view env.db s).hash b) := by
    intro v hv
    unfold View.bal View.nonce View.hash
    rw [hv]
    split
    · exact ⟨rfl, rfl, rfl⟩
    · exact ⟨rfl, rfl, rfl⟩
  unfold endTransaction
  dsimp only
  split
  · obtain ⟨hd, _⟩ := destructTouchedDead_view (db := env.db) (s.destructSuicides env.db)
    generalize s.destructSuicides env.db = t at h1 hd
    have hc : (view env.db (t.destructTouchedDead env.db)).cur b =
        if b ∈ t.touched ∧ deadAcc ((view env.db t).cur b) then none else (view env.db t).cur b := by
      rw [hd]
      unfold View.destructTouched View.cur
      dsimp only
      split
      · cases (view env.db t).obj b <;> rfl
      · rfl
    by_cases hdead : b ∈ t.touched ∧ deadAcc ((view env.db t).cur b)
    · rw [if_pos hdead] at hc
      obtain ⟨g1, g2, g3⟩ := e1 (view env.db t) h1
      rw [← g1, ← g2, ← g3]
      unfold View.bal View.nonce View.hash
      rw [hfin, hc]
      have hd2 := hdead.2
      unfold deadAcc at hd2
      cases hcur : (view env.db t).cur b with
      | none => exact ⟨rfl, rfl, rfl⟩
      | some c =>
        rw [hcur] at hd2
        simp only [Bool.and_eq_true, decide_eq_true_eq, beq_iff_eq] at hd2
        first
          | exact ⟨hd2.2.symm, hd2.1.2.symm, hd2.1.1.symm⟩
          | exact ⟨hd2.2.2.symm, hd2.2.1.symm, hd2.1.symm⟩
    · rw [if_neg hdead] at hc
      exact e1 _ (by rw [hfin, hc, h1])
  · exact e1 _ (by rw [hfin, h1])

end Silkworm.Evm
