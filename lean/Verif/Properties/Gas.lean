import Verif.Execution.TransactionLemmas
import Verif.Properties.Metering

/-!
# Property C39: gas
-/

namespace Silkworm.Properties

open Evm
open Spec.Execution

/-- C39: of a transaction that can pay its intrinsic gas, the gas used and the gas that is returned to the sender add up to
the gas limit. What is returned is what the EVM leaves, and a refund of at most half (from London on a fifth) of what has been
consumed: the counter, with 24000 for every destroyed account before London, unless this exceeds the limit. The cumulative gas
grows by the gas used and is in the receipt. The interpreter is only assumed not to return more gas than it was given
(`InterpreterOk`). -/
theorem c39_transaction (env : Env) (hi : InterpreterOk env.interpreter) (p p' : Processor) (txn : Transaction) (receipt : Receipt)
    (hg : intrinsicGas txn (decide (env.revision ≥ Revision.homestead)) (decide (env.revision ≥ Revision.istanbul)) ≤ txn.gasLimit)
    (hl : txn.gasLimit < 2 ^ 63) (hc : p.cumulativeGasUsed + txn.gasLimit < 2 ^ 64)
    (h : executeTransaction env p txn = .ok (receipt, p')) :
    ∃ (sender : Bytes) (price fee : Nat) (r : CallResult) (m : Machine) (refund used : Nat),
      execute env txn
        (txn.gasLimit - intrinsicGas txn (decide (env.revision ≥ Revision.homestead)) (decide (env.revision ≥ Revision.istanbul)))
        { p.machine with state := beginTransaction env txn sender price p.state } = .ok (r, m) ∧
      r.gasLeft +
        intrinsicGas txn (decide (env.revision ≥ Revision.homestead)) (decide (env.revision ≥ Revision.istanbul)) ≤ txn.gasLimit ∧
      used + (r.gasLeft + refund) = txn.gasLimit ∧
      refund * (if env.revision ≥ 9 then 5 else 2) ≤ txn.gasLimit - r.gasLeft ∧
      (m.state.refund + 24000 * m.state.selfDestructs.length < 2 ^ 64 →
        refund = gasRefund env.revision m.state.refund m.state.selfDestructs.length (txn.gasLimit - r.gasLeft)) ∧
      p'.cumulativeGasUsed = p.cumulativeGasUsed + used ∧ receipt.cumulativeGasUsed = p.cumulativeGasUsed + used ∧
      p'.state = endTransaction env (payGas env sender price fee (r.gasLeft + refund) used m.state) := by
  obtain ⟨sender, price, fee, r, m, refund, used, hr⟩ := executeTransaction_ran hi hg hl h
  have hsum := hr.sum
  have hcum : p'.cumulativeGasUsed = p.cumulativeGasUsed + used := by
    rw [hr.cumulative]; exact Nat.mod_eq_of_lt (by omega)
  refine ⟨sender, price, fee, r, m, refund, used, hr.run, hr.left, hr.sum, ?_, fun hc => ?_, hcum, ?_, hr.state⟩
  · have := hr.atMost
    show refund * (if env.revision ≥ Revision.london then 5 else 2) ≤ _
    split at this
    · next hlon => rw [if_pos hlon]; omega
    · next hlon => rw [if_neg hlon]; omega
  · rw [hr.counted hc]
    unfold gasRefund
    by_cases hlon : env.revision ≥ Revision.london
    · rw [if_pos hlon, if_pos (show 9 ≤ env.revision from hlon), if_neg (Nat.not_lt.mpr hlon)]
    · rw [if_neg hlon, if_neg (show ¬ 9 ≤ env.revision from hlon), if_pos (Nat.not_le.mp hlon)]
  · rw [hr.hasReceipt]; exact hcum

/-- C39: over the transactions of a block, the cumulative gas in the receipts is the running total of the gas used, no
transaction uses more than its limit, and the sum never exceeds the gas limit of the block. -/
theorem c39_transactions (env : Env) (hi : InterpreterOk env.interpreter) (hl : env.block.header.gasLimit < 2 ^ 63)
    (txs : List Transaction)
    (hg : ∀ t ∈ txs,
      intrinsicGas t (decide (env.revision ≥ Revision.homestead)) (decide (env.revision ≥ Revision.istanbul)) ≤ t.gasLimit)
    (p p' : Processor) (hc : p.cumulativeGasUsed ≤ env.block.header.gasLimit) (receipts : List Receipt) (e : Option ValidationError)
    (h : executeTransactions env p txs = .ok (receipts, e, p')) :
    ∃ used : List Nat,
      used.length = receipts.length ∧ (e = none → receipts.length = txs.length) ∧
      (∀ i, used.getD i 0 ≤ (txs.map (·.gasLimit)).getD i 0) ∧
      receipts.map (·.cumulativeGasUsed) = runningTotals p.cumulativeGasUsed used ∧
      p'.cumulativeGasUsed = p.cumulativeGasUsed + used.sum ∧
      p'.cumulativeGasUsed ≤ env.block.header.gasLimit := by
  induction txs generalizing p receipts with
  | nil =>
    unfold executeTransactions at h
    obtain ⟨h1, h2⟩ := Prod.mk.inj (Outcome.ok.inj h)
    obtain ⟨h2, h3⟩ := Prod.mk.inj h2
    subst h1 h2 h3
    exact ⟨[], rfl, fun _ => rfl, fun _ => Nat.le_refl _, rfl, rfl, hc⟩
  | cons t txs ih =>
    unfold executeTransactions at h
    dsimp only at h
    have hcum : (validateTransaction env p t).2.cumulativeGasUsed = p.cumulativeGasUsed := by
      unfold validateTransaction
      cases t.sender with
      | none => rfl
      | some a =>
        dsimp only
        split
        · rfl
        · split
          · rfl
          · split <;> rfl
    cases hv : (validateTransaction env p t).1 with
    | some err =>
      rw [hv] at h
      dsimp only at h
      obtain ⟨h1, h2⟩ := Prod.mk.inj (Outcome.ok.inj h)
      obtain ⟨h4, h3⟩ := Prod.mk.inj h2
      subst h1 h3
      refine ⟨[], rfl, fun hh => (by rw [hh] at h4; cases h4), fun i => Nat.zero_le _, rfl, hcum, by rw [hcum]; exact hc⟩
    | none =>
      rw [hv] at h
      dsimp only at h
      have hav : t.gasLimit ≤ env.block.header.gasLimit - p.cumulativeGasUsed := by
        have hs : availableGas env p = env.block.header.gasLimit - p.cumulativeGasUsed := by
          unfold availableGas sub64; omega
        unfold validateTransaction at hv
        cases hsn : t.sender with
        | none => rw [hsn] at hv; cases hv
        | some a =>
          rw [hsn] at hv
          dsimp only at hv
          split at hv
          · cases hv
          · split at hv
            · cases hv
            · split at hv
              · cases hv
              · omega
      obtain ⟨⟨receipt, q⟩, h1, h⟩ := Outcome.bind_eq_ok.mp h
      obtain ⟨⟨rs, e', q'⟩, h2, h⟩ := Outcome.bind_eq_ok.mp h
      obtain ⟨e1, e2⟩ := Prod.mk.inj (Outcome.ok.inj h)
      obtain ⟨e2, e3⟩ := Prod.mk.inj e2
      subst e1 e2 e3
      obtain ⟨_, _, _, r, _, refund, used, _, _, g3, _, _, g6, g7, _⟩ :=
        c39_transaction env hi _ q t receipt (hg t (List.mem_cons_self ..)) (by omega) (by rw [hcum]; omega) h1
      rw [hcum] at g6 g7
      obtain ⟨l, i1, i2, i3, i4, i5, i6⟩ := ih (fun t ht => hg t (List.mem_cons_of_mem _ ht)) q (by rw [g6]; omega) rs h2
      refine ⟨used :: l, ?_, fun hh => ?_, fun i => ?_, ?_, ?_, i6⟩
      · rw [List.length_cons, List.length_cons, i1]
      · rw [List.length_cons, List.length_cons, i2 hh]
      · cases i with
        | zero => show used ≤ t.gasLimit; omega
        | succ i => exact i3 i
      · rw [List.map_cons, i4, g7, g6]; rfl
      · rw [i5, g6, List.sum_cons]; omega

/-- The last running total is the sum. -/
theorem runningTotals_getLast (l : List Nat) (n : Nat) : (runningTotals n l).getLast?.getD n = n + l.sum := by
  induction l generalizing n with
  | nil => rfl
  | cons x l ih =>
    unfold runningTotals
    rw [List.getLast?_cons, Option.getD_some, ih, List.sum_cons]
    omega

/-- C39: if a block is executed without an error, the gas used in its header is the sum of the gas used by its transactions,
each of which used at most its limit, and it is at most the gas limit in the header. -/
theorem c39_block (env : Env) (hi : InterpreterOk env.interpreter) (hl : env.block.header.gasLimit < 2 ^ 63)
    (hg : ∀ t ∈ env.block.transactions,
      intrinsicGas t (decide (env.revision ≥ Revision.homestead)) (decide (env.revision ≥ Revision.istanbul)) ≤ t.gasLimit)
    (listRoot : List Bytes → Bytes) (receipts : List Receipt) (calls : List BufferCall)
    (h : executeBlock env listRoot = .ok (receipts, none, calls)) :
    ∃ used : List Nat,
      used.length = env.block.transactions.length ∧
      (∀ i, used.getD i 0 ≤ (env.block.transactions.map (·.gasLimit)).getD i 0) ∧
      receipts.map (·.cumulativeGasUsed) = runningTotals 0 used ∧
      env.block.header.gasUsed = used.sum ∧ used.sum ≤ env.block.header.gasLimit := by
  unfold executeBlock at h
  obtain ⟨⟨rs, e, p'⟩, h1, h⟩ := Outcome.bind_eq_ok.mp h
  unfold processBlock at h1
  obtain ⟨⟨rs', e', q⟩, h2, h1⟩ := Outcome.bind_eq_ok.mp h1
  obtain ⟨used, i1, i2, i3, i4, i5, i6⟩ := c39_transactions env hi hl _ hg _ q (Nat.zero_le _) rs' e' h2
  dsimp only at h h1
  cases e' with
  | some x =>
    obtain ⟨k1, k2⟩ := Prod.mk.inj (Outcome.ok.inj h1)
    obtain ⟨k2, _⟩ := Prod.mk.inj k2
    rw [← k2] at h
    cases h
  | none =>
    obtain ⟨k1, k2⟩ := Prod.mk.inj (Outcome.ok.inj h1)
    obtain ⟨k2, _⟩ := Prod.mk.inj k2
    rw [← k2] at h
    dsimp only at h
    cases hcheck : checkReceipts env listRoot rs with
    | some x => rw [hcheck] at h; cases h
    | none =>
      rw [hcheck] at h
      obtain ⟨j1, _⟩ := Prod.mk.inj (Outcome.ok.inj h)
      subst j1
      subst k1
      unfold checkReceipts at hcheck
      dsimp only at hcheck
      split at hcheck
      · cases hcheck
      · next hgas =>
        have hgas := Decidable.of_not_not hgas
        have hlast : ((rs'.getLast?).map (·.cumulativeGasUsed)).getD 0 = used.sum := by
          have := runningTotals_getLast used 0
          rw [Nat.zero_add] at this
          rw [← this]
          have i4 : rs'.map (·.cumulativeGasUsed) = runningTotals 0 used := i4
          rw [← i4, List.getLast?_map]
        refine ⟨used, by rw [i1, i2 rfl], i3, i4, by rw [← hgas, hlast], ?_⟩
        have i5 : q.cumulativeGasUsed = 0 + used.sum := i5
        omega

/-! ## Examples -/

/-- A contract with one full slot, and a rich account. -/
def exGasDb : StateReader where
  readAccount a :=
    if a = List.replicate 20 7 then some { nonce := 1, codeHash := beFixed 32 5, incarnation := 1 }
    else if a = List.replicate 20 1 then some { nonce := 3, balance := 1000000000 }
    else none
  readCode _ := [0]
  readStorage a _ k := if a = List.replicate 20 7 ∧ k = beFixed 32 1 then beFixed 32 11 else zero32
  previousIncarnation _ := 0

/-- All code clears slot 1 and uses 6000 gas. -/
def exGasInterpreter (_ : Nat) (msg : Message) (_ : Bytes) : Program :=
  if msg.isStatic then .done { status := .outOfGas, gasLeft := 0 }
  else .ask (.setStorage msg.destination (beFixed 32 1) zero32) fun _ =>
    .done { status := .success, gasLeft := msg.gas - min msg.gas 6000 }

theorem exGasInterpreter_ok : InterpreterOk exGasInterpreter := by
  intro rev msg code hg
  unfold exGasInterpreter
  split
  · exact .done (Int.le_refl _) hg
  · next h =>
    refine .ask ⟨rfl, by simpa using h⟩ fun _ _ => .done ?_ ?_
    · show 0 ≤ msg.gas - min msg.gas 6000
      omega
    · show msg.gas - min msg.gas 6000 ≤ msg.gas
      omega

/-- Two calls of the contract. -/
def exGasTxs : List Transaction :=
  [{ nonce := 3, maxPriorityFeePerGas := 10, maxFeePerGas := 30, gasLimit := 50000, «to» := some (List.replicate 20 7),
     sender := some (List.replicate 20 1) },
   { nonce := 4, maxPriorityFeePerGas := 10, maxFeePerGas := 30, gasLimit := 21500, «to» := some (List.replicate 20 7),
     sender := some (List.replicate 20 1) }]

/-- A block with a base fee of 5, in which the given fork is the last. -/
def exGasEnv (rev gasUsed : Nat) : Env where
  crypto := exMeterCrypto
  db := exGasDb
  readHeader _ _ := none
  config := { chainId := 1, forkBlocks := List.replicate rev (some 0) ++ List.replicate (10 - rev) none }
  block :=
    { header := { number := 5, gasLimit := 80000, gasUsed := gasUsed, baseFeePerGas := some 5, beneficiary := List.replicate 20 2,
                  logsBloom := List.replicate 256 0, receiptsRoot := zero32 }
      transactions := exGasTxs
      ommers := [] }
  interpreter := exGasInterpreter

/-- The cumulative gas of the receipts. -/
def exGasReceipts (rev gasUsed : Nat) : Option (List Nat × Option ValidationError) :=
  match executeBlock (exGasEnv rev gasUsed) (fun _ => zero32) with
  | .ok (rs, e, _) => some (rs.map (·.cumulativeGasUsed), e)
  | _ => none

/-- The first transaction consumes 27000: in Istanbul 13500 are refunded, in London 4800; the second uses all it has. -/
example : exGasReceipts 7 35000 = some ([13500, 35000], none) ∧ exGasReceipts 9 43700 = some ([22200, 43700], none) ∧
    exGasReceipts 9 43701 = some ([22200, 43700], some .wrongBlockGas) := by decide +kernel

end Silkworm.Properties
