import Verif.Execution.Total
import Verif.Properties.Gas

/-!
# Property C79: execution is defined
-/

namespace Silkworm.Properties

open Evm
open Spec.Execution

/-- C79: the execution of a block comes to an end with receipts or an error: no assertion fails, no empty optional is
dereferenced, no empty stack is popped, nothing is read out of bounds in the precompiled contracts, and messages do not nest
deeper than 1024. Assumed is that the transactions passed pre-validation (they can pay their intrinsic gas and the base fee;
whether there is a sender, and what it has, is checked during execution), that gas limits are below `2^62`, and that the
interpreter keeps to the interface of the host and asks only for the last 256 hashes. -/
theorem c79_block (env : Env) (listRoot : List Bytes → Bytes) (hi : InterpreterOk env.interpreter)
    (hr : InterpreterInRange env.block.header.number env.interpreter) (hrec : Spec.Precompiled.RecoverOk env.crypto.recover)
    (hn : env.block.header.number < 2 ^ 64)
    (h : ∀ t ∈ env.block.transactions, env.block.header.baseFeePerGas.getD 0 ≤ t.maxFeePerGas ∧ t.maxFeePerGas < 2 ^ 256 ∧
      intrinsicGas t (decide (env.revision ≥ Revision.homestead)) (decide (env.revision ≥ Revision.istanbul)) ≤ t.gasLimit ∧
      t.gasLimit < 2 ^ 62) :
    ∃ receipts e calls, executeBlock env listRoot = .ok (receipts, e, calls) := by
  have key : ∀ p : Processor, ∃ x, processBlock env p = .ok x := by
    intro p
    unfold processBlock
    dsimp only
    generalize (if env.config.daoBlock = some env.block.header.number then Dao.transferBalances env.db p.state else p.state) = s
    obtain ⟨x, hx⟩ := executeTransactions_total ⟨hi, hr, hrec, hn⟩ env.block.transactions h
      { p.withState s with cumulativeGasUsed := 0 }
    rw [okBind hx]
    cases x.2.1 <;> exact ⟨_, rfl⟩
  obtain ⟨x, hx⟩ := key { machine := { state := {} } }
  unfold executeBlock
  rw [okBind hx]
  cases x.2.1 with
  | some e => exact ⟨_, _, _, rfl⟩
  | none =>
    dsimp only
    cases checkReceipts env listRoot x.1 <;> exact ⟨_, _, _, rfl⟩

/-- C79: and so does that of a single transaction with a sender, in whatever state. -/
theorem c79_transaction (env : Env) (hi : InterpreterOk env.interpreter)
    (hr : InterpreterInRange env.block.header.number env.interpreter) (hrec : Spec.Precompiled.RecoverOk env.crypto.recover)
    (hn : env.block.header.number < 2 ^ 64) (t : Transaction) (sender : Bytes) (hs : t.sender = some sender)
    (h1 : env.block.header.baseFeePerGas.getD 0 ≤ t.maxFeePerGas) (h2 : t.maxFeePerGas < 2 ^ 256)
    (h3 : intrinsicGas t (decide (env.revision ≥ Revision.homestead)) (decide (env.revision ≥ Revision.istanbul)) ≤ t.gasLimit)
    (h4 : t.gasLimit < 2 ^ 62) (p : Processor) : ∃ receipt p', executeTransaction env p t = .ok (receipt, p') := by
  obtain ⟨x, hx⟩ := executeTransaction_total ⟨⟨sender, hs⟩, h1, h2⟩ ⟨hi, hr, hrec, hn⟩ h3 h4 p
  exact ⟨x.1, x.2, hx⟩

/-! ## Examples -/

theorem exGasInterpreter_inRange (n : Nat) : InterpreterInRange n exGasInterpreter := by
  intro rev msg code _ _
  unfold exGasInterpreter
  split
  · exact .done
  · exact .ask (fun _ h => nomatch h) (fun _ h => nomatch h) fun _ _ => .done

/-- The assumptions hold for a block with two transactions. -/
example : ∃ receipts e calls, executeBlock (exGasEnv 9 43700) (fun _ => zero32) = .ok (receipts, e, calls) :=
  c79_block _ _ exGasInterpreter_ok (exGasInterpreter_inRange _)
    ⟨(fun _ _ _ _ h => nomatch h), (fun _ _ _ _ h => nomatch h)⟩ (by decide) (by decide +kernel)

/-- A transaction without a sender, and a transaction that does not pay the base fee, are not defined. -/
example : executeTransaction (exGasEnv 9 0) { machine := { state := {} } } { exGasTxs[0] with sender := none } = .ub ∧
    executeTransaction (exGasEnv 9 0) { machine := { state := {} } } { exGasTxs[0] with maxFeePerGas := 4 } = .ub := ⟨rfl, rfl⟩

end Silkworm.Properties
