import Verif.Execution.Settlement
import Verif.Properties.Gas

/-!
# Properties C40, C73, C74: balances and nonces over a transaction
-/

namespace Silkworm.Properties

open Evm
open Spec.Execution
open IntraBlockState (view balance_view nonce_view codeHash_view)

theorem balance_fun {db : StateReader} {s : IntraBlockState} : balance db s = (view db s).bal :=
  funext fun a => balance_view s a

/-- C40: a transaction changes the total balance by the base fee on the gas used, which is burnt, and by what is lost through
self-destruction. The latter is the balance of destroyed accounts at the end of the transaction, after gas has been paid, and
what was burnt during execution because an account named itself as beneficiary; both are zero if no account has been destroyed.
Nothing else is lost, and nothing is ever created. -/
theorem c40_total (env : Env) (hi : InterpreterOk env.interpreter) (p p' : Processor) (txn : Transaction) (receipt : Receipt)
    (hg : intrinsicGas txn (decide (env.revision ≥ Revision.homestead)) (decide (env.revision ≥ Revision.istanbul)) ≤ txn.gasLimit)
    (hl : txn.gasLimit < 2 ^ 63) (hm : txn.maxFeePerGas < 2 ^ 256)
    (T : Nat) (hT : T < 2 ^ 256) (ht : HasTotal (balance env.db p.state) T)
    (hb : ∀ a, txn.sender = some a → txn.gasLimit * txn.maxFeePerGas + txn.value ≤ balance env.db p.state a)
    (h : executeTransaction env p txn = .ok (receipt, p')) :
    ∃ (sender : Bytes) (price fee : Nat) (r : CallResult) (m : Machine) (back used burnt destroyed : Nat),
      execute env txn
        (txn.gasLimit - intrinsicGas txn (decide (env.revision ≥ Revision.homestead)) (decide (env.revision ≥ Revision.istanbul)))
        { p.machine with state := beginTransaction env txn sender price p.state } = .ok (r, m) ∧
      used + back = txn.gasLimit ∧ receipt.cumulativeGasUsed = (p.cumulativeGasUsed + used) % 2 ^ 64 ∧
      env.block.header.baseFeePerGas.getD 0 * used + burnt + destroyed ≤ T ∧
      HasTotal (balance env.db p'.state) (T - (env.block.header.baseFeePerGas.getD 0 * used + burnt + destroyed)) ∧
      HasTotal (fun a => if a ∈ m.state.selfDestructs then balance env.db (payGas env sender price fee back used m.state) a else 0)
        destroyed ∧
      (m.state.selfDestructs = [] → burnt = 0 ∧ destroyed = 0) := by
  obtain ⟨sender, price, fee, r, m, refund, used, hr⟩ := executeTransaction_ran hi hg hl h
  rw [balance_fun] at ht
  have hb' := hb sender hr.hasSender
  rw [balance_view] at hb'
  obtain ⟨⟨burnt, destroyed, s1, s2, s3, s4⟩, _, _⟩ := hr.settled hi hl hm hT ht hb' Guarded.none
  refine ⟨sender, price, fee, r, m, r.gasLeft + refund, used, burnt, destroyed, hr.run, hr.sum, ?_, s2, ?_, ?_, fun hn => ⟨s4 hn, ?_⟩⟩
  · rw [hr.hasReceipt]; exact hr.cumulative
  · rw [balance_fun]; exact s3
  · rw [balance_fun]; exact s1
  · rw [hn] at s1
    refine s1.unique ⟨[], List.nodup_nil, fun a _ => if_neg List.not_mem_nil, rfl⟩

/-- C40: at the end, every account that has not been destroyed has what it had when the EVM stopped; the sender gets back
the unused gas at the price that was paid, and the miner gets the gas used times the priority fee, which is the offered one
unless it does not fit between the base fee and the maximum. -/
theorem c40_settlement (env : Env) (hi : InterpreterOk env.interpreter) (p p' : Processor) (txn : Transaction) (receipt : Receipt)
    (hg : intrinsicGas txn (decide (env.revision ≥ Revision.homestead)) (decide (env.revision ≥ Revision.istanbul)) ≤ txn.gasLimit)
    (hl : txn.gasLimit < 2 ^ 63) (hm : txn.maxFeePerGas < 2 ^ 256)
    (T : Nat) (hT : T < 2 ^ 256) (ht : HasTotal (balance env.db p.state) T)
    (hb : ∀ a, txn.sender = some a → txn.gasLimit * txn.maxFeePerGas + txn.value ≤ balance env.db p.state a)
    (h : executeTransaction env p txn = .ok (receipt, p')) :
    ∃ (sender : Bytes) (price fee : Nat) (r : CallResult) (m : Machine) (back used : Nat),
      txn.sender = some sender ∧
      execute env txn
        (txn.gasLimit - intrinsicGas txn (decide (env.revision ≥ Revision.homestead)) (decide (env.revision ≥ Revision.istanbul)))
        { p.machine with state := beginTransaction env txn sender price p.state } = .ok (r, m) ∧
      used + back = txn.gasLimit ∧ receipt.cumulativeGasUsed = (p.cumulativeGasUsed + used) % 2 ^ 64 ∧
      env.block.header.baseFeePerGas.getD 0 ≤ txn.maxFeePerGas ∧
      fee = min txn.maxPriorityFeePerGas (txn.maxFeePerGas - env.block.header.baseFeePerGas.getD 0) ∧
      price = env.block.header.baseFeePerGas.getD 0 + fee ∧
      ∀ b, balance env.db p'.state b = if b ∈ m.state.selfDestructs then 0 else balance env.db m.state b +
        (if b = sender then back * price else 0) + (if b = env.block.header.beneficiary then used * fee else 0) := by
  obtain ⟨sender, price, fee, r, m, refund, used, hr⟩ := executeTransaction_ran hi hg hl h
  rw [balance_fun] at ht
  have hb' := hb sender hr.hasSender
  rw [balance_view] at hb'
  obtain ⟨_, s2, _⟩ := hr.settled hi hl hm hT ht hb' Guarded.none
  obtain ⟨q1, q2, q3⟩ := price_eq hm hr.hasPrice hr.hasFee
  refine ⟨sender, price, fee, r, m, r.gasLeft + refund, used, hr.hasSender, hr.run, hr.sum, ?_, by omega, q3, by omega, fun b => ?_⟩
  · rw [hr.hasReceipt]; exact hr.cumulative
  · rw [balance_view, balance_view]; exact s2 b

/-- C40: a sender without code pays at most the gas used at the effective price, which is at most the maximum, and the
value. In particular at most the gas limit times the effective price plus the value. -/
theorem c40_sender (env : Env) (hi : InterpreterOk env.interpreter) (p p' : Processor) (txn : Transaction) (receipt : Receipt)
    (hg : intrinsicGas txn (decide (env.revision ≥ Revision.homestead)) (decide (env.revision ≥ Revision.istanbul)) ≤ txn.gasLimit)
    (hl : txn.gasLimit < 2 ^ 63) (hm : txn.maxFeePerGas < 2 ^ 256)
    (T : Nat) (hT : T < 2 ^ 256) (ht : HasTotal (balance env.db p.state) T) (sender : Bytes) (hs : txn.sender = some sender)
    (hb : txn.gasLimit * txn.maxFeePerGas + txn.value ≤ balance env.db p.state sender)
    (hn : nonce env.db p.state sender = txn.nonce) (hn' : txn.nonce + 1 < 2 ^ 64)
    (hcode : codeHash env.db p.state sender = kEmptyHash)
    (h : executeTransaction env p txn = .ok (receipt, p')) :
    ∃ price used,
      txn.effectiveGasPrice (env.block.header.baseFeePerGas.getD 0) = .ok price ∧ price ≤ txn.maxFeePerGas ∧
      used ≤ txn.gasLimit ∧ receipt.cumulativeGasUsed = (p.cumulativeGasUsed + used) % 2 ^ 64 ∧
      balance env.db p.state sender ≤ balance env.db p'.state sender + used * price + txn.value := by
  obtain ⟨sender', price, fee, r, m, refund, used, hr⟩ := executeTransaction_ran hi hg hl h
  obtain rfl : sender = sender' := Option.some.inj (hs.symm.trans hr.hasSender)
  rw [balance_fun] at ht
  rw [balance_view] at hb
  obtain ⟨_, _, s3⟩ := hr.settled hi hl hm hT ht hb (guard := some sender) ⟨
    fun x hx => by cases hx; exact hcode, fun x hx hne => by cases hx; exact absurd rfl hne,
    fun x hx _ => by cases hx; exact ⟨hn, hn'⟩⟩
  obtain ⟨_, _, _, g4⟩ := s3 sender rfl
  obtain ⟨q1, q2, q3⟩ := price_eq hm hr.hasPrice hr.hasFee
  have hsum := hr.sum
  refine ⟨price, used, hr.hasPrice, q2, by omega, ?_, ?_⟩
  · rw [hr.hasReceipt]; exact hr.cumulative
  · rw [if_pos rfl] at g4
    rw [balance_view, balance_view]
    omega

/-- C73: a transaction increases the nonce of its sender, an account without code, by exactly one, whether it is a call or a
creation and whether it succeeds or not; the sender still has no code. -/
theorem c73_nonce (env : Env) (hi : InterpreterOk env.interpreter) (p p' : Processor) (txn : Transaction) (receipt : Receipt)
    (hg : intrinsicGas txn (decide (env.revision ≥ Revision.homestead)) (decide (env.revision ≥ Revision.istanbul)) ≤ txn.gasLimit)
    (hl : txn.gasLimit < 2 ^ 63) (hm : txn.maxFeePerGas < 2 ^ 256)
    (T : Nat) (hT : T < 2 ^ 256) (ht : HasTotal (balance env.db p.state) T) (sender : Bytes) (hs : txn.sender = some sender)
    (hb : txn.gasLimit * txn.maxFeePerGas + txn.value ≤ balance env.db p.state sender)
    (hn : nonce env.db p.state sender = txn.nonce) (hn' : txn.nonce + 1 < 2 ^ 64)
    (hcode : codeHash env.db p.state sender = kEmptyHash)
    (h : executeTransaction env p txn = .ok (receipt, p')) :
    nonce env.db p'.state sender = nonce env.db p.state sender + 1 ∧ codeHash env.db p'.state sender = kEmptyHash := by
  obtain ⟨sender', price, fee, r, m, refund, used, hr⟩ := executeTransaction_ran hi hg hl h
  obtain rfl : sender = sender' := Option.some.inj (hs.symm.trans hr.hasSender)
  rw [balance_fun] at ht
  rw [balance_view] at hb
  obtain ⟨_, _, s3⟩ := hr.settled hi hl hm hT ht hb (guard := some sender) ⟨
    fun x hx => by cases hx; exact hcode, fun x hx hne => by cases hx; exact absurd rfl hne,
    fun x hx _ => by cases hx; exact ⟨hn, hn'⟩⟩
  obtain ⟨_, g2, g3, _⟩ := s3 sender rfl
  rw [if_pos rfl] at g3
  rw [nonce_view, nonce_view, codeHash_view]
  exact ⟨g3, g2⟩

/-- C74: whatever code does, an account without code whose nonce is not zero loses nothing by the transactions of others:
its balance does not decrease, its nonce stays and it gets no code. -/
theorem c74_bystander (env : Env) (hi : InterpreterOk env.interpreter) (p p' : Processor) (txn : Transaction) (receipt : Receipt)
    (hg : intrinsicGas txn (decide (env.revision ≥ Revision.homestead)) (decide (env.revision ≥ Revision.istanbul)) ≤ txn.gasLimit)
    (hl : txn.gasLimit < 2 ^ 63) (hm : txn.maxFeePerGas < 2 ^ 256)
    (T : Nat) (hT : T < 2 ^ 256) (ht : HasTotal (balance env.db p.state) T)
    (hb : ∀ a, txn.sender = some a → txn.gasLimit * txn.maxFeePerGas + txn.value ≤ balance env.db p.state a)
    (x : Bytes) (hx : txn.sender ≠ some x) (hn : nonce env.db p.state x ≠ 0) (hcode : codeHash env.db p.state x = kEmptyHash)
    (h : executeTransaction env p txn = .ok (receipt, p')) :
    balance env.db p.state x ≤ balance env.db p'.state x ∧ nonce env.db p'.state x = nonce env.db p.state x ∧
    codeHash env.db p'.state x = kEmptyHash := by
  obtain ⟨sender, price, fee, r, m, refund, used, hr⟩ := executeTransaction_ran hi hg hl h
  rw [balance_fun] at ht
  have hb' := hb sender hr.hasSender
  rw [balance_view] at hb'
  have hne : x ≠ sender := fun hh => hx (hh ▸ hr.hasSender)
  obtain ⟨_, _, s3⟩ := hr.settled hi hl hm hT ht hb' (guard := some x) ⟨
    fun y hy => by cases hy; exact hcode, fun y hy _ => by cases hy; exact hn,
    fun y hy hh => by cases hy; exact absurd hh hne⟩
  obtain ⟨_, g2, g3, g4⟩ := s3 x rfl
  rw [if_neg hne] at g3 g4
  rw [balance_view, balance_view, nonce_view, nonce_view, codeHash_view]
  exact ⟨g4, g3, g2⟩

/-! ## Examples -/

/-- A contract with 77 wei, a rich account and another. -/
def exMoneyDb : StateReader where
  readAccount a :=
    if a = List.replicate 20 7 then some { nonce := 1, balance := 77, codeHash := beFixed 32 5, incarnation := 1 }
    else if a = List.replicate 20 1 then some { nonce := 3, balance := 10000000 }
    else if a = List.replicate 20 3 then some { nonce := 9, balance := 5 }
    else none
  readCode _ := [0]
  readStorage _ _ _ := zero32
  previousIncarnation _ := 0

/-- All code destroys its account in favour of the given address. -/
def exMoneyInterpreter (beneficiary : Bytes) (_ : Nat) (msg : Message) (_ : Bytes) : Program :=
  if msg.isStatic then .done { status := .outOfGas, gasLeft := 0 }
  else .ask (.selfdestruct msg.destination beneficiary) fun _ => .done { status := .success, gasLeft := msg.gas }

theorem exMoneyInterpreter_ok (b : Bytes) : InterpreterOk (exMoneyInterpreter b) := by
  intro rev msg code hg
  unfold exMoneyInterpreter
  split
  · exact .done (Int.le_refl _) hg
  · next h => exact .ask ⟨rfl, by simpa using h⟩ fun _ _ => .done hg (Int.le_refl _)

/-- A block with a base fee of 5 in London. -/
def exMoneyEnv (beneficiary : Bytes) : Env where
  crypto := exMeterCrypto
  db := exMoneyDb
  readHeader _ _ := none
  config := { chainId := 1, forkBlocks := List.replicate 9 (some 0) ++ [none] }
  block :=
    { header := { number := 5, gasLimit := 80000, baseFeePerGas := some 5, beneficiary := List.replicate 20 2 }
      transactions := []
      ommers := [] }
  interpreter := exMoneyInterpreter beneficiary

/-- A call with 100 wei. -/
def exMoneyTx (rcp : Option Bytes) : Transaction :=
  { nonce := 3, maxPriorityFeePerGas := 10, maxFeePerGas := 30, gasLimit := 60000, «to» := rcp, value := 100,
    sender := some (List.replicate 20 1) }

/-- Balances and nonces after the transaction: sender, miner, contract, bystander. -/
def exMoneyAfter (beneficiary : Bytes) (rcp : Option Bytes) : Option (List (Nat × Nat)) :=
  match executeTransaction (exMoneyEnv beneficiary) { machine := { state := {} } } (exMoneyTx rcp) with
  | .ok (_, p) => some ([1, 2, 7, 3].map fun n : UInt8 => (balance exMoneyDb p.state (List.replicate 20 n),
      nonce exMoneyDb p.state (List.replicate 20 n)))
  | _ => none

example : ∃ T, T < 2 ^ 256 ∧ HasTotal (balance exMoneyDb {}) T :=
  ⟨10000082, by decide, [List.replicate 20 7, List.replicate 20 1, List.replicate 20 3], by decide, fun a ha => by
    simp only [List.mem_cons, List.not_mem_nil, or_false, not_or] at ha
    have e : exMoneyDb.readAccount a = none := by
      unfold exMoneyDb
      dsimp only
      rw [if_neg ha.1, if_neg ha.2.1, if_neg ha.2.2]
    unfold balance IntraBlockState.getBalance IntraBlockState.getObject
    simp [e], by decide +kernel⟩

/-- The contract gives its 77 and the 100 to the bystander; or burns them. The sender pays 21000 times 15 wei, of which the miner
gets 10. -/
example :
    exMoneyAfter (List.replicate 20 3) (some (List.replicate 20 7)) =
      some [(10000000 - 315000 - 100, 4), (210000, 0), (0, 0), (182, 9)] ∧
    exMoneyAfter (List.replicate 20 7) (some (List.replicate 20 7)) =
      some [(10000000 - 315000 - 100, 4), (210000, 0), (0, 0), (5, 9)] ∧
    exMoneyAfter (List.replicate 20 7) none = some [(10000000 - 53000 * 15 - 100, 4), (530000, 0), (77 + 100, 1), (5, 9)] := by
  decide +kernel

end Silkworm.Properties
