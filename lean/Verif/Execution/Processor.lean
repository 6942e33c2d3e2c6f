import Verif.Chain.Dao
import Verif.Execution.Evm

/-!
# Model of core/silkworm/execution/{processor,execution}.{hpp,cpp}
-/

namespace Silkworm.Evm

open IntraBlockState

/-- core/silkworm/execution/processor.hpp:60-61. -/
structure Processor where
  machine : Machine
  cumulativeGasUsed : Nat := 0

/-- The state. -/
def Processor.state (p : Processor) : IntraBlockState := p.machine.state

/-- Replace the state. -/
def Processor.withState (p : Processor) (s : IntraBlockState) : Processor := { p with machine := { p.machine with state := s } }

/-- core/silkworm/execution/processor.cpp:116-118. -/
def availableGas (env : Env) (p : Processor) : Nat := sub64 env.block.header.gasLimit p.cumulativeGasUsed

/-- core/silkworm/execution/processor.cpp:32-59 (`validate_transaction`): the error, if any. The sum is a 512-bit number
and cannot overflow. -/
def validateTransaction (env : Env) (p : Processor) (txn : Transaction) : Option ValidationError × Processor :=
  match txn.sender with
  | none => (some .missingSender, p)
  | some sender =>
    let n := getNonce env.db p.state sender
    if n.1 ≠ txn.nonce then (some .wrongNonce, p.withState n.2)
    else
      let b := getBalance env.db n.2 sender
      if b.1 < txn.gasLimit * txn.maxFeePerGas + txn.value then (some .insufficientFunds, p.withState b.2)
      else if availableGas env p < txn.gasLimit then (some .blockGasLimitExceeded, p.withState b.2)
      else (none, p.withState b.2)

/-- core/silkworm/execution/processor.cpp:79-84: the access list. -/
def warmAccessList (s : IntraBlockState) (list : List AccessListEntry) : IntraBlockState :=
  list.foldl (fun s e => e.storageKeys.foldl (fun s k => (s.accessStorage e.account k).2) (s.accessAccount e.account).2) s

/-- core/silkworm/execution/processor.cpp:61-84: what happens before the EVM runs. -/
def beginTransaction (env : Env) (txn : Transaction) (sender : Bytes) (price : Nat) (s : IntraBlockState) :
    IntraBlockState :=
  let s := s.clearJournalAndSubstate
  let s := (s.accessAccount sender).2
  let s := subtractFromBalance env.db s sender (mul256 txn.gasLimit price)
  let s :=
    match txn.to with
    | some to => setNonce env.db (s.accessAccount to).2 sender ((txn.nonce + 1) % 2 ^ 64)
    | none => s
  warmAccessList s txn.accessList

/-- core/silkworm/execution/processor.cpp:121-130: the gas to give back. -/
def refundedGas (rev : Nat) (s : IntraBlockState) (gasLimit gasLeft : Nat) : Nat :=
  let refund := if rev < Revision.london then (s.refund + 24000 * s.numberOfSelfDestructs % 2 ^ 64) % 2 ^ 64 else s.refund
  let quotient := if rev ≥ Revision.london then 5 else 2
  (gasLeft + min refund (sub64 gasLimit gasLeft / quotient)) % 2 ^ 64

/-- core/silkworm/execution/processor.cpp:95-103, 132-134: pay the sender and the miner. -/
def payGas (env : Env) (sender : Bytes) (price priorityFee gasBack gasUsed : Nat) (s : IntraBlockState) : IntraBlockState :=
  let s := addToBalance env.db s sender (mul256 gasBack price)
  addToBalance env.db s env.block.header.beneficiary (mul256 gasUsed priorityFee)

/-- core/silkworm/execution/processor.cpp:99-104: the end of a transaction. -/
def endTransaction (env : Env) (s : IntraBlockState) : IntraBlockState :=
  let s := s.destructSuicides env.db
  let s := if env.revision ≥ Revision.spuriousDragon then s.destructTouchedDead env.db else s
  s.finalizeTransaction

/-- core/silkworm/execution/processor.cpp:61-114, 120-137 (`execute_transaction`, `refund_gas`). -/
def executeTransaction (env : Env) (p : Processor) (txn : Transaction) : Outcome Fault (Receipt × Processor) :=
  match txn.sender with
  | none => .ub
  | some sender =>
    let baseFee := env.block.header.baseFeePerGas.getD 0
    (lift (txn.effectiveGasPrice baseFee)).bind fun price =>
      let m := { p.machine with state := beginTransaction env txn sender price p.state }
      let rev := env.revision
      let g0 := intrinsicGas txn (decide (rev ≥ Revision.homestead)) (decide (rev ≥ Revision.istanbul))
      if g0 ≥ 2 ^ 64 then .ub
      else
        (execute env txn (sub64 txn.gasLimit g0) m).bind fun r =>
          let back := refundedGas rev r.2.state txn.gasLimit r.1.gasLeft
          let used := sub64 txn.gasLimit back
          (lift (txn.priorityFeePerGas baseFee)).bind fun fee =>
            let s := endTransaction env (payGas env sender price fee back used r.2.state)
            let cumulative := (p.cumulativeGasUsed + used) % 2 ^ 64
            .ok (⟨txn.type, decide (r.1.status = .success), cumulative, logsBloom env.crypto.keccak s.logs, s.logs⟩,
              ⟨{ r.2 with state := s }, cumulative⟩)

/-- The loop at core/silkworm/execution/processor.cpp:148-154. -/
def executeTransactions (env : Env) : Processor → List Transaction →
    Outcome Fault (List Receipt × Option ValidationError × Processor)
  | p, [] => .ok ([], none, p)
  | p, txn :: rest =>
    let v := validateTransaction env p txn
    match v.1 with
    | some e => .ok ([], some e, v.2)
    | none =>
      (executeTransaction env v.2 txn).bind fun r =>
        (executeTransactions env r.2 rest).bind fun q => .ok (r.1 :: q.1, q.2)

/-- core/silkworm/chain/protocol_param.hpp:58-60, core/silkworm/execution/processor.cpp:162-170. -/
def blockReward (rev : Nat) : Nat :=
  if rev ≥ Revision.constantinople then 2 * 10 ^ 18
  else if rev ≥ Revision.byzantium then 3 * 10 ^ 18
  else 5 * 10 ^ 18

/-- core/silkworm/execution/processor.cpp:175. -/
def ommerReward (reward blockNumber ommerNumber : Nat) : Nat :=
  mul256 (sub64 ((8 + ommerNumber) % 2 ^ 64) blockNumber) reward / 8

/-- The loop at core/silkworm/execution/processor.cpp:174-178: the reward of the miner and the state. -/
def rewardOmmers (env : Env) (reward : Nat) : List BlockHeader → Nat × IntraBlockState → Nat × IntraBlockState
  | [], x => x
  | ommer :: rest, x =>
    rewardOmmers env reward rest
      (add256 x.1 (reward / 32),
       addToBalance env.db x.2 ommer.beneficiary (ommerReward reward env.block.header.number ommer.number))

/-- core/silkworm/execution/processor.cpp:161-181 (`apply_rewards`). -/
def applyRewards (env : Env) (s : IntraBlockState) : IntraBlockState :=
  let reward := blockReward env.revision
  let r := rewardOmmers env reward env.block.ommers (reward, s)
  addToBalance env.db r.2 env.block.header.beneficiary r.1

/-- core/silkworm/execution/processor.cpp:139-159 (`ExecutionProcessor::execute_block`). -/
def processBlock (env : Env) (p : Processor) : Outcome Fault (List Receipt × Option ValidationError × Processor) :=
  let s := if env.config.daoBlock = some env.block.header.number then Dao.transferBalances env.db p.state else p.state
  (executeTransactions env { p.withState s with cumulativeGasUsed := 0 } env.block.transactions).bind fun r =>
    match r.2.1 with
    | some e => .ok (r.1, some e, r.2.2)
    | none => .ok (r.1, none, r.2.2.withState (applyRewards env r.2.2.state))

/-- core/silkworm/execution/execution.cpp:47-74: the checks after execution. `listRoot` is `trie::root_hash`. -/
def checkReceipts (env : Env) (listRoot : List Bytes → Bytes) (receipts : List Receipt) : Option ValidationError :=
  let header := env.block.header
  let gasUsed := ((receipts.getLast?).map (·.cumulativeGasUsed)).getD 0
  if gasUsed ≠ header.gasUsed then some .wrongBlockGas
  else if env.revision ≥ Revision.byzantium ∧ listRoot (receipts.map encodeReceipt) ≠ header.receiptsRoot then
    some .wrongReceiptsRoot
  else if receipts.foldl (fun b r => joinBloom b r.bloom) (List.replicate 256 0) ≠ header.logsBloom then
    some .wrongLogsBloom
  else none

/-- core/silkworm/execution/execution.cpp:25-79 (`silkworm::execute_block`): the receipts, the error and the calls made
to the buffer. -/
def executeBlock (env : Env) (listRoot : List Bytes → Bytes) :
    Outcome Fault (List Receipt × Option ValidationError × List BufferCall) :=
  (processBlock env { machine := { state := {} } }).bind fun r =>
    match r.2.1 with
    | some e => .ok (r.1, some e, [])
    | none =>
      match checkReceipts env listRoot r.1 with
      | some e => .ok (r.1, some e, [])
      | none => .ok (r.1, none, r.2.2.state.writeToDb env.block.header.number)

end Silkworm.Evm
