import Verif.State.IntraBlockState

/-!
# Executions of the state

The public operations of `IntraBlockState` (core/silkworm/state/intra_block_state.hpp:58-115) as data, and what a
sequence of them returns and leaves behind. Snapshots are used as the EVM uses them (core/silkworm/execution/evm.cpp:
87-143, 148-215): taken, followed by some operations, and then either dropped or reverted to.
-/

namespace Silkworm

open IntraBlockState

/-- Operations within a transaction. -/
inductive Op where
  | doesExist (a : Bytes)
  | isDead (a : Bytes)
  | createContract (a : Bytes)
  | recordSuicide (a : Bytes)
  | touch (a : Bytes)
  | getBalance (a : Bytes)
  | setBalance (a : Bytes) (v : Nat)
  | addToBalance (a : Bytes) (v : Nat)
  | subtractFromBalance (a : Bytes) (v : Nat)
  | getNonce (a : Bytes)
  | setNonce (a : Bytes) (n : Nat)
  | getCode (a : Bytes)
  | getCodeHash (a : Bytes)
  | setCode (a code : Bytes)
  | accessAccount (a : Bytes)
  | accessStorage (a k : Bytes)
  | getCurrentStorage (a k : Bytes)
  | getOriginalStorage (a k : Bytes)
  | setStorage (a k v : Bytes)
  | addLog (l : Log)
  | addRefund (n : Nat)
  | subtractRefund (n : Nat)
  | getRefund

/-- What an operation returns. -/
inductive OpResult where
  | unit
  | bool (b : Bool)
  | nat (n : Nat)
  | bytes (b : Bytes)
  deriving DecidableEq

/-- One operation. -/
def Op.step (keccak : Bytes → Bytes) (db : StateReader) (s : IntraBlockState) : Op → OpResult × IntraBlockState
  | .doesExist a => let r := exists? db s a; (.bool r.1, r.2)
  | .isDead a => let r := IntraBlockState.isDead db s a; (.bool r.1, r.2)
  | .createContract a => (.unit, IntraBlockState.createContract db s a)
  | .recordSuicide a => (.unit, IntraBlockState.recordSuicide s a)
  | .touch a => (.unit, IntraBlockState.touch s a)
  | .getBalance a => let r := IntraBlockState.getBalance db s a; (.nat r.1, r.2)
  | .setBalance a v => (.unit, IntraBlockState.setBalance db s a v)
  | .addToBalance a v => (.unit, IntraBlockState.addToBalance db s a v)
  | .subtractFromBalance a v => (.unit, IntraBlockState.subtractFromBalance db s a v)
  | .getNonce a => let r := IntraBlockState.getNonce db s a; (.nat r.1, r.2)
  | .setNonce a n => (.unit, IntraBlockState.setNonce db s a n)
  | .getCode a => let r := IntraBlockState.getCode db s a; (.bytes r.1, r.2)
  | .getCodeHash a => let r := IntraBlockState.getCodeHash db s a; (.bytes r.1, r.2)
  | .setCode a code => (.unit, IntraBlockState.setCode keccak db s a code)
  | .accessAccount a => let r := IntraBlockState.accessAccount s a; (.bool r.1, r.2)
  | .accessStorage a k => let r := IntraBlockState.accessStorage s a k; (.bool r.1, r.2)
  | .getCurrentStorage a k => let r := IntraBlockState.getCurrentStorage db s a k; (.bytes r.1, r.2)
  | .getOriginalStorage a k => let r := IntraBlockState.getOriginalStorage db s a k; (.bytes r.1, r.2)
  | .setStorage a k v => (.unit, IntraBlockState.setStorage db s a k v)
  | .addLog l => (.unit, IntraBlockState.addLog s l)
  | .addRefund n => (.unit, IntraBlockState.addRefund s n)
  | .subtractRefund n => (.unit, IntraBlockState.subtractRefund s n)
  | .getRefund => (.nat s.refund, s)

/-- Operations with properly nested snapshots. -/
inductive Trace where
  | nil
  | op (o : Op) (rest : Trace)
  /-- Take a snapshot, run `body`, revert to the snapshot if `revert`, go on with `rest`. -/
  | scope (body : Trace) (revert : Bool) (rest : Trace)

/-- Run a trace: the results in order and the final state. -/
def Trace.run (keccak : Bytes → Bytes) (db : StateReader) : Trace → IntraBlockState → List OpResult × IntraBlockState
  | .nil, s => ([], s)
  | .op o rest, s =>
    let r := o.step keccak db s
    let q := rest.run keccak db r.2
    (r.1 :: q.1, q.2)
  | .scope body revert rest, s =>
    let snap := s.takeSnapshot
    let r := body.run keccak db s
    let q := rest.run keccak db (if revert then r.2.revertToSnapshot snap else r.2)
    (r.1 ++ q.1, q.2)

/-- What happens within a block (core/silkworm/execution/processor.cpp:61-114): operations, and what is done at the end
of every transaction. -/
inductive Phase where
  | ops (t : Trace)
  | destructSuicides
  | destructTouchedDead
  | finalizeTransaction
  | clearJournalAndSubstate

/-- Run one phase. -/
def Phase.run (keccak : Bytes → Bytes) (db : StateReader) (s : IntraBlockState) : Phase → List OpResult × IntraBlockState
  | .ops t => t.run keccak db s
  | .destructSuicides => ([], IntraBlockState.destructSuicides db s)
  | .destructTouchedDead => ([], IntraBlockState.destructTouchedDead db s)
  | .finalizeTransaction => ([], IntraBlockState.finalizeTransaction s)
  | .clearJournalAndSubstate => ([], IntraBlockState.clearJournalAndSubstate s)

/-- Run phases in order. -/
def runPhases (keccak : Bytes → Bytes) (db : StateReader) : List Phase → IntraBlockState → List OpResult × IntraBlockState
  | [], s => ([], s)
  | p :: ps, s =>
    let r := p.run keccak db s
    let q := runPhases keccak db ps r.2
    (r.1 ++ q.1, q.2)

/-- Every operation of the run satisfies `P` in the state in which it is executed. -/
def Trace.All (keccak : Bytes → Bytes) (db : StateReader) (P : Op → IntraBlockState → Prop) :
    Trace → IntraBlockState → Prop
  | .nil, _ => True
  | .op o rest, s => P o s ∧ rest.All keccak db P (o.step keccak db s).2
  | .scope body revert rest, s =>
    body.All keccak db P s ∧
      rest.All keccak db P
        (if revert then (body.run keccak db s).2.revertToSnapshot s.takeSnapshot else (body.run keccak db s).2)

/-- Every operation of the phases satisfies `P` in the state in which it is executed. -/
def PhasesAll (keccak : Bytes → Bytes) (db : StateReader) (P : Op → IntraBlockState → Prop) :
    List Phase → IntraBlockState → Prop
  | [], _ => True
  | p :: ps, s =>
    (match p with
      | .ops t => t.All keccak db P s
      | _ => True) ∧ PhasesAll keccak db P ps (p.run keccak db s).2

end Silkworm
