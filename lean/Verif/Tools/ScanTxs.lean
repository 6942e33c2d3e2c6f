import Verif.Stages.Execution

/-!
# Model of cmd/scan_txs.cpp

What the command prints on its output and complains about, and how it ends. Progress messages are left out. The transaction is renewed
before each block, so every block has its own database. Execution is a parameter, as in the model of the stages.
-/

namespace Silkworm.Tools

open Silkworm.Db Silkworm.Stages

/-- How the command ends. -/
inductive ScanEnd
  | finished
  /-- cmd/scan_txs.cpp:115-118: by an exception. -/
  | thrown
  /-- cmd/scan_txs.cpp:92: by a failed assertion. -/
  | aborted
  deriving DecidableEq, Repr

/-- Lines of output (block, transactions, errors), blocks with validation errors, and the end. -/
structure ScanReport where
  lines : List (Nat × Nat × Nat) := []
  invalid : List Nat := []
  ending : ScanEnd := .finished
  deriving DecidableEq, Repr

/-- cmd/scan_txs.cpp:101-104: the line that is printed, if any, and the counters that are left. -/
def scanLine (n txs errors : Nat) : List (Nat × Nat × Nat) × Nat × Nat :=
  if n % 50000 = 0 then ([(n, txs, errors)], 0, 0) else ([], txs, errors)

/-- cmd/scan_txs.cpp:71-112: `count` blocks from `n` on. `dbs n` is the database when block `n` is read, and `exec n` is `execute_block`
with a buffer that reads the state as of block `n`. Counters are not reduced modulo 2^64. -/
def scanTxsLoop (ndebug : Bool) (exec : Nat → BlockExecutor) (dbs : Nat → Database) : Nat → Nat → Nat → Nat → Outcome Empty ScanReport
  | 0, _, _, _ => .ok {}
  | count + 1, n, txs, errors =>
    match readBlock (dbs n) n true with
    | .ub => .ub
    | .err _ => .ok { ending := .thrown }
    | .ok none => .ok {}
    | .ok (some bh) =>
      match exec n (dbs n) {} bh.1 with
      | .ub => .ub
      | .err _ => .ub
      | .ok (receipts, e, calls) =>
        match ({} : Db.Buffer).applyAll (if e.isSome then [] else calls) with
        | .ub => .ub
        | .err _ => .ub
        | .ok _ =>
          let invalid := if e.isSome then [n] else []
          if !ndebug && bh.1.transactions.length ≠ receipts.length then .ok { invalid := invalid, ending := .aborted }
          else
            let line := scanLine n (txs + receipts.length) (errors + (receipts.filter (fun r => !r.success)).length)
            match scanTxsLoop ndebug exec dbs count (n + 1) line.2.1 line.2.2 with
            | .ub => .ub
            | .err x => nomatch x
            | .ok r => .ok { r with lines := line.1 ++ r.lines, invalid := invalid ++ r.invalid }

/-- cmd/scan_txs.cpp:43-120: the report and the exit status. An assertion ends the program by a signal, which has no status. -/
def scanTxs (ndebug configured : Bool) (exec : Nat → BlockExecutor) (dbs : Nat → Database) (first upTo : Nat) :
    Outcome Empty (ScanReport × Option Int) :=
  if first > upTo then .ok ({}, some (-1))
  else if !configured then .ok ({ ending := .thrown }, some (-1))
  else
    match scanTxsLoop ndebug exec dbs (upTo - first) first 0 0 with
    | .ub => .ub
    | .err x => nomatch x
    | .ok r => .ok (r, match r.ending with
      | .finished => some 0
      | .thrown => some (-1)
      | .aborted => none)

end Silkworm.Tools
