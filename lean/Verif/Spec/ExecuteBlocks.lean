import Verif.Db.StateBuffer
import Verif.Execution.Evm

/-!
# Executing blocks in order

Independent of the loops: a relation that holds if the blocks from `n` up to but not including `m` have been read and
executed, each exactly once and in order, each on top of its predecessors.
-/

namespace Silkworm.Spec

open Silkworm.Db Silkworm.State

/-- Blocks `n`, ..., `m - 1` of `db` take the buffer from `b` to `b'`. -/
inductive Executes
    (exec : Database → Db.Buffer → Block → Outcome Evm.Fault (List Receipt × Option ValidationError × List BufferCall))
    (writeReceipts : Bool) (db : Database) : Nat → Nat → Db.Buffer → Db.Buffer → Prop
  | none (n : Nat) (b : Db.Buffer) : Executes exec writeReceipts db n n b b
  | block {n m : Nat} {b b1 b' : Db.Buffer} {block : Block} {hash : Bytes} {receipts : List Receipt} {calls : List BufferCall}
      (read : readBlock db n true = .ok (some (block, hash)))
      (valid : exec db b block = .ok (receipts, none, calls))
      (changes : b.applyAll calls = .ok b1)
      (rest : Executes exec writeReceipts db (n + 1) m (if writeReceipts then b1.insertReceipts n receipts else b1) b') :
      Executes exec writeReceipts db n m b b'

/-- Blocks `n`, ..., `m - 1` take the database from `db` to `db'`: in rounds, each of which executes at least one block on a
new buffer, writes the buffer and stores the last block as progress. -/
inductive Rounds
    (exec : Database → Db.Buffer → Block → Outcome Evm.Fault (List Receipt × Option ValidationError × List BufferCall))
    (writeReceipts : Bool) : Database → Nat → Nat → Database → Prop
  | none (db : Database) (n : Nat) : Rounds exec writeReceipts db n n db
  | round {db db1 db' : Database} {n k m : Nat} {b : Db.Buffer} (some : n ≤ k)
      (batch : Executes exec writeReceipts db n (k + 1) {} b)
      (stored : setStageProgress (b.writeToDb db) (ascii "Execution") k = .ok db1)
      (rest : Rounds exec writeReceipts db1 (k + 1) m db') : Rounds exec writeReceipts db n m db'

end Silkworm.Spec
