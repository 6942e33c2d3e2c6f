import Verif.Stages.Common

/-!
# Model of db/silkworm/stagedsync/stage_tx_lookup.cpp
-/

namespace Silkworm.Stages

open Silkworm.Db Silkworm.Etl

/-- stage_tx_lookup.cpp:33-39 (`compact`). -/
def compact (b : Bytes) : Bytes :=
  match b.dropWhile (· == 0) with
  | [] => b
  | c => c

/-- stage_tx_lookup.cpp:75-83: the transactions of a block, from the first one found. -/
def lookupTransactions (keccak : Bytes → Bytes) (lookup : Bytes) : Nat → Table → List Entry
  | 0, _ => []
  | _, [] => []
  | n + 1, e :: t => ⟨keccak e.2, lookup⟩ :: lookupTransactions keccak lookup n t

/-- stage_tx_lookup.cpp:62-93: the loop over the bodies, from the first one found. The entries to collect and the number of
the last block. -/
def lookupBodies (keccak : Bytes → Bytes) (ethTx : Table) : Nat → Table → Outcome StageError (List Entry × Nat)
  | number, [] => .ok ([], number)
  | _, e :: t => do
    let (body, _) ← liftDb (liftDec (decodeStoredBlockBody e.2))
    let number ← loadBig64 e.1
    let found :=
      if body.txnCount = 0 then []
      else lookupTransactions keccak (compact (e.1.take 8)) body.txnCount (fromKey ethTx (beFixed 8 body.baseTxnId))
    let (rest, last) ← lookupBodies keccak ethTx number t
    .ok (found ++ rest, last)

/-- stage_tx_lookup.cpp:41-130 (`stage_tx_lookup`). -/
def stageTxLookup (d : Disk) (keccak : Bytes → Bytes) (db : Database) : Outcome StageError (StageResult × Database) := do
  let last ← liftDb (getStageProgress db (ascii "TxLookup"))
  let (es, number) ← lookupBodies keccak db.ethTx 0 (fromKey db.blockBodies (beFixed 8 ((last + 1) % 2 ^ 64)))
  if es = [] then .ok (.success, db)
  else do
    let t ← etlLoad d kFlushSize es (putEntry db.txLookup.isEmpty) db.txLookup
    let db ← liftDb (setStageProgress { db with txLookup := t } (ascii "TxLookup") number)
    .ok (.success, db)

end Silkworm.Stages
