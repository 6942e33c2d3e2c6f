import Verif.Stages.Common

/-!
# Model of db/silkworm/stagedsync/stage_blockhashes.cpp

The transaction is read-only (line 34). Writing to the database (lines 98-106) comes after the loop, which is only left
without a `return` if its condition fails at once, when there is nothing to write.
-/

namespace Silkworm.Stages

open Silkworm.Db Silkworm.Etl

/-- stage_blockhashes.cpp:57-81: the loop. `header_data` is set before the loop and not assigned in it (line 80 moves the
cursor and drops what it returns), so the condition stays true. `fuel` bounds the number of rounds; running out of it stands
for not terminating. -/
def blockHashesLoop (space : Nat → Nat) (data : Bytes × Bytes) :
    Nat → Nat → Collector → Outcome StageError StageResult
  | 0, _, _ => .ub
  | fuel + 1, expected, c => do
    let reached ← loadBig64 data.1
    if reached ≠ expected then .ok .badChainSequence
    else if data.2.length ≠ 32 then .ok .badBlockHash
    else do
      let c ← liftEtl (Collector.collect space c ⟨data.2, data.1⟩)
      blockHashesLoop space data fuel ((expected + 1) % 2 ^ 64) c

/-- stage_blockhashes.cpp:33-115 (`stage_blockhashes`). -/
def stageBlockHashes (d : Disk) (db : Database) : Outcome StageError (StageResult × Database) := do
  let last ← liftDb (getStageProgress db (ascii "BlockHashes"))
  let expected := (last + 1) % 2 ^ 64
  match db.canonicalHashes.find (blockKey expected) with
  | none => .ok (.success, db)
  | some data => do
    let r ← blockHashesLoop d.space data 2 expected (Collector.new kFlushSize)
    .ok (r, db)

end Silkworm.Stages
