import Verif.Stages.Common
import Verif.Trie.NodeCodec

/-!
# Model of db/silkworm/trie/db_trie.cpp: computing the state root from the hashed state

The cursors over the tries are not implemented in the code (lines 29-74): they have no key, skip nothing, and their first
uncovered prefix is empty for accounts and one zero byte for storage, so that each outer loop runs once. Keccak-256 is a
parameter whose results have 32 bytes. Each of the two collectors has its own disk parameter. The collectors get their
entries after the computation instead of during it; this only changes which exception is thrown if there are several
reasons for one.
-/

namespace Silkworm.Stages

open Silkworm.Db Silkworm.Etl Silkworm.Trie Silkworm.Rlp

/-- Failures of the hash builder, which throws no exceptions. -/
def liftBuilder {α : Type} : Outcome Empty α → Outcome StageError α
  | .ok a => .ok a
  | .err _ => .ub
  | .ub => .ub

/-- db_trie.cpp:147-149: the values of a key from the first one that is not smaller, in order (`lower_bound_multivalue` and
`to_current_next_multi`). -/
def valuesFrom (t : Table) (key value : Bytes) : List Bytes :=
  ((t.filter (fun e => e.1 == key)).map (·.2)).dropWhile (fun v => lexLt v value)

/-- db_trie.cpp:147-160: the loop over the storage of an account. `substr` throws if the value is shorter than a hash. -/
def storageLoop (keccak : Bytes → Bytes) : HashBuilder → List Bytes → Outcome StageError HashBuilder
  | s, [] => .ok s
  | s, v :: vs =>
    if v.length < 32 then .err .outOfRange
    else do
      let s ← liftBuilder (add keccak true s (v.take 32) (encodeBytes (v.drop 32)))
      storageLoop keccak s vs

/-- db_trie.cpp:135-140: the storage collector gets the nodes under the address, the incarnation and their path. -/
def storageRecords (pre : Bytes) (s : HashBuilder) : List Entry :=
  s.collected.reverse.map (fun c => ⟨pre ++ c.1, marshalNode c.2⟩)

/-- db_trie.cpp:76-88: the account collector gets the nodes under their path, except the root. -/
def accountRecords (s : HashBuilder) : List Entry :=
  (s.collected.reverse.filter (fun c => c.1 ≠ [])).map (fun c => ⟨c.1, marshalNode c.2⟩)

/-- db_trie.cpp:131-171: the storage root of an account and the records of its storage. -/
def storageOfAccount (keccak : Bytes → Bytes) (storage : Table) (key : Bytes) (account : Account) :
    Outcome StageError (Bytes × List Entry) :=
  if account.incarnation = 0 then .ok (kEmptyRoot, [])
  else do
    let pre := storagePrefix key account.incarnation
    let s ← storageLoop keccak {} (valuesFrom storage pre [0])
    let r ← liftBuilder (rootHash keccak true s)
    .ok (r.1, storageRecords pre r.2)

/-- db_trie.cpp:122-174: the loop over the accounts. -/
def accountLoop (keccak : Bytes → Bytes) (storage : Table) : HashBuilder → Table → Outcome StageError (HashBuilder × List Entry)
  | hb, [] => .ok (hb, [])
  | hb, e :: t => do
    let account ← liftDb (liftDec (decodeAccountFromStorage e.2))
    let r ← storageOfAccount keccak storage e.1 account
    let hb ← liftBuilder (add keccak true hb e.1 (account.rlp r.1))
    let rest ← accountLoop keccak storage hb t
    .ok (rest.1, r.2 ++ rest.2)

/-- db_trie.cpp:111-185 (`DbTrieLoader::calculate_root`): the root and what the two collectors got. -/
def calculateRoot (keccak : Bytes → Bytes) (db : Database) : Outcome StageError (Bytes × List Entry × List Entry) := do
  let r ← accountLoop keccak db.hashedStorage {} db.hashedAccounts
  let root ← liftBuilder (rootHash keccak true r.1)
  .ok (root.1, accountRecords root.2, r.2)

/-- db_trie.cpp:253-272 (`regenerate_db_tries`). -/
def regenerateDbTries (d : Nat → Disk) (keccak : Bytes → Bytes) (expected : Option Bytes) (db : Database) :
    Outcome StageError (Bytes × Database) := do
  let r ← calculateRoot keccak db
  if expected.isSome ∧ expected ≠ some r.1 then .err .wrongRoot
  else do
    let accounts ← etlLoad (d 0) kFlushSize r.2.1 (putEntry false) db.trieOfAccounts
    let storage ← etlLoad (d 1) kFlushSize r.2.2 (putEntry false) db.trieOfStorage
    .ok (r.1, { db with trieOfAccounts := accounts, trieOfStorage := storage })

end Silkworm.Stages
