import Verif.Stages.Execution

/-!
# Model of the commands that check a database: cmd/check_hashstate.cpp, check_blockhashes.cpp, check_tx_lookup.cpp, check_changes.cpp

A command is a function of the database; its result is what it complains about on the log, in order, and whether it was left by an
exception. Progress messages, interrupts and the reading of arguments are left out. Counters of blocks are not reduced modulo 2^64.
Keccak-256 is a parameter.
-/

namespace Silkworm.Tools

open Silkworm.Db Silkworm.Stages

/-- What is written to the log as an error. -/
inductive Complaint where
  /-- cmd/check_hashstate.cpp:112: the key does not exist. -/
  | missing (key : Bytes)
  /-- cmd/check_hashstate.cpp:75-76 and 117-118: expected and actual value. -/
  | different (expected actual : Bytes)
  /-- cmd/check_blockhashes.cpp:58-60: the hash and the number of its block. -/
  | hashMissing (hash : Bytes) (number : Nat)
  /-- cmd/check_blockhashes.cpp:65-66: the hash, the number of its block and the number found. -/
  | hashElsewhere (hash : Bytes) (number found : Nat)
  /-- cmd/check_tx_lookup.cpp:107-109: the number of the block, the index of the transaction and its hash. -/
  | lookupMissing (block index : Nat) (hash : Bytes)
  /-- cmd/check_tx_lookup.cpp:118-120: the hash, the number expected and the number found. -/
  | lookupElsewhere (hash : Bytes) (expected found : Nat)
  /-- cmd/check_tx_lookup.cpp:125-126: the block, the transactions it claims and those read. -/
  | tooFew (block claimed read : Nat)
  /-- cmd/check_changes.cpp:96. -/
  | notExecuted (block : Nat)
  /-- cmd/check_changes.cpp:108. -/
  | accountMissing (address : Bytes)
  /-- cmd/check_changes.cpp:112-115: the value calculated and the one in the database. -/
  | accountDifferent (address calculated stored : Bytes)
  /-- cmd/check_changes.cpp:121. -/
  | accountNotInDb (address : Bytes)
  /-- cmd/check_changes.cpp:127-128. -/
  | accountMismatch (block : Nat)
  /-- cmd/check_changes.cpp:138. -/
  | storageMismatch (block : Nat)
  deriving DecidableEq, Repr

/-- The complaints, and whether an exception ended the command. -/
structure Report where
  complaints : List Complaint := []
  thrown : Bool := false
  deriving DecidableEq, Repr

/-- These complaints come first. -/
def Report.after (cs : List Complaint) (r : Report) : Report := { r with complaints := cs ++ r.complaints }

/-- A part of the command and the part that follows it. -/
def andThen (a b : Outcome Empty Report) : Outcome Empty Report :=
  a.bind fun r => if r.thrown then .ok r else b.bind fun q => .ok (q.after r.complaints)

/-! ## Hashed state -/

/-- cmd/check_hashstate.cpp:57-79: accounts, from an entry of the plain state on. `find` throws if there is no such key. -/
def checkAccounts (keccak : Bytes → Bytes) (hashed : Table) : Table → Outcome Empty Report
  | [] => .ok {}
  | e :: t =>
    if e.1.length ≠ 20 then checkAccounts keccak hashed t
    else
      match hashed.find (keccak e.1) with
      | none => .ok { thrown := true }
      | some a => if a.2 ≠ e.2 then .ok { complaints := [.different e.2 a.2] } else checkAccounts keccak hashed t

/-- cmd/check_hashstate.cpp:81-100: storage. Only keys of 20 bytes are taken; `memcpy` then reads eight bytes behind them. -/
def checkStorage : Table → Outcome Empty Report
  | [] => .ok {}
  | e :: t => if e.1.length ≠ 20 then checkStorage t else .ub

/-- cmd/check_hashstate.cpp:102-122: code hashes. -/
def checkCode (keccak : Bytes → Bytes) (hashed : Table) : Table → Outcome Empty Report
  | [] => .ok {}
  | e :: t =>
    if e.1.length ≠ 28 then checkCode keccak hashed t
    else
      match hashed.find (keccak (e.1.take 20) ++ e.1.drop 20) with
      | none => (checkCode keccak hashed t).bind fun r => .ok (r.after [.missing (keccak (e.1.take 20) ++ e.1.drop 20)])
      | some a => if a.2 ≠ e.2 then .ok { complaints := [.different e.2 a.2] } else checkCode keccak hashed t

/-- cmd/check_hashstate.cpp:40-55 and 126-151: the three parts. -/
def checkHashState (keccak : Bytes → Bytes) (db : Database) : Outcome Empty Report :=
  andThen (checkAccounts keccak db.hashedAccounts db.plainState)
    (andThen (checkStorage db.plainState) (checkCode keccak db.hashedCodeHash db.plainContractCode))

/-! ## Hashes of blocks -/

/-- `boost::endian::load_big_u64`, which reads eight bytes. -/
def loadNumber (b : Bytes) : Outcome Empty Nat := if 8 ≤ b.length then .ok (beToNat (b.take 8)) else .ub

/-- cmd/check_blockhashes.cpp:54-67: one canonical hash. -/
def checkHash (numbers : Table) (e : Bytes × Bytes) : Outcome Empty (List Complaint) :=
  match numbers.find e.2 with
  | none => (loadNumber e.1).bind fun n => .ok [.hashMissing e.2 n]
  | some f =>
    if f.2 ≠ e.1 then (loadNumber e.1).bind fun n => (loadNumber f.2).bind fun m => .ok [.hashElsewhere e.2 n m] else .ok []

/-- cmd/check_blockhashes.cpp:53-73: the loop. -/
def checkHashes (numbers : Table) : Table → Outcome Empty Report
  | [] => .ok {}
  | e :: t => (checkHash numbers e).bind fun cs => (checkHashes numbers t).bind fun r => .ok (r.after cs)

/-- cmd/check_blockhashes.cpp:39-80. -/
def checkBlockHashes (db : Database) : Outcome Empty Report := checkHashes db.headerNumbers db.canonicalHashes

/-! ## Transactions -/

/-- cmd/check_tx_lookup.cpp:102-121: one transaction. `left_pad` (core/silkworm/common/util.cpp:24-47) puts zeros in front of a short
value, and eight bytes are read. -/
def checkTransaction (keccak : Bytes → Bytes) (lookup : Table) (block expected index : Nat) (rlp : Bytes) : List Complaint :=
  match lookup.find (keccak rlp) with
  | none => [.lookupMissing block index (keccak rlp)]
  | some l =>
    let found := beToNat ((List.replicate (8 - l.2.length) 0 ++ l.2).take 8)
    if found ≠ expected then [.lookupElsewhere (keccak rlp) expected found] else []

/-- cmd/check_tx_lookup.cpp:91-122: `count` transactions, from an entry on, of which the first one has this index: the complaints
and the index behind the last one read. -/
def checkTransactions (keccak : Bytes → Bytes) (lookup : Table) (block expected : Nat) : Nat → Nat → Table → List Complaint × Nat
  | index, 0, _ => ([], index)
  | index, _ + 1, [] => ([], index)
  | index, count + 1, e :: t =>
    let r := checkTransactions keccak lookup block expected (index + 1) count t
    (checkTransaction keccak lookup block expected index e.2 ++ r.1, r.2)

/-- cmd/check_tx_lookup.cpp:87-128: the transactions of a body. -/
def checkBody (keccak : Bytes → Bytes) (ethTx lookup : Table) (block expected : Nat) (body : BlockBodyForStorage) : List Complaint :=
  if body.txnCount = 0 then []
  else
    let r := checkTransactions keccak lookup block expected 0 body.txnCount (fromKey ethTx (beFixed 8 body.baseTxnId))
    r.1 ++ if r.2 ≠ body.txnCount then [.tooFew block body.txnCount r.2] else []

/-- cmd/check_tx_lookup.cpp:82-140: the loop over the bodies; `expected` counts them. -/
def checkBodies (keccak : Bytes → Bytes) (ethTx lookup : Table) : Nat → Table → Outcome Empty Report
  | _, [] => .ok {}
  | expected, e :: t =>
    (loadNumber e.1).bind fun block =>
      match decodeStoredBlockBody e.2 with
      | .ub => .ub
      | .err _ => .ok { thrown := true }
      | .ok (body, _) =>
        (checkBodies keccak ethTx lookup (expected + 1) t).bind fun r =>
          .ok (r.after (checkBody keccak ethTx lookup block expected body))

/-- cmd/check_tx_lookup.cpp:68-148. -/
def checkTxLookup (keccak : Bytes → Bytes) (db : Database) : Outcome Empty Report :=
  checkBodies keccak db.ethTx db.txLookup 0 db.blockBodies

/-! ## Changes -/

/-- cmd/check_changes.cpp:34-38 (`kPhantomAccounts`). -/
def kPhantomAccounts : List Bytes :=
  [[0x00, 0x00, 0x00, 0x00, 0x00, 0x00, 0x00, 0x00, 0x00, 0x63, 0x6f, 0x6e, 0x73, 0x6f, 0x6c, 0x65, 0x2e, 0x6c, 0x6f, 0x67],
   [0x23, 0x86, 0xf2, 0x6f, 0xc1, 0x00, 0x00, 0xb4, 0xe1, 0x6d, 0x01, 0x68, 0xe5, 0x2d, 0x35, 0xca, 0xcd, 0x2c, 0x61, 0x85],
   [0x5a, 0x71, 0x9c, 0xf3, 0xe0, 0x2c, 0x17, 0xc8, 0x76, 0xf6, 0xd2, 0x94, 0xad, 0xb5, 0xcb, 0x7c, 0x6e, 0xb4, 0x7e, 0x2f]]

/-- `==` of two `btree_map`s, whose values are compared with `same`. -/
def sameMap {α β : Type} [DecidableEq α] (same : β → β → Bool) (a b : AMap α β) : Bool :=
  (a.keys ++ b.keys).all fun k =>
    match a.get? k, b.get? k with
    | some x, some y => same x y
    | none, none => true
    | _, _ => false

/-- cmd/check_changes.cpp:105-118: an entry of the database. -/
def checkStored (calculated : AMap Bytes Bytes) (e : Bytes × Bytes) : List Complaint :=
  match calculated.get? e.1 with
  | none => if e.1 ∈ kPhantomAccounts then [] else [.accountMissing e.1]
  | some v => if v ≠ e.2 then [.accountDifferent e.1 v e.2] else []

/-- cmd/check_changes.cpp:119-124: an entry calculated. -/
def checkCalculated (stored : AMap Bytes Bytes) (e : Bytes × Bytes) : List Complaint :=
  match stored.get? e.1 with
  | none => [.accountNotInDb e.1]
  | some _ => []

/-- cmd/check_changes.cpp:102-130: the changes of accounts. -/
def checkAccountChanges (block : Nat) (calculated stored : AMap Bytes Bytes) : List Complaint :=
  if sameMap (· == ·) calculated stored then []
  else
    let cs := stored.flatMap (checkStored calculated) ++ calculated.flatMap (checkCalculated stored)
    if cs = [] then [] else cs ++ [.accountMismatch block]

/-- The changes of storage as maps of maps. -/
abbrev StorageChanges := AMap Bytes (AMap Nat (AMap Bytes Bytes))

/-- `==` of the changes of storage. -/
def sameStorage (a b : StorageChanges) : Bool := sameMap (sameMap (sameMap (· == ·))) a b

/-- cmd/check_changes.cpp:133-142: the changes of storage. -/
def checkStorageChanges (block : Nat) (calculated stored : StorageChanges) : List Complaint :=
  if sameStorage calculated stored then [] else [.storageMismatch block]

/-- cmd/check_changes.cpp:100-142: the changes of a block that was executed; `at` throws if there are none of accounts. -/
def checkBlockChanges (db : Database) (n : Nat) (b : Db.Buffer) : Outcome Empty Report :=
  match readAccountChanges db n with
  | .ub => .ub
  | .err _ => .ok { thrown := true }
  | .ok stored =>
    match b.accountChanges.get? n with
    | none => .ok { thrown := true }
    | some calculated =>
      let cs := checkAccountChanges n calculated stored
      match readStorageChanges db n with
      | .ub => .ub
      | .err _ => .ok { complaints := cs, thrown := true }
      | .ok storedStorage =>
        .ok { complaints := cs ++ checkStorageChanges n ((b.storageChanges.get? n).getD []) storedStorage }

/-- cmd/check_changes.cpp:85-151: `count` blocks from `n` on. `exec n` is `execute_block` with a buffer that reads the state as of
block `n`. -/
def checkChanges (exec : Nat → BlockExecutor) (db : Database) : Nat → Nat → Outcome Empty Report
  | 0, _ => .ok {}
  | count + 1, n =>
    match readBlock db n true with
    | .ub => .ub
    | .err _ => .ok { thrown := true }
    | .ok none => .ok {}
    | .ok (some bh) =>
      match exec n db {} bh.1 with
      | .ub => .ub
      | .err _ => .ub
      | .ok (_, some _, _) => (checkChanges exec db count (n + 1)).bind fun r => .ok (r.after [.notExecuted n])
      | .ok (_, none, calls) =>
        match ({} : Db.Buffer).applyAll calls with
        | .ub => .ub
        | .err _ => .ok { thrown := true }
        | .ok b => andThen (checkBlockChanges db n b) (checkChanges exec db count (n + 1))

end Silkworm.Tools
