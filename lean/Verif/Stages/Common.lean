import Verif.Db.Access
import Verif.Etl.Collector

/-!
# What the stages of db/silkworm/stagedsync share

A stage is a function of the database; its result is what it returns and the database that is committed. An exception
leaves the database as it was, since the transaction is aborted.

Simplifications: entries are collected after all of them have been computed, so that of an exception while computing them
and an exception for lack of disk space the former always comes first. Log output is left out. Limits of libmdbx on the
sizes of keys and values are not modelled.
-/

namespace Silkworm.Stages

open Silkworm.Db Silkworm.Etl

/-- db/silkworm/stagedsync/util.hpp:27-33. -/
inductive StageResult
  | success
  | badBlockHash
  | badChainSequence
  | invalidRange
  | aborted
  deriving DecidableEq, Repr

/-- The exceptions that leave a stage. -/
inductive StageError
  | db (e : DbError)
  | etl (e : EtlError)
  /-- `MDBX_EACCESS`: writing in a read-only transaction. -/
  | readOnly
  /-- `std::out_of_range` -/
  | outOfRange
  /-- `std::runtime_error` with a text that names the block. -/
  | runtime
  /-- `WrongRoot` of db/silkworm/trie/db_trie.hpp -/
  | wrongRoot
  deriving DecidableEq, Repr

/-- An exception of the access layer. -/
def liftDb {α : Type} : Outcome DbError α → Outcome StageError α
  | .ok a => .ok a
  | .err e => .err (.db e)
  | .ub => .ub

/-- An exception of the collector. -/
def liftEtl {α : Type} : Outcome EtlError α → Outcome StageError α
  | .ok a => .ok a
  | .err e => .err (.etl e)
  | .ub => .ub

/-- An exception while loading. -/
def liftLoad {α : Type} : Outcome (Collector.LoadError StageError) α → Outcome StageError α
  | .ok a => .ok a
  | .err (.etl e) => .err (.etl e)
  | .err (.load e) => .err e
  | .ub => .ub

/-- What `std::string(const char*)` and `ByteView(const uint8_t*)` make of the bytes of an array: all before the first zero.
Without one they read past the end. -/
def cString {ε : Type} (b : Bytes) : Outcome ε Bytes :=
  if (0 : UInt8) ∈ b then .ok (b.takeWhile fun x => x != 0) else .ub

/-- What a collector depends on besides the entries: the space left for each file and the choice of the priority queue. -/
structure Disk where
  space : Nat → Nat
  heap : Heap

/-- `512 * kMebi`, the flush size of the collectors of most stages. -/
def kFlushSize : Nat := 512 * 2 ^ 20

/-- A collector made, filled with the entries and loaded with this load function. -/
def etlLoad {σ : Type} (d : Disk) (flushSize : Nat) (es : List Entry) (f : σ → Entry → Outcome StageError σ) (s : σ) :
    Outcome StageError σ := do
  let c ← liftEtl (Collector.collectAll d.space (Collector.new flushSize) es)
  let r ← liftLoad (Collector.load d.space d.heap f s c)
  .ok r.1

/-- libmdbx/mdbx.c:17915-17927: `mdbx_cursor_put` with `MDBX_APPEND`. A key that is not greater than the last one is refused
with `MDBX_EKEYMISMATCH`; `cursor::put` (libmdbx/mdbx.h++:4368-4371) returns the error and every caller ignores it. -/
def putAppend (t : Table) (k v : Bytes) : Table :=
  match t.getLast? with
  | none => [(k, v)]
  | some e => if lexLt e.1 k then t ++ [(k, v)] else t

/-- `cursor::put` with `MDBX_APPEND` or `MDBX_UPSERT` on a table with one value per key. -/
def put (append : Bool) (t : Table) (k v : Bytes) : Table := if append then putAppend t k v else t.upsert k v

/-- etl/collector.cpp:83-86: an entry is put without a load function. -/
def putEntry (append : Bool) (t : Table) (e : Entry) : Outcome StageError Table := .ok (put append t e.key e.value)

/-- A cursor set to exactly this key (`find`, `seek`): the entries from there on, none if the key is absent. -/
def fromKey (t : Table) (key : Bytes) : Table := t.dropWhile fun e => e.1 != key

/-- A cursor set by `lower_bound`: the entries from there on. -/
def fromLowerBound (t : Table) (key : Bytes) : Table := t.dropWhile fun e => lexLt e.1 key

/-- `boost::endian::load_big_u64` of the first eight bytes; reading past the end otherwise. -/
def loadBig64 (b : Bytes) : Outcome StageError Nat := if 8 ≤ b.length then .ok (beToNat (b.take 8)) else .ub

end Silkworm.Stages
