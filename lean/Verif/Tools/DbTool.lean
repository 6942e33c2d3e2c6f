import Verif.Db.Table

/-!
# Model of db/silkworm/db/mdbx.cpp and cmd/dbtool.cpp

The text that is printed, except for the numbers named, signals and errors of the storage engine other than those named are left
out. Tables are lists of entries (`Db/Table.lean`); sums of sizes are not reduced modulo 2^64.
-/

namespace Silkworm.Tools

open Silkworm.Db

/-- An entry of a table. -/
abbrev Entry := Bytes × Bytes

/-! ## Walking -/

/-- A cursor that is at an entry: that entry, those after it, and whether a move has failed at the end (`C_EOF` in
libmdbx/mdbx.c:16914-16973 and 24054-24075; `to_last` sets it as well, mdbx.c:17427-17442). -/
structure WalkCursor where
  here : Entry
  after : List Entry
  ended : Bool := false

/-- `to_next(false)` (libmdbx/mdbx.c:16914-16973): at the last entry the cursor stays. -/
def WalkCursor.toNext (c : WalkCursor) : WalkCursor :=
  match c.after with
  | [] => { c with ended := true }
  | e :: es => { here := e, after := es, ended := false }

/-- db/silkworm/db/mdbx.hpp:36-39 (`WalkFunc`): whether to go on, and what has been gathered. Functions that change the record they are given are
left out. -/
abbrev WalkFunc (σ : Type) := σ → Entry → Bool × σ

/-- db/silkworm/db/mdbx.cpp:108-114: the loop of `for_each`, the cursor not being at the end. `data` is what the cursor was at
before the loop: the result of `to_next` is not assigned to it. -/
def forEachLoop {σ : Type} (func : WalkFunc σ) (data : Entry) : List Entry → σ → Nat × σ
  | after, s =>
    match func s data with
    | (false, s) => (0, s)
    | (true, s) =>
      match after with
      | [] => (1, s)
      | _ :: es =>
        let r := forEachLoop func data es s
        (r.1 + 1, r.2)

/-- db/silkworm/db/mdbx.cpp:105-117 (`for_each`), for a cursor that is at an entry. -/
def forEach {σ : Type} (func : WalkFunc σ) (c : WalkCursor) (s : σ) : Nat × σ :=
  if c.ended then (0, s) else forEachLoop func c.here c.after s

/-- db/silkworm/db/mdbx.cpp:119-132 (`for_count`), for a cursor that is at an entry: with `iterations` left the loop ends, after
so many successful calls, with this state. `iterations` wraps at zero. A relation, since the loop need not end. -/
inductive ForCount {σ : Type} (func : WalkFunc σ) (data : Entry) : Nat → WalkCursor → σ → Nat → σ → Prop where
  | stop (c : WalkCursor) (s : σ) (h : c.ended = true) : ForCount func data 0 c s 0 s
  | refused (k : Nat) (c : WalkCursor) (s t : σ) (h : k ≠ 0 ∨ c.ended = false) (hf : func s data = (false, t)) :
      ForCount func data k c s 0 t
  | step (k : Nat) (c : WalkCursor) (s t u : σ) (n : Nat) (h : k ≠ 0 ∨ c.ended = false) (hf : func s data = (true, t))
      (rest : ForCount func data ((k + (2 ^ 64 - 1)) % 2 ^ 64) c.toNext t n u) : ForCount func data k c s (n + 1) u

/-! ## Free pages -/

/-- An integer in the byte order of the machine. -/
def loadLe : Bytes → Nat
  | [] => 0
  | b :: bs => b.toNat + 256 * loadLe bs

/-- cmd/dbtool.cpp:118-122 (`dbFreeEntry`). -/
structure FreeEntry where
  id : Nat
  pages : Nat
  size : Nat
  deriving DecidableEq

/-- cmd/dbtool.cpp:124-128 (`dbFreeInfo`). -/
structure FreeInfo where
  pages : Nat := 0
  size : Nat := 0
  entries : List FreeEntry := []
  deriving DecidableEq

/-- cmd/dbtool.cpp:255-263 (`collect_func`), for keys of at least 8 and values of at least 4 bytes. -/
def collectFree (pageSize : Nat) : WalkFunc FreeInfo := fun info data =>
  let pages := loadLe (data.2.take 4)
  (true, { pages := info.pages + pages
           size := info.size + pages * pageSize
           entries := info.entries ++ [{ id := loadLe (data.1.take 8), pages := pages, size := pages * pageSize }] })

/-- cmd/dbtool.cpp:248-270 (`get_freeInfo`). -/
def getFreeInfo (pageSize : Nat) (free : Table) : FreeInfo :=
  match free with
  | [] => {}
  | e :: es => (forEach (collectFree pageSize) { here := e, after := es } {}).2

/-! ## The progress of a command -/

/-- cmd/dbtool.cpp:43-98 (`Progress`). -/
structure Progress where
  width : Nat
  total : Nat := 0
  current : Nat := 0
  printed : Nat := 0

namespace Progress

/-- cmd/dbtool.cpp:49-53, for counters below 2^57. -/
def percent (p : Progress) : Nat :=
  if p.total = 0 then 100 else if p.current = 0 then 0 else p.current * 100 / p.total

/-- cmd/dbtool.cpp:56. -/
def setCurrent (p : Progress) (count : Nat) : Progress := { p with current := max count p.current }

/-- cmd/dbtool.cpp:72-81 (`print_interval`): the number of ticks. `none`: the difference wraps. -/
def printInterval (p : Progress) : Option (Nat × Progress) :=
  let chars := min p.percent 100 / (100 / p.width)
  if chars = 0 then some (0, p)
  else if chars < p.printed then none
  else some (chars - p.printed, { p with printed := chars })

end Progress

/-- cmd/dbtool.cpp:357-367: the loop of `do_scan` over the entries of a table: the sizes of keys and of values, and the ticks
printed. The counter `batch` wraps at zero. -/
def scanLoop : List Entry → Nat → Progress → Nat → Nat → Nat → Option (Nat × Nat × Nat × Progress)
  | [], _, p, ks, ds, ticks => some (ks, ds, ticks, p)
  | e :: es, batch, p, ks, ds, ticks =>
    let ks := ks + e.1.length
    let ds := ds + e.2.length
    let batch := (batch + (2 ^ 64 - 1)) % 2 ^ 64
    if batch = 0 then
      match (p.setCurrent (p.current + p.total / p.width)).printInterval with
      | none => none
      | some (n, p) => scanLoop es (p.total / p.width) p ks ds (ticks + n)
    else scanLoop es batch p ks ds ticks

/-- cmd/dbtool.cpp:348-374: one table in `do_scan`, not interrupted: the sizes of keys and of values, and the ticks printed. -/
def scanTable (t : Table) : Option (Nat × Nat × Nat) :=
  let p : Progress := { width := 50, total := t.length }
  match scanLoop t (t.length / 50) p 0 0 0 with
  | none => none
  | some (ks, ds, ticks, p) =>
    match (p.setCurrent t.length).printInterval with
    | none => none
    | some (n, _) => some (ks, ds, ticks + n)

/-! ## Copying -/

/-- A table with its name and flags. -/
structure NamedTable where
  name : Bytes
  flags : Nat
  entries : Table
  deriving DecidableEq

/-- `MDBX_DUPSORT` (libmdbx/mdbx.h:1350). -/
def isMulti (flags : Nat) : Bool := flags.testBit 2

/-- cmd/dbtool.cpp:152-164 (`CopyOptions`). -/
structure CopyOptions where
  tables : List Bytes := []
  xtables : List Bytes := []
  noempty : Bool := false
  upsert : Bool := false
  commitSize : Nat := 2 ^ 30

/-- `MDBX_APPEND` (libmdbx/mdbx.c:17915-17928): refused unless the key is greater than all others. -/
def appendEntry (t : Table) (k v : Bytes) : Table :=
  match t.getLast? with
  | none => [(k, v)]
  | some e => if lexLt e.1 k then t ++ [(k, v)] else t

/-- `MDBX_APPENDDUP` without `MDBX_APPEND` (libmdbx/mdbx.c:17929-17966, 18193-18196 and 18475-18479): refused unless the value is greater than all others of the
key. -/
def appendDup (t : Table) (k v : Bytes) : Table :=
  if t.any (fun e => e.1 == k && !lexLt e.2 v) then t else t.upsertMultivalue k v

/-- cmd/dbtool.cpp:742-750: what `put` leaves in the table. Its error code is not looked at. -/
def putEntry (upsert : Bool) (flags : Nat) (t : Table) (k v : Bytes) : Table :=
  if upsert then (if isMulti flags then t.upsertMultivalue k v else t.upsert k v)
  else if isMulti flags then appendDup t k v
  else appendEntry t k v

/-- The target database: what is committed, the state of the transaction (`none` once it has been committed and not begun again:
libmdbx/mdbx.c++:4738-4744), and `bytesWritten`. -/
structure CopyTarget where
  committed : List NamedTable
  pending : Option (List NamedTable)
  written : Nat := 0

/-- Change the entries of a table. -/
def modifyTable (ts : List NamedTable) (name : Bytes) (f : Table → Table) : List NamedTable :=
  ts.map fun t => if t.name = name then { t with entries := f t.entries } else t

/-- cmd/dbtool.cpp:748-771: the loop over the entries of a table. -/
def copyEntries (o : CopyOptions) (name : Bytes) (flags : Nat) : List Entry → List NamedTable → List NamedTable → Nat →
    List NamedTable × List NamedTable × Nat
  | [], committed, pending, written => (committed, pending, written)
  | e :: es, committed, pending, written =>
    let pending := modifyTable pending name fun t => putEntry o.upsert flags t e.1 e.2
    let written := written + (e.1.length + e.2.length)
    if written > o.commitSize then copyEntries o name flags es pending pending 0
    else copyEntries o name flags es committed pending written

/-- cmd/dbtool.cpp:669-697: tables passed over. -/
def skipped (o : CopyOptions) (t : NamedTable) : Bool :=
  (o.tables.length != 0 && !o.tables.contains t.name) || (o.xtables.length != 0 && o.xtables.contains t.name) ||
    (t.entries.length == 0 && o.noempty)

/-- cmd/dbtool.cpp:734-779: the entries of a table that is open in the transaction, and the end of the table: a transaction in which
something was written is committed, and not begun again. -/
def copyInto (o : CopyOptions) (t : NamedTable) (target : CopyTarget) (pending : List NamedTable) : CopyTarget :=
  let r := copyEntries o t.name t.flags t.entries target.committed pending target.written
  if r.2.2 ≠ 0 then { committed := r.2.1, pending := none, written := r.2.2 }
  else { committed := r.1, pending := some r.2.1, written := r.2.2 }

/-- cmd/dbtool.cpp:665-780: one table. `info` are the tables of the target at the beginning. `none`: an exception, since there is no
transaction. -/
def copyTable (o : CopyOptions) (info : List NamedTable) (t : NamedTable) (target : CopyTarget) : Option CopyTarget :=
  if skipped o t then some target
  else
    match info.find? fun i => i.name == t.name with
    | none =>
      match target.pending with
      | none => none
      | some p => some (copyInto o t target (if p.any (fun q => q.name == t.name) then p else p ++ [{ t with entries := [] }]))
    | some i =>
      if i.entries.length != 0 && !o.upsert then some target
      else
        match target.pending with
        | none => none
        | some p => if t.flags ≠ i.flags then some target else some (copyInto o t target p)

/-- cmd/dbtool.cpp:664-780: the tables in order; whether an exception was thrown, and what is in the target then. -/
def copyLoop (o : CopyOptions) (info : List NamedTable) : List NamedTable → CopyTarget → Bool × CopyTarget
  | [], target => (false, target)
  | t :: ts, target =>
    match copyTable o info t target with
    | none => (true, target)
    | some target => copyLoop o info ts target

/-- cmd/dbtool.cpp:636-790 (`do_copy`): the exit status and the target database afterwards; what was not committed is lost. -/
def doCopy (o : CopyOptions) (source target : List NamedTable) : Int × List NamedTable :=
  if source.length + 2 < 3 then (-1, target)
  else
    let r := copyLoop o target source { committed := target, pending := some target }
    (if r.1 then -1 else 0, r.2.committed)

/-- cmd/dbtool.cpp:872-896 and 636-649: `copy` as it is called. `file` is the database in the target directory, if there is a data
file; `open_env` is called with `create` not set, and throws if there is none (db/silkworm/db/mdbx.cpp:34-38). -/
def copyCommand (o : CopyOptions) (create : Bool) (source : List NamedTable) (file : Option (List NamedTable)) :
    Int × Option (List NamedTable) :=
  match file with
  | some target => if create then (-1, file) else let r := doCopy o source target; (r.1, some r.2)
  | none => (-1, none)

/-! ## Compacting -/

/-- Files: their contents by path. -/
abbrev Files := Bytes → Option Bytes

/-- Put or remove a file. -/
def Files.put (fs : Files) (path : Bytes) (content : Option Bytes) : Files := fun p => if p = path then content else fs p

/-- `fs::rename`, which throws if there is no such file. -/
def Files.rename (fs : Files) (source target : Bytes) : Option Files :=
  match fs source with
  | none => none
  | some c => some ((fs.put source none).put target (some c))

/-- `fs::remove`. -/
def Files.remove (fs : Files) (path : Bytes) : Files := fs.put path none

/-- cmd/dbtool.cpp:608-623: the end of `do_compact`; after an exception, the files as they are then. -/
def replaceFile (nobak : Bool) (src bak tgt : Bytes) (fs : Files) : Int × Files :=
  let before : Option Files :=
    if nobak then some fs
    else
      let fs := if (fs bak).isSome then fs.remove bak else fs
      fs.rename src bak
  match before with
  | none => (-1, fs)
  | some fs =>
    let fs := if (fs src).isSome then fs.remove src else fs
    match fs.rename src tgt with
    | none => (-1, fs)
    | some fs => (0, fs)

/-- cmd/dbtool.cpp:862-870 and 570-634 (`do_compact`), for data files in directories, enough space and no interruption: `compacted`
is what `env.copy` writes. -/
def doCompact (compacted : Bytes → Bytes) (replace nobak : Bool) (src bak tgt : Bytes) (fs : Files) : Int × Files :=
  if (fs tgt).isSome then (-1, fs)
  else
    match fs src with
    | none => (-1, fs)
    | some c =>
      let fs := fs.put tgt (some (compacted c))
      if replace then replaceFile nobak src bak tgt fs else (0, fs)

/-! ## Emptying -/

/-- cmd/dbtool.cpp:206 and 214: `^([yY])?([nN])?$`; whether the word matches, and whether the second group is not empty. -/
def matchAnswer (w : Bytes) : Option Bool :=
  let isY := fun c : UInt8 => c == 0x79 || c == 0x59
  let isN := fun c : UInt8 => c == 0x6e || c == 0x4e
  match w with
  | [] => some false
  | [c] => if isY c then some false else if isN c then some true else none
  | [c, d] => if isY c && isN d then some true else none
  | _ => none

/-- cmd/dbtool.cpp:209-219: the words read until one matches; at the end of the input the word stays as it was. Whether the table is to be
left alone, and the words that remain. `none`: the loop does not end. -/
def askUser : Bytes → List Bytes → Option (Bool × List Bytes)
  | word, [] => (matchAnswer word).map fun b => (b, [])
  | _, w :: ws =>
    match matchAnswer w with
    | some b => some (b, ws)
    | none => askUser w ws

/-- cmd/dbtool.cpp:185-230: the loop over the names. `none`: the program does not end, and nothing is committed. -/
def clearLoop (drop yes : Bool) : List Bytes → List Bytes → List NamedTable → Option (List NamedTable)
  | [], _, db => some db
  | name :: names, input, db =>
    match db.find? fun t => t.name == name with
    | none => clearLoop drop yes names input db
    | some t =>
      if t.entries.length = 0 ∧ drop = false then clearLoop drop yes names input db
      else
        let emptied := if drop then db.filter (fun t => t.name != name) else modifyTable db name fun _ => []
        if yes then clearLoop drop yes names input emptied
        else
          match askUser [] input with
          | none => none
          | some (true, rest) => clearLoop drop yes names rest db
          | some (false, rest) => clearLoop drop yes names rest emptied

end Silkworm.Tools
