import Verif.Base.Outcome
import Verif.Base.Bytes

/-!
# Model of db/silkworm/db/mdbx.cpp:20-95: opening a database

What libmdbx does with the request is not modelled. A path is a string with `/` as separator.
-/

namespace Silkworm.Environment

/-- db/silkworm/db/mdbx.hpp:43-52 (`EnvConfig`). -/
structure EnvConfig where
  path : String
  create : Bool := false
  readonly : Bool := false
  exclusive : Bool := false
  inmemory : Bool := false
  shared : Bool := false
  maxTables : Nat := 128
  maxReaders : Nat := 100
  deriving DecidableEq

/-- What is at the path of the data file. -/
inductive DataFile where
  | absent
  /-- A directory or a device. -/
  | irregular
  | regular (size : Nat)
  deriving DecidableEq

/-- What is at the path of the database. -/
inductive Node where
  /-- Nothing; whether `create_directories` can make it. -/
  | absent (creatable : Bool)
  /-- Something that is no directory. With the separator at its end such a path does not exist (`ENOTDIR`). -/
  | other
  /-- A directory; whether there is something else than the data file in it. -/
  | directory (others : Bool) (data : DataFile)
  deriving DecidableEq

/-- The flags of libmdbx that are used. -/
inductive Flag where
  | noTls
  | noReadAhead
  | coalesce
  | syncDurable
  | readOnly
  | noMetaSync
  | exclusive
  | accede
  deriving DecidableEq

/-- mdbx.cpp:70-78: sizes in bytes. -/
structure Geometry where
  maxSize : Nat
  growthStep : Nat
  pageSize : Nat
  deriving DecidableEq

/-- What libmdbx is asked for. -/
structure Request where
  path : String
  flags : List Flag
  geometry : Option Geometry
  maxTables : Nat
  maxReaders : Nat
  accede : Bool
  deriving DecidableEq

/-- Why a database is not opened: the exceptions of mdbx.cpp:24, 36, 41 (or `filesystem_error`), 45, 53, 56 and 59. -/
inductive Refusal where
  | noPath
  | notFound
  | noDirectory
  | alreadyExists
  | exclusiveShared
  | createShared
  | createReadonly
  deriving DecidableEq

/-- mdbx.cpp:28-31 (`has_filename`, `+=`): the path of a directory. -/
def directoryPath (p : String) : String := if p.toList.getLast? = some '/' then p else p ++ "/"

/-- db/silkworm/db/mdbx.hpp:64-66 (`get_datafile_path`), for a path that ends with the separator. -/
def dataFilePath (directory : String) : String := directory ++ "mdbx.dat"

/-- mdbx.cpp:33-48: what is at the path after the checks, or why they fail. -/
def prepare (create : Bool) (node : Node) : Outcome Refusal Node :=
  if create = false then
    match node with
    | .directory _ (.regular size) => if size = 0 then .err .notFound else .ok node
    | _ => .err .notFound
  else
    match node with
    | .absent true => .ok (.directory false .absent)
    | .absent false => .err .noDirectory
    | .other => .err .noDirectory
    | .directory _ .absent => .ok node
    | .directory _ _ => .err .alreadyExists

/-- mdbx.cpp:52-60: options that exclude each other. -/
def conflict (c : EnvConfig) : Option Refusal :=
  if c.exclusive && c.shared then some .exclusiveShared
  else if c.create && c.shared then some .createShared
  else if c.create && c.readonly then some .createReadonly
  else none

/-- mdbx.cpp:50, 62-73. -/
def openFlags (c : EnvConfig) : List Flag :=
  [.noTls, .noReadAhead, .coalesce, .syncDurable] ++ (if c.readonly then [.readOnly] else []) ++
    (if c.inmemory then [.noMetaSync] else []) ++ (if c.exclusive then [.exclusive] else []) ++ (if c.shared then [.accede] else [])

/-- mdbx.cpp:75-82. -/
def openGeometry (c : EnvConfig) : Option Geometry :=
  if c.shared then none
  else if c.inmemory then some ⟨64 * 2 ^ 20, 2 * 2 ^ 20, 4 * 2 ^ 10⟩
  else some ⟨2 * 2 ^ 40, 2 * 2 ^ 30, 4 * 2 ^ 10⟩

/-- mdbx.cpp:20-95 (`open_env`): the request or the exception, and what is at the path then. -/
def openEnv (c : EnvConfig) (node : Node) : Outcome Refusal Request × Node :=
  if c.path = "" then (.err .noPath, node)
  else
    match prepare c.create node with
    | .err e => (.err e, node)
    | .ub => (.ub, node)
    | .ok node =>
      match conflict c with
      | some e => (.err e, node)
      | none => (.ok ⟨directoryPath c.path, openFlags c, openGeometry c, c.maxTables, c.maxReaders, c.shared⟩, node)

end Silkworm.Environment
