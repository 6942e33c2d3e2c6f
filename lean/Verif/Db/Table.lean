import Verif.Base.Bytes
import Verif.Base.Outcome

/-!
# Tables of the key-value store

libmdbx is not modelled; a table is the list of its entries in the order of the B-tree. The cursor functions of
libmdbx/mdbx.h++ that the code uses are functions on that list. Keys and, in multi-value tables, the values of one key
are ordered bytewise.
-/

namespace Silkworm.Db

/-- The order of keys: bytewise, a proper prefix first. -/
def lexLt : Bytes → Bytes → Bool
  | _, [] => false
  | [], _ :: _ => true
  | a :: as, b :: bs => if a < b then true else if b < a then false else lexLt as bs

/-- A table: its entries in order. -/
abbrev Table := List (Bytes × Bytes)

namespace Table

/-- libmdbx/mdbx.h++:4280-4282 (`find`) and 4307-4309 (`seek`): the first entry with exactly this key (`MDBX_SET_KEY`,
`MDBX_SET`). -/
def find (t : Table) (key : Bytes) : Option (Bytes × Bytes) := t.find? (fun e => e.1 == key)

/-- libmdbx/mdbx.h++:4284-4287 (`lower_bound`): the first entry whose key is not smaller (`MDBX_SET_RANGE`). -/
def lowerBound (t : Table) (key : Bytes) : Option (Bytes × Bytes) := t.find? (fun e => !lexLt e.1 key)

/-- libmdbx/mdbx.h++:4295-4299 (`find_multivalue`): the operation is `key_exact` (`MDBX_SET_KEY`), which takes no
account of the value passed in; the result is the first value of the key. -/
def findMultivalue (t : Table) (key _value : Bytes) : Option (Bytes × Bytes) := t.find key

/-- libmdbx/mdbx.h++:4301-4305 (`lower_bound_multivalue`): the first value of the key that is not smaller
(`MDBX_GET_BOTH_RANGE`). -/
def lowerBoundMultivalue (t : Table) (key value : Bytes) : Option (Bytes × Bytes) :=
  t.find? (fun e => e.1 == key && !lexLt e.2 value)

/-- libmdbx/mdbx.h++:4417-4420 (`upsert`) on a table with one value per key. -/
def upsert : Table → Bytes → Bytes → Table
  | [], k, v => [(k, v)]
  | (k', v') :: t, k, v =>
    if k' = k then (k, v) :: t
    else if lexLt k k' then (k, v) :: (k', v') :: t
    else (k', v') :: upsert t k v

/-- libmdbx/mdbx.h++:4417-4420 (`upsert`) on a multi-value table: the pair is added unless it is there. -/
def upsertMultivalue : Table → Bytes → Bytes → Table
  | [], k, v => [(k, v)]
  | (k', v') :: t, k, v =>
    if k' = k ∧ v' = v then (k', v') :: t
    else if lexLt k k' || (k == k' && lexLt v v') then (k, v) :: (k', v') :: t
    else (k', v') :: upsertMultivalue t k v

/-- libmdbx/mdbx.h++:4469-4478 (`erase()`) of the entry the cursor is at. -/
def erase (t : Table) (e : Bytes × Bytes) : Table := List.erase t e

/-- `erase(key)` / `erase(whole_multivalue = true)`: all values of a key. -/
def eraseKey (t : Table) (key : Bytes) : Table := t.filter (fun e => e.1 != key)

end Table

end Silkworm.Db
