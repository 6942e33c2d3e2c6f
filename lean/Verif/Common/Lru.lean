import Verif.Base.Outcome

/-!
# Model of core/silkworm/common/lru_cache.hpp

The `std::list` is a list of nodes, an iterator is the identity of a node, and the hash map is an association list with
one entry per key. Using an iterator whose node is gone is undefined behaviour.
-/

namespace Silkworm

/-- core/silkworm/common/lru_cache.hpp:49-94 (`lru_cache`). `next` numbers the nodes. -/
structure LruCache (K V : Type) where
  items : List (Nat × K × V) := []
  map : List (K × Nat) := []
  maxSize : Nat
  next : Nat := 0

namespace LruCache

variable {K V : Type} [DecidableEq K]

/-- `_cache_items_map.find(key)`. -/
def find (c : LruCache K V) (key : K) : Option Nat := c.map.lookup key

/-- `_cache_items_map.erase`. -/
def eraseKey (m : List (K × Nat)) (key : K) : List (K × Nat) := m.filter (fun e => e.1 != key)

/-- core/silkworm/common/lru_cache.hpp:65-70: evict the last element. -/
def evict (c : LruCache K V) : Outcome Empty (LruCache K V) :=
  if c.map.length > c.maxSize then
    match c.items.getLast? with
    | none => .ub
    | some last => .ok { c with map := eraseKey c.map last.2.1, items := c.items.dropLast }
  else .ok c

/-- core/silkworm/common/lru_cache.hpp:56-71 (`put`). -/
def put (c : LruCache K V) (key : K) (value : V) : Outcome Empty (LruCache K V) :=
  let items := (c.next, key, value) :: c.items
  match c.find key with
  | some id =>
    if (c.items.map (·.1)).contains id then
      evict { c with items := items.filter (fun n => n.1 != id), map := (key, c.next) :: eraseKey c.map key, next := c.next + 1 }
    else .ub
  | none => evict { c with items := items, map := (key, c.next) :: c.map, next := c.next + 1 }

/-- core/silkworm/common/lru_cache.hpp:73-81 (`get`): the value, if any, and the cache afterwards. -/
def get (c : LruCache K V) (key : K) : Outcome Empty (Option V × LruCache K V) :=
  match c.find key with
  | none => .ok (none, c)
  | some id =>
    match c.items.find? (fun n => n.1 == id) with
    | none => .ub
    | some node => .ok (some node.2.2, { c with items := node :: c.items.filter (fun n => n.1 != id) })

/-- core/silkworm/common/lru_cache.hpp:83 (`size`). -/
def size (c : LruCache K V) : Nat := c.map.length

/-- core/silkworm/common/lru_cache.hpp:85-88 (`clear`). -/
def clear (c : LruCache K V) : LruCache K V := { c with items := [], map := [] }

/-- A freshly constructed cache, core/silkworm/common/lru_cache.hpp:54. -/
def empty (maxSize : Nat) : LruCache K V := { maxSize := maxSize }

/-- One operation on a cache. -/
inductive Op (K V : Type) where
  | put (key : K) (value : V)
  | get (key : K)
  | clear

/-- Run an operation. -/
def step (c : LruCache K V) : Op K V → Outcome Empty (LruCache K V)
  | .put k v => c.put k v
  | .get k => do
    let r ← c.get k
    .ok r.2
  | .clear => .ok c.clear

/-- Run a sequence of operations. -/
def run (c : LruCache K V) : List (Op K V) → Outcome Empty (LruCache K V)
  | [] => .ok c
  | op :: ops => do
    let c ← c.step op
    run c ops

end LruCache

end Silkworm
