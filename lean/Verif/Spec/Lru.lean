import Verif.Common.Lru

/-!
# Least-recently-used caches, abstractly

A cache is the list of its entries, most recently used first. Of the model only the names of the operations are used.
-/

namespace Silkworm.Spec

variable {K V : Type} [DecidableEq K]

/-- Store a value: it becomes the most recent entry, an older entry of the key goes, and of more than `n` entries the
least recent one goes. -/
def lruPut (n : Nat) (l : List (K × V)) (k : K) (v : V) : List (K × V) := ((k, v) :: l.filter (fun e => e.1 != k)).take n

/-- The value of a key. -/
def lruValue (l : List (K × V)) (k : K) : Option V := l.lookup k

/-- The cache after asking for a key: a present entry becomes the most recent one. -/
def lruTouch (l : List (K × V)) (k : K) : List (K × V) :=
  match l.lookup k with
  | none => l
  | some v => (k, v) :: l.filter (fun e => e.1 != k)

/-- One operation. -/
def lruStep (n : Nat) (l : List (K × V)) : LruCache.Op K V → List (K × V)
  | .put k v => lruPut n l k v
  | .get k => lruTouch l k
  | .clear => []

/-- A history of operations on a cache. -/
def lruRun (n : Nat) (l : List (K × V)) (ops : List (LruCache.Op K V)) : List (K × V) := ops.foldl (lruStep n) l

/-- Does an operation use a key? -/
def lruUses (k : K) : LruCache.Op K V → Prop
  | .put k' _ => k' = k
  | .get k' => k' = k
  | .clear => False

end Silkworm.Spec
