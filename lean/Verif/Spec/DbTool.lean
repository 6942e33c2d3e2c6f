import Verif.Spec.Db
import Verif.Tools.DbTool

/-!
# Specification of walks over a table and of the tool that looks after a database
-/

namespace Silkworm.Spec

open Silkworm.Tools (Entry WalkCursor WalkFunc FreeInfo NamedTable CopyOptions Files)

/-! ## Walking -/

/-- What is called with each of the records, in order, until it refuses one: how many it accepted, and what it gathered. -/
def visit {σ : Type} (func : WalkFunc σ) : List Entry → σ → Nat × σ
  | [], s => (0, s)
  | e :: es, s =>
    let r := func s e
    if r.1 then ((visit func es r.2).1 + 1, (visit func es r.2).2) else (0, r.2)

/-- The records from the cursor on, up to its end. -/
def recordsFrom (c : WalkCursor) : List Entry := if c.ended then [] else c.here :: c.after

/-- Nothing is refused. -/
def NeverRefuses {σ : Type} (func : WalkFunc σ) : Prop := ∀ s e, (func s e).1 = true

/-- The record itself is not looked at. -/
def Blind {σ : Type} (func : WalkFunc σ) : Prop := ∀ s e f, func s e = func s f

/-- The first number from `least` on that is `k` modulo 2^64. -/
def FirstFrom (least k n : Nat) : Prop := (least ≤ n ∧ n % 2 ^ 64 = k) ∧ ∀ m, least ≤ m → m % 2 ^ 64 = k → n ≤ m

/-! ## Free pages -/

/-- An entry of the list of free pages: the number of a transaction, and how many pages it freed, followed by these. -/
structure FreeRecord where
  txn : Nat
  pages : Nat
  deriving DecidableEq

/-- Little endian, in so many bytes. -/
def le : Nat → Nat → List UInt8
  | 0, _ => []
  | n + 1, x => UInt8.ofNat (x % 256) :: le n (x / 256)

/-- How an entry is stored; what follows the count is not looked at. -/
def FreeRecord.Stored (r : FreeRecord) (e : Entry) : Prop :=
  r.txn < 2 ^ 64 ∧ r.pages < 2 ^ 32 ∧ e.1 = le 8 r.txn ∧ ∃ rest, e.2 = le 4 r.pages ++ rest

/-- What is to be reported of these. -/
def FreeReported (pageSize : Nat) (rs : List FreeRecord) (i : FreeInfo) : Prop :=
  i.pages = (rs.map (·.pages)).sum ∧ i.size = (rs.map (·.pages)).sum * pageSize ∧
    i.entries = rs.map fun r => ⟨r.txn, r.pages, r.pages * pageSize⟩

/-! ## Copying -/

/-- A table that is to be copied. -/
def Wanted (o : CopyOptions) (t : NamedTable) : Prop :=
  (o.tables = [] ∨ t.name ∈ o.tables) ∧ t.name ∉ o.xtables ∧ (o.noempty = true → t.entries ≠ [])

/-- A table that is to be copied, and is not left alone because there is something in that of the target. -/
def Needed (o : CopyOptions) (target : List NamedTable) (t : NamedTable) : Prop :=
  Wanted o t ∧ (o.upsert = true ∨ ∀ i ∈ target, i.name = t.name → i.entries = [])

/-- The entries of a table are in order. -/
def TableOrdered (t : NamedTable) : Prop := if Tools.isMulti t.flags then MultiOrdered t.entries else Ordered t.entries

/-- No table has an empty key, nor two tables one name. -/
structure CopySource (ts : List NamedTable) : Prop where
  names : (ts.map (·.name)).Nodup
  keys : ∀ t ∈ ts, ∀ e ∈ t.entries, e.1 ≠ []
  ordered : ∀ t ∈ ts, TableOrdered t

/-- The bytes written since the last commit, when a commit is due as soon as there are more than `limit`. -/
def uncommitted (limit : Nat) : List Entry → Nat → Nat
  | [], w => w
  | e :: es, w =>
    if w + (e.1.length + e.2.length) > limit then uncommitted limit es 0 else uncommitted limit es (w + (e.1.length + e.2.length))

/-- The table of this name. -/
def tableNamed (ts : List NamedTable) (name : List UInt8) : Option NamedTable := ts.find? fun t => t.name == name

/-- Copying succeeded: each table to be copied that was not, or was empty, in the target is there with its entries, and the other tables
are as they were. -/
def Copied (o : CopyOptions) (source before after : List NamedTable) : Prop :=
  (∀ t ∈ source, Wanted o t → (∀ i ∈ before, i.name ≠ t.name) → t ∈ after) ∧
    ∀ i ∈ before, (∀ t ∈ source, Wanted o t → i.name ≠ t.name) → i ∈ after

/-! ## Emptying -/

/-- `y` or `Y`. -/
def Affirmed (w : List UInt8) : Prop := w = [0x79] ∨ w = [0x59]

/-- `n` or `N`. -/
def Denied (w : List UInt8) : Prop := w = [0x6e] ∨ w = [0x4e]

/-- A word that is no answer: neither of the above, nor these two together. -/
def Unclear (w : List UInt8) : Prop :=
  w ≠ [] ∧ ¬ Affirmed w ∧ ¬ Denied w ∧ ∀ c d, Affirmed [c] → Denied [d] → w ≠ [c, d]

instance (w : List UInt8) : Decidable (Affirmed w) := inferInstanceAs (Decidable (_ ∨ _))

/-- A question about a table: its name, words that are no answer, and the answer. -/
structure Question where
  name : List UInt8
  unclear : List (List UInt8)
  answer : List UInt8

/-- The question is asked about this database, and answered. -/
structure Question.Asked (q : Question) (drop : Bool) (db : List NamedTable) : Prop where
  there : ∃ t ∈ db, t.name = q.name ∧ (t.entries ≠ [] ∨ drop = true)
  unclear : ∀ w ∈ q.unclear, Unclear w
  answered : Affirmed q.answer ∨ Denied q.answer

/-- The tables that are there, when those named have been emptied or dropped. -/
def Emptied (drop : Bool) (names : List (List UInt8)) (before : List NamedTable) : List NamedTable :=
  if drop then before.filter fun t => decide (t.name ∉ names)
  else before.map fun t => if t.name ∈ names then { t with entries := [] } else t

end Silkworm.Spec
