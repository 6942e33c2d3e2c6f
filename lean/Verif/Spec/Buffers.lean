import Verif.Db.StateBuffer
import Verif.Spec.State
import Verif.Spec.Db

/-!
# Specification: the two implementations of the state behave alike

`MemoryBuffer` and `db::Buffer` implement the same interface. Blocks executed on either give the same calls, and then the
same answers.
-/

namespace Silkworm.Spec

open State IntraBlockState

/-- The buffer in front of a database and the buffer in memory answer the same to every question whose arguments have the
values their types allow. -/
structure SameState (bitmapRead : Bytes → Option (List Nat)) (db : Db.Database) (b : Db.Buffer) (m : MemoryBuffer) : Prop where
  accounts : ∀ a, a.length = 20 → Db.Buffer.readAccount bitmapRead db none b a = .ok (m.readAccount a)
  code : ∀ h, h.length = 32 → Db.Buffer.readCode db b h = m.readCode h
  storage : ∀ a n k, a.length = 20 → n < 2 ^ 64 → k.length = 32 →
    Db.Buffer.readStorage bitmapRead db none b a n k = .ok (m.readStorage a n k)
  previous : ∀ a, a.length = 20 → Db.Buffer.previousIncarnation db none b a = .ok (m.previousIncarnation a)

/-- Nothing is held under keys that the types do not allow. -/
structure TypedKeys (m : MemoryBuffer) : Prop where
  accounts : ∀ a, a.length ≠ 20 → m.readAccount a = none
  code : ∀ h, h.length ≠ 32 → m.readCode h = []
  storage : ∀ a n k, ¬ (a.length = 20 ∧ n < 2 ^ 64 ∧ k.length = 32) → m.readStorage a n k = zero32
  previous : ∀ a, a.length ≠ 20 → m.previousIncarnation a = 0

/-- The answer, or another value if the program ends. -/
def answerOr {α : Type} (d : α) : Outcome Empty α → α
  | .ok a => a
  | _ => d

/-- What a block executed over the database and its buffer reads. Arguments that the types do not allow have the answers
of an empty state; so have questions whose answer cannot be read, of which there are none if `SameState`. -/
def dbReader (bitmapRead : Bytes → Option (List Nat)) (db : Db.Database) (b : Db.Buffer) : StateReader where
  readAccount a := if a.length = 20 then answerOr none (Db.Buffer.readAccount bitmapRead db none b a) else none
  readCode h := if h.length = 32 then Db.Buffer.readCode db b h else []
  readStorage a n k :=
    if a.length = 20 ∧ n < 2 ^ 64 ∧ k.length = 32 then answerOr zero32 (Db.Buffer.readStorage bitmapRead db none b a n k)
    else zero32
  previousIncarnation a := if a.length = 20 then answerOr 0 (Db.Buffer.previousIncarnation db none b a) else 0

/-- A block: what is executed, and the calls by which it is written. -/
abbrev Executed := List Phase × List BufferCall

/-- Blocks executed on the buffer in memory and written to it. -/
inductive MemoryBlocks (keccak : Bytes → Bytes) : MemoryBuffer → List Executed → MemoryBuffer → Prop where
  | nil (m : MemoryBuffer) : MemoryBlocks keccak m [] m
  | block (m : MemoryBuffer) (ps : List Phase) (n : Nat) (L : List BufferCall) (xs : List Executed) (m' : MemoryBuffer)
      (calls : CommitCalls (runPhases keccak m.reader ps {}).2 n L)
      (rest : MemoryBlocks keccak (m.applyAll L) xs m') : MemoryBlocks keccak m ((ps, L) :: xs) m'

/-- Blocks executed on the buffer in front of the database and written to it. -/
inductive DatabaseBlocks (keccak : Bytes → Bytes) (bitmapRead : Bytes → Option (List Nat)) (db : Db.Database) :
    Db.Buffer → List Executed → Db.Buffer → Prop where
  | nil (b : Db.Buffer) : DatabaseBlocks keccak bitmapRead db b [] b
  | block (b : Db.Buffer) (ps : List Phase) (n : Nat) (L : List BufferCall) (xs : List Executed) (b' c : Db.Buffer)
      (calls : CommitCalls (runPhases keccak (dbReader bitmapRead db b) ps {}).2 n L)
      (write : b.applyAll L = .ok c)
      (rest : DatabaseBlocks keccak bitmapRead db c xs b') : DatabaseBlocks keccak bitmapRead db b ((ps, L) :: xs) b'

/-- In every block incarnations are not reused: no contract is destroyed and brought back as a plain account, no account
without incarnation is destroyed where a contract was before, and code and storage are written by contracts. -/
def SafeBlocks (keccak : Bytes → Bytes) : MemoryBuffer → List Executed → Prop
  | _, [] => True
  | m, x :: xs => SafePhases keccak m.reader x.1 {} ∧ SafeEnd m.reader (runPhases keccak m.reader x.1 {}).2 ∧
      SafeBlocks keccak (m.applyAll x.2) xs

/-- All arguments of the calls have the values their types allow. -/
def ExecutedFits (xs : List Executed) : Prop := ∀ x ∈ xs, ∀ c ∈ x.2, CallFits c

/-- The calls of one block, as `write_to_db` makes them: they name what the state was before, and at most one call is about
an account or a slot; and nothing is deleted that has no incarnation where a contract was before. -/
structure OneBlock (m : MemoryBuffer) (L : List BufferCall) : Prop where
  initial : ∀ c ∈ L, RecordsInitial m c
  account : ∀ a i c i' c', .updateAccount a i c ∈ L → .updateAccount a i' c' ∈ L → c = c'
  slot : ∀ a n k v w v' w', .updateStorage a n k v w ∈ L → .updateStorage a n k v' w' ∈ L → w = w'
  deleted : ∀ a x, .updateAccount a (some x) none ∈ L → x.incarnation = 0 → m.previousIncarnation a = 0

end Silkworm.Spec
