import Verif.State.Trace
import Verif.State.MemoryBuffer

/-!
# Conditions on databases and executions of the state

The places where the code is not correct for every input (see DESIGN.md) are excluded by these conditions.
-/

namespace Silkworm.Spec

open Silkworm State

/-- A database without left-over storage: storage is found only under incarnations that the account has now or had
before it was last destroyed. -/
structure SafeDb (db : StateReader) : Prop where
  zero : ∀ a k, db.readStorage a 0 k = zero32
  fresh : ∀ a n k, db.previousIncarnation a < n → (∀ i, db.readAccount a = some i → i.incarnation < n) →
    db.readStorage a n k = zero32
  previous : ∀ a i, db.readAccount a = some i → i.incarnation ≠ 0 → db.previousIncarnation a ≤ i.incarnation
  plain : ∀ a i, db.readAccount a = some i → i.incarnation = 0 → i.codeHash = kEmptyHash
  bound : ∀ a, db.previousIncarnation a + 1 < 2 ^ 64 ∧ ∀ i, db.readAccount a = some i → i.incarnation + 1 < 2 ^ 64

/-- Creating a contract does not reuse the incarnation of the account in the database. That happens when a contract is
destroyed, brought back as a plain account (incarnation 0) and created again within one block. -/
def SafeCreate (db : StateReader) (s : IntraBlockState) (a : Bytes) : Prop :=
  ∀ o, (IntraBlockState.getObject db s a).1 = some o →
    (∀ c i, o.current = some c → o.initial = some i → c.incarnation = 0 → i.incarnation = 0) ∧
    (∀ c, o.current = some c → c.incarnation + 1 < 2 ^ 64)

/-- Code is set only on contracts created in the block. -/
def SafeCode (db : StateReader) (s : IntraBlockState) (a : Bytes) : Prop :=
  ∃ o c, (IntraBlockState.getObject db s a).1 = some o ∧ o.current = some c ∧ c.incarnation ≠ 0 ∧
    ∀ i, o.initial = some i → i.incarnation ≠ c.incarnation

/-- Storage is written only by contracts. -/
def SafeStorage (db : StateReader) (s : IntraBlockState) (a : Bytes) : Prop :=
  ∃ o c, (IntraBlockState.getObject db s a).1 = some o ∧ o.current = some c ∧ c.incarnation ≠ 0

/-- Operations to which the guarantees about incarnations apply. -/
def SafeOp (db : StateReader) (o : Op) (s : IntraBlockState) : Prop :=
  match o with
  | .createContract a => SafeCreate db s a
  | .setCode a _ => SafeCode db s a
  | .setStorage a _ _ => SafeStorage db s a
  | _ => True

/-- A contract destroyed in the block is not left behind as a plain account, a plain account is destroyed only if there
never was a contract, and incarnations do not run out. -/
structure SafeEnd (db : StateReader) (s : IntraBlockState) : Prop where
  kept : ∀ a o c i, (IntraBlockState.getObject db s a).1 = some o → o.current = some c → o.initial = some i →
    c.incarnation = 0 → i.incarnation = 0
  destroyed : ∀ a o i, (IntraBlockState.getObject db s a).1 = some o → o.current = none → o.initial = some i →
    i.incarnation = 0 → db.previousIncarnation a = 0
  bound : ∀ a o c, (IntraBlockState.getObject db s a).1 = some o → o.current = some c → c.incarnation + 1 < 2 ^ 64

/-- The operations that only read. -/
def IsRead : Op → Prop
  | .doesExist _ | .isDead _ | .getBalance _ | .getNonce _ | .getCode _ | .getCodeHash _ => True
  | .getCurrentStorage _ _ | .getOriginalStorage _ _ | .getRefund => True
  | _ => False

/-- The address a read is about. -/
def readAddress : Op → Option Bytes
  | .doesExist a | .isDead a | .getBalance a | .getNonce a | .getCode a | .getCodeHash a => some a
  | .getCurrentStorage a _ | .getOriginalStorage a _ => some a
  | _ => none

/-- What an operation returns. -/
def result (keccak : Bytes → Bytes) (db : StateReader) (s : IntraBlockState) (o : Op) : OpResult := (o.step keccak db s).1

/-- All reads return the same in two states, each over its own database. -/
def SameReads (keccak : Bytes → Bytes) (db : StateReader) (s : IntraBlockState) (db' : StateReader) (t : IntraBlockState) :
    Prop := ∀ o, IsRead o → result keccak db s o = result keccak db' t o

/-- Everything that can be observed is the same in two states. -/
structure SameObservations (keccak : Bytes → Bytes) (db : StateReader) (s t : IntraBlockState) : Prop where
  reads : SameReads keccak db s db t
  accessAccount : ∀ a, result keccak db s (.accessAccount a) = result keccak db t (.accessAccount a)
  accessStorage : ∀ a k, result keccak db s (.accessStorage a k) = result keccak db t (.accessStorage a k)
  logs : s.logs = t.logs
  selfDestructs : s.selfDestructs = t.selfDestructs
  numberOfSelfDestructs : s.numberOfSelfDestructs = t.numberOfSelfDestructs
  touched : ∀ a, a ≠ IntraBlockState.kRipemdAddress → (a ∈ s.touched ↔ a ∈ t.touched)

/-- The codes an operation writes. -/
def opCodes : Op → List Bytes
  | .setCode _ code => [code]
  | _ => []

/-- The codes written in a trace, including in parts that are reverted. -/
def traceCodes : Trace → List Bytes
  | .nil => []
  | .op o rest => opCodes o ++ traceCodes rest
  | .scope body _ rest => traceCodes body ++ traceCodes rest

/-- The codes written in phases. -/
def phaseCodes : List Phase → List Bytes
  | [] => []
  | .ops t :: ps => traceCodes t ++ phaseCodes ps
  | _ :: ps => phaseCodes ps

/-- None of the codes collides with the code of an account: an account with the same non-empty hash has that code. -/
def NoClash (keccak : Bytes → Bytes) (db : StateReader) (s : IntraBlockState) (codes : List Bytes) : Prop :=
  ∀ code ∈ codes, keccak code ≠ kEmptyHash → ∀ a, result keccak db s (.getCodeHash a) = .bytes (keccak code) →
    result keccak db s (.getCode a) = .bytes code

/-- What the state holds under the hashes of the codes is these codes. -/
def CodeFits (keccak : Bytes → Bytes) (s : IntraBlockState) (codes : List Bytes) : Prop :=
  ∀ code ∈ codes, ∀ x, s.code.get? (keccak code) = some x → x = code

/-- The operations are safe in the states in which they are executed. -/
def SafePhases (keccak : Bytes → Bytes) (db : StateReader) (ps : List Phase) (s : IntraBlockState) : Prop :=
  PhasesAll keccak db (SafeOp db) ps s

/-- Nothing is pending: the current value of every slot is the committed one. -/
def Settled (keccak : Bytes → Bytes) (db : StateReader) (s : IntraBlockState) : Prop :=
  ∀ a k, result keccak db s (.getCurrentStorage a k) = result keccak db s (.getOriginalStorage a k)

/-- The calls of a block on the buffer: those of `write_to_db`, which visits hash maps, in any order. -/
structure CommitCalls (s : IntraBlockState) (n : Nat) (L : List BufferCall) : Prop where
  perm : L.Perm (s.writeToDb n)
  first : ∃ M, L = .beginBlock n :: M

/-- Blocks executed from scratch one after the other and written to the buffer, with their numbers. -/
inductive Blocks (keccak : Bytes → Bytes) : MemoryBuffer → List Nat → MemoryBuffer → Prop where
  | nil (b : MemoryBuffer) : Blocks keccak b [] b
  | block (b : MemoryBuffer) (n : Nat) (ps : List Phase) (L : List BufferCall) (ns : List Nat) (b' : MemoryBuffer)
      (safe : SafePhases keccak b.reader ps {})
      (settled : Settled keccak b.reader (runPhases keccak b.reader ps {}).2)
      (safeEnd : SafeEnd b.reader (runPhases keccak b.reader ps {}).2)
      (calls : CommitCalls (runPhases keccak b.reader ps {}).2 n L)
      (rest : Blocks keccak (b.applyAll L) ns b') : Blocks keccak b (n :: ns) b'

/-- Unwind blocks, the first in the list first. -/
def unwindAll (b : MemoryBuffer) : List Nat → MemoryBuffer
  | [] => b
  | n :: ns => unwindAll (b.unwindStateChanges n) ns

/-- The calls record the accounts and storage values that were in the buffer before the block. -/
def RecordsInitial (b : MemoryBuffer) : BufferCall → Prop
  | .beginBlock _ => False
  | .updateAccount a i _ => i = b.readAccount a
  | .updateAccountCode _ _ _ _ => True
  | .updateStorage a n k i _ => i = b.readStorage a n k

/-- The buffers hold the same accounts and storage values. -/
def SameContents (b c : MemoryBuffer) : Prop :=
  (∀ a, b.readAccount a = c.readAccount a) ∧ ∀ a n k, b.readStorage a n k = c.readStorage a n k

/-- Reads whose result may change with a write. -/
def Affects : Op → Op → Prop
  | .setBalance a _, .getBalance b | .setBalance a _, .doesExist b | .setBalance a _, .isDead b => a = b
  | .addToBalance a _, .getBalance b | .addToBalance a _, .doesExist b | .addToBalance a _, .isDead b => a = b
  | .subtractFromBalance a _, .getBalance b | .subtractFromBalance a _, .doesExist b
  | .subtractFromBalance a _, .isDead b => a = b
  | .setNonce a _, .getNonce b | .setNonce a _, .doesExist b | .setNonce a _, .isDead b => a = b
  | .setCode a _, .getCode b | .setCode a _, .getCodeHash b | .setCode a _, .doesExist b | .setCode a _, .isDead b => a = b
  | .setStorage a k _, .getCurrentStorage b j => a = b ∧ k = j
  | _, _ => False

/-- The writes of C30. -/
def IsWrite : Op → Prop
  | .setBalance _ _ | .addToBalance _ _ | .subtractFromBalance _ _ | .setNonce _ _ | .setCode _ _ | .setStorage _ _ _ => True
  | _ => False

/-- The account a write is about. -/
def writeAddress : Op → Option Bytes
  | .setBalance a _ | .addToBalance a _ | .subtractFromBalance a _ | .setNonce a _ | .setCode a _ | .setStorage a _ _ => some a
  | _ => none

end Silkworm.Spec
