import Verif.Execution.Processor
import Verif.Spec.Chain

/-!
# Specification of the execution of transactions and blocks

Written from the Yellow Paper and the EIPs. `balance`, `nonce`, … are what the accessors of the state return.
-/

namespace Silkworm.Spec.Execution

open Silkworm.Evm

/-- The balance of an address. -/
def balance (db : StateReader) (s : IntraBlockState) (a : Bytes) : Nat := (IntraBlockState.getBalance db s a).1

/-- The nonce of an address. -/
def nonce (db : StateReader) (s : IntraBlockState) (a : Bytes) : Nat := (IntraBlockState.getNonce db s a).1

/-- The code hash of an address. -/
def codeHash (db : StateReader) (s : IntraBlockState) (a : Bytes) : Bytes := (IntraBlockState.getCodeHash db s a).1

/-- Is there an account? -/
def live (db : StateReader) (s : IntraBlockState) (a : Bytes) : Bool := (IntraBlockState.exists? db s a).1

/-- The value of a storage slot. -/
def slot (db : StateReader) (s : IntraBlockState) (a k : Bytes) : Bytes := (IntraBlockState.getCurrentStorage db s a k).1

/-- The value of a storage slot before the transaction. -/
def originalSlot (db : StateReader) (s : IntraBlockState) (a k : Bytes) : Bytes :=
  (IntraBlockState.getOriginalStorage db s a k).1

/-- Has a storage slot been accessed (EIP-2929)? -/
def warmSlot (s : IntraBlockState) (a k : Bytes) : Prop := k ∈ (s.accessedStorageKeys.get? a).getD []

/-- There is no account, or it is empty in the sense of EIP-161. -/
def isEmptyOrAbsent (db : StateReader) (s : IntraBlockState) (a : Bytes) : Bool :=
  !live db s a || decide (balance db s a = 0 ∧ nonce db s a = 0 ∧ codeHash db s a = kEmptyHash)

/-- Two states that cannot be told apart by accounts, storage, logs, destroyed accounts and the refund counter. -/
structure SameWorld (db : StateReader) (s t : IntraBlockState) : Prop where
  balance : ∀ a, balance db t a = balance db s a
  nonce : ∀ a, nonce db t a = nonce db s a
  codeHash : ∀ a, codeHash db t a = codeHash db s a
  live : ∀ a, live db t a = live db s a
  slot : ∀ a k, slot db t a k = slot db s a k
  originalSlot : ∀ a k, originalSlot db t a k = originalSlot db s a k
  logs : t.logs = s.logs
  destroyed : t.selfDestructs = s.selfDestructs
  refund : t.refund = s.refund

/-- `v` moves from `a` to `b`, and nothing else happens to accounts that existed. -/
structure Moved (db : StateReader) (a b : Bytes) (v : Nat) (s t : IntraBlockState) : Prop where
  balance : ∀ x, balance db t x + (if x = a then v else 0) = balance db s x + (if x = b then v else 0)
  nonce : ∀ x, nonce db t x = nonce db s x
  codeHash : ∀ x, codeHash db t x = codeHash db s x
  slot : ∀ x k, live db s x = true → slot db t x k = slot db s x k
  originalSlot : ∀ x k, live db s x = true → originalSlot db t x k = originalSlot db s x k
  logs : t.logs = s.logs
  destroyed : t.selfDestructs = s.selfDestructs
  refund : t.refund = s.refund

/-! ## Validity of a transaction in a state (Yellow Paper, equation 58) -/

/-- The conditions under which a transaction may be executed, with the errors. -/
def stateRules (db : StateReader) (s : IntraBlockState) (gasLeftInBlock : Int) (t : Transaction) :
    List (ValidationError × Prop) :=
  [ (.missingSender, t.sender.isSome = true),
    (.wrongNonce, ∀ a, t.sender = some a → nonce db s a = t.nonce),
    (.insufficientFunds, ∀ a, t.sender = some a → t.gasLimit * t.maxFeePerGas + t.value ≤ balance db s a),
    (.blockGasLimitExceeded, (t.gasLimit : Int) ≤ gasLeftInBlock) ]

/-! ## Hashes of ancestors -/

/-- The hash of the ancestor `k + 1` blocks before the block with header `h`: the parent's hash is in the header, all
others are in the header of the block one further. -/
def ancestor (readHeader : Nat → Bytes → Option BlockHeader) (h : BlockHeader) : Nat → Option Bytes
  | 0 => some h.parentHash
  | k + 1 =>
    match ancestor readHeader h k with
    | none => none
    | some x => (readHeader (h.number - (k + 1)) x).map (·.parentHash)

/-! ## Rewards (Yellow Paper, section 11.3; EIP-649, EIP-1234) -/

/-- Reward of a block in wei, given which forks are active. -/
noncomputable def staticReward (c : ChainConfig) (n : Nat) : Nat :=
  open Classical in
  if forkActive c 5 n then 2000000000000000000
  else if forkActive c 4 n then 3000000000000000000
  else 5000000000000000000

/-- What an address gets for a block: as miner the reward and a 32nd of it for each ommer; as miner of an ommer an eighth
less for every generation. -/
def rewards (reward : Nat) (b : Block) (a : Bytes) : Nat :=
  (if b.header.beneficiary = a then reward + b.ommers.length * (reward / 32) else 0) +
    (b.ommers.map fun o => if o.beneficiary = a then (8 - (b.header.number - o.number)) * (reward / 8) else 0).sum

/-! ## SSTORE -/

/-- What a write is charged: as little as a read, as a new entry, or as a change (EIP-2200: `SLOAD_GAS`, `SSTORE_SET_GAS`,
`SSTORE_RESET_GAS`). -/
inductive Charge where
  | noop
  | set
  | reset
  deriving DecidableEq

/-- The parameters of the rules. -/
structure Schedule where
  /-- Net metering? -/
  net : Bool
  sload : Int
  set : Int
  reset : Int
  clears : Int

/-- By revision: EIP-1283 in Constantinople (5), removed in Petersburg (6), EIP-2200 from Istanbul (7), EIP-2929 from Berlin
(8), EIP-3529 from London (9). -/
def schedule (rev : Nat) : Schedule :=
  if 9 ≤ rev then ⟨true, 100, 20000, 2900, 4800⟩
  else if rev = 8 then ⟨true, 100, 20000, 2900, 15000⟩
  else if rev = 7 then ⟨true, 800, 20000, 5000, 15000⟩
  else if rev = 5 then ⟨true, 200, 20000, 5000, 15000⟩
  else ⟨false, 200, 20000, 5000, 15000⟩

/-- What is charged, for the original, the current and the new value. -/
def sstoreCharge (x : Schedule) (original current new : Bytes) : Charge :=
  if x.net then
    if current = new then .noop
    else if original = current then (if original = zero32 then .set else .reset)
    else .noop
  else if current = zero32 ∧ new ≠ zero32 then .set
  else .reset

/-- The change of the refund counter. -/
def sstoreRefund (x : Schedule) (original current new : Bytes) : Int :=
  if x.net then
    if current = new then 0
    else if original = current then (if original ≠ zero32 ∧ new = zero32 then x.clears else 0)
    else
      (if original ≠ zero32 then
        (if current = zero32 then - x.clears else 0) + (if new = zero32 then x.clears else 0)
       else 0) +
      (if original = new then (if original = zero32 then x.set - x.sload else x.reset - x.sload) else 0)
  else if current ≠ zero32 ∧ new = zero32 then x.clears
  else 0

/-- What interpreters charge for a status (`evmc_storage_status` in evmc.h): without net metering `unchanged` costs as much as
a change. -/
def statusCharge (net : Bool) : StorageStatus → Charge
  | .unchanged => if net then .noop else .reset
  | .modified => .reset
  | .modifiedAgain => .noop
  | .added => .set
  | .deleted => .reset

/-- Writes to storage, in nested scopes some of which are reverted. -/
inductive Writes where
  | done
  | write (a k v : Bytes) (rest : Writes)
  | scope (body : Writes) (reverted : Bool) (rest : Writes)

/-- The accounts that are written. -/
def Writes.accounts : Writes → List Bytes
  | .done => []
  | .write a _ _ rest => a :: rest.accounts
  | .scope body _ rest => body.accounts ++ rest.accounts

/-- All slots, and the refund counter. -/
structure Slots where
  current : Bytes → Bytes → Bytes
  counter : Int

/-- What the writes do, by the rules; reverted ones do nothing. -/
def Writes.meter (x : Schedule) (original : Bytes → Bytes → Bytes) : Writes → Slots → Slots
  | .done, q => q
  | .write a k v rest, q =>
    rest.meter x original
      ⟨fun b l => if b = a ∧ l = k then v else q.current b l, q.counter + sstoreRefund x (original a k) (q.current a k) v⟩
  | .scope body reverted rest, q => rest.meter x original (if reverted then q else body.meter x original q)

/-! ## Interpreters -/

/-- What an interpreter that executes `msg` may ask for: it writes and destroys only the account it runs for, calls in its
name, at most 1024 deep and with gas, and changes nothing in static mode. -/
def CallOk (msg : Message) : HostCall → Prop
  | .setStorage a _ _ => a = msg.destination ∧ msg.isStatic = false
  | .selfdestruct a _ => a = msg.destination ∧ msg.isStatic = false
  | .emitLog a _ _ => a = msg.destination ∧ msg.isStatic = false
  | .call m =>
    (m.kind ≠ .delegatecall → m.sender = msg.destination) ∧ m.depth = msg.depth + 1 ∧ m.depth ≤ 1024 ∧ 0 ≤ m.gas ∧
      (msg.isStatic = true → m.isStatic = true) ∧ (m.isStatic = true → m.kind ≠ .create ∧ m.kind ≠ .create2)
  | _ => True

/-- What it may rely on: calls do not return more gas than they were given. -/
def AnswerOk : (c : HostCall) → c.Answer → Prop
  | .call m, r => 0 ≤ Result.gasLeft r ∧ Result.gasLeft r ≤ m.gas
  | _, _ => True

/-- An interpreter at work on `msg`: then it does not return more gas than it was given either. -/
inductive ProgramOk (msg : Message) : Program → Prop
  | done {r : Result} : 0 ≤ r.gasLeft → r.gasLeft ≤ msg.gas → ProgramOk msg (.done r)
  | ask {c : HostCall} {next : c.Answer → Program} :
      CallOk msg c → (∀ x, AnswerOk c x → ProgramOk msg (next x)) → ProgramOk msg (.ask c next)

/-- What is assumed of the interpreter. -/
def InterpreterOk (i : Nat → Message → Bytes → Program) : Prop :=
  ∀ rev msg code, 0 ≤ msg.gas → ProgramOk msg (i rev msg code)

/-- An interpreter that asks only for the hashes of the last 256 blocks before block `number`, as `BLOCKHASH` requires, and
calls with less than `2^62` gas, which block gas limits guarantee. -/
inductive ProgramInRange (number : Nat) : Program → Prop
  | done {r : Result} : ProgramInRange number (.done r)
  | ask {c : HostCall} {next : c.Answer → Program} :
      (∀ n, c = .getBlockHash n → (number : Int) - 256 ≤ n ∧ n < number ∧ 0 ≤ n) → (∀ m, c = .call m → m.gas < 2 ^ 62) →
      (∀ x, AnswerOk c x → ProgramInRange number (next x)) → ProgramInRange number (.ask c next)

/-- What is further assumed of the interpreter. -/
def InterpreterInRange (number : Nat) (i : Nat → Message → Bytes → Program) : Prop :=
  ∀ rev msg code, 0 ≤ msg.gas → msg.gas < 2 ^ 62 → ProgramInRange number (i rev msg code)

/-! ## Gas (Yellow Paper, section 6.2; EIP-3529) -/

/-- The gas that is refunded for cleared storage and destroyed accounts: at most half of the gas consumed; from London on
at most a fifth, and nothing for destroyed accounts. -/
def gasRefund (rev counter destroyed consumed : Nat) : Nat :=
  if 9 ≤ rev then min counter (consumed / 5) else min (counter + 24000 * destroyed) (consumed / 2)

/-- The sums of the first elements of a list, after `n`. -/
def runningTotals : Nat → List Nat → List Nat
  | _, [] => []
  | n, x :: xs => (n + x) :: runningTotals (n + x) xs

/-! ## Total balances -/

/-- The sum of a function on addresses that is zero almost everywhere. -/
def HasTotal (f : Bytes → Nat) (t : Nat) : Prop :=
  ∃ l : List Bytes, l.Nodup ∧ (∀ a, a ∉ l → f a = 0) ∧ (l.map f).sum = t

end Silkworm.Spec.Execution
