import Verif.Common.Lru
import Verif.Execution.Evm

/-!
# Model of core/silkworm/execution/{analysis_cache,state_pool}.{hpp,cpp} and of their use in evm.cpp

`Execution/Evm.lean` has one interpreter, which depends on nothing but the revision, the message and the code. Here the three ways
of running code are told apart (core/silkworm/execution/evm.cpp:242-321), and the caches that outlive a message are part of the
state. An execution state of evmone (`AdvancedExecutionState`) is an object with an identity. `reset` is called before it is used,
so that its contents do not matter, but it must not be in use already: that would be undefined behaviour.
-/

namespace Silkworm.Evm

open IntraBlockState

/-- What evmone and an exogenous EVM offer. -/
structure Engine (A : Type) where
  /-- `evmone::analyze`. -/
  analyze : Nat → Bytes → A
  /-- `AdvancedExecutionState::reset` and `evmone::execute`: analysis, revision, message, code. -/
  run : A → Nat → Message → Bytes → Program
  /-- `evmone::baseline::analyze`, `reset` and `evmone::baseline::execute`. -/
  baseline : Nat → Message → Bytes → Program
  /-- `exo_evm`, core/silkworm/execution/evm.hpp:66. -/
  exo : Option (Nat → Message → Bytes → Program) := none

/-- core/silkworm/execution/analysis_cache.hpp:35-63 (`AnalysisCache`). -/
structure AnalysisCache (A : Type) where
  cache : LruCache Bytes A
  revision : Nat := Revision.max

namespace AnalysisCache

variable {A : Type}

/-- core/silkworm/execution/analysis_cache.hpp:39. -/
def empty (maxSize : Nat) : AnalysisCache A := { cache := .empty maxSize }

/-- core/silkworm/execution/analysis_cache.cpp:26-34 (`get`). -/
def get (c : AnalysisCache A) (key : Bytes) (revision : Nat) : Outcome Empty (Option A × AnalysisCache A) :=
  if c.revision = revision then
    (c.cache.get key).bind fun r => .ok (r.1, { c with cache := r.2 })
  else .ok (none, c)

/-- core/silkworm/execution/analysis_cache.cpp:36-45 (`put`). -/
def put (c : AnalysisCache A) (key : Bytes) (analysis : A) (revision : Nat) : Outcome Empty (AnalysisCache A) :=
  let cache := if c.revision ≠ revision then c.cache.clear else c.cache
  (cache.put key analysis).bind fun cache => .ok { cache := cache, revision := revision }

end AnalysisCache

/-- What outlives a message: core/silkworm/execution/evm.hpp:62-64, core/silkworm/execution/state_pool.hpp:43. `busy` are the
execution states in use and `next` numbers them. -/
structure Caches (A : Type) where
  analysis : Option (AnalysisCache A) := none
  pool : Option (List Nat) := none
  busy : List Nat := []
  next : Nat := 0

namespace Caches

variable {A : Type}

/-- core/silkworm/execution/evm.cpp:268-273, 303-308 and core/silkworm/execution/state_pool.cpp:32-39 (`acquire`). -/
def acquire (k : Caches A) : Outcome Fault (Nat × Caches A) :=
  match k.pool with
  | some (id :: rest) => if id ∈ k.busy then .ub else .ok (id, { k with pool := some rest, busy := id :: k.busy })
  | _ => .ok (k.next, { k with busy := k.next :: k.busy, next := k.next + 1 })

/-- core/silkworm/execution/evm.cpp:281-283, 316-318 and core/silkworm/execution/state_pool.cpp:41-43 (`release`). Without a pool the
state is destroyed. -/
def release (k : Caches A) (id : Nat) : Caches A :=
  { k with pool := k.pool.map (id :: ·), busy := k.busy.erase id }

/-- core/silkworm/execution/evm.cpp:289-301: the analysis of a code, from the cache if there is one and the hash is known. -/
def analysisOf (engine : Engine A) (k : Caches A) (revision : Nat) (code : Bytes) (codeHash : Option Bytes) :
    Outcome Fault (A × Caches A) :=
  match codeHash, k.analysis with
  | some hash, some cache =>
    (lift (cache.get hash revision)).bind fun r =>
      match r.1 with
      | some a => .ok (a, { k with analysis := some r.2 })
      | none =>
        let a := engine.analyze revision code
        (lift (r.2.put hash a revision)).bind fun cache => .ok (a, { k with analysis := some cache })
  | _, _ => .ok (engine.analyze revision code, k)

end Caches

/-- `EVM::create` or `EVM::call` with caches. -/
abbrev SubC (A : Type) := Message → Machine → Caches A → Outcome Fault (Result × Machine × Caches A)

variable {A : Type}

/-- The services of the host. Only messages use the caches. -/
def hostC (env : Env) (txn : Transaction) (sub : SubC A) (m : Machine) (k : Caches A) :
    (c : HostCall) → Outcome Fault (c.Answer × Machine × Caches A)
  | .call msg =>
    (sub msg m k).bind fun r =>
      .ok (if msg.kind = .create ∨ msg.kind = .create2 then stripOutput r.1 else r.1, r.2)
  | c => (host env txn (fun _ _ => .ub) m c).bind fun r => .ok (r.1, r.2, k)

/-- Run a program. -/
def runProgramC (env : Env) (txn : Transaction) (sub : SubC A) :
    Program → Machine → Caches A → Outcome Fault (Result × Machine × Caches A)
  | .done r, m, k => .ok (r, m, k)
  | .ask c next, m, k => (hostC env txn sub m k c).bind fun x => runProgramC env txn sub (next x.1) x.2.1 x.2.2

/-- core/silkworm/execution/evm.cpp:263-286 (`execute_with_baseline_interpreter`). -/
def executeBaseline (engine : Engine A) (env : Env) (txn : Transaction) (sub : SubC A) (msg : Message) (code : Bytes) (m : Machine)
    (k : Caches A) : Outcome Fault (Result × Machine × Caches A) :=
  k.acquire.bind fun s =>
    (runProgramC env txn sub (engine.baseline env.revision msg code) m s.2).bind fun r =>
      .ok (r.1, r.2.1, r.2.2.release s.1)

/-- core/silkworm/execution/evm.cpp:288-321 (`execute_with_default_interpreter`). -/
def executeDefault (engine : Engine A) (env : Env) (txn : Transaction) (sub : SubC A) (msg : Message) (code : Bytes)
    (codeHash : Option Bytes) (m : Machine) (k : Caches A) : Outcome Fault (Result × Machine × Caches A) :=
  (k.analysisOf engine env.revision code codeHash).bind fun a =>
    a.2.acquire.bind fun s =>
      (runProgramC env txn sub (engine.run a.1 env.revision msg code) m s.2).bind fun r =>
        .ok (r.1, r.2.1, r.2.2.release s.1)

/-- core/silkworm/execution/evm.cpp:242-261 (`execute`). -/
def executeCodeC (engine : Engine A) (env : Env) (txn : Transaction) (sub : SubC A) (msg : Message) (code : Bytes)
    (codeHash : Option Bytes) (m : Machine) (k : Caches A) : Outcome Fault (Result × Machine × Caches A) :=
  let m := { m with addressStack := msg.destination :: m.addressStack }
  (match engine.exo with
    | some exo => runProgramC env txn sub (exo env.revision msg code) m k
    | none =>
      if k.analysis.isSome then executeDefault engine env txn sub msg code codeHash m k
      else executeBaseline engine env txn sub msg code m k).bind fun r =>
    r.2.1.pop.bind fun m => .ok (r.1, m, r.2.2)

/-- core/silkworm/execution/evm.cpp:95-151: `create` after the checks; the hash of the code is not given (line 118). -/
def deployC (engine : Engine A) (env : Env) (txn : Transaction) (sub : SubC A) (msg : Message) (address : Bytes) (m : Machine)
    (k : Caches A) : Outcome Fault (Result × Machine × Caches A) :=
  let snapshot := m.state.takeSnapshot
  (executeCodeC engine env txn sub (deployMessage msg address) msg.input none
      { m with state := openContract env msg address m.state } k).bind fun x =>
    let d := depositCode env address x.1 x.2.1.state
    let e := settle snapshot d.1 d.2
    .ok (if e.1.status = .success then { e.1 with createAddress := address } else e.1, { x.2.1 with state := e.2 }, x.2.2)

/-- core/silkworm/execution/evm.cpp:69-152 (`create`). -/
def createC (engine : Engine A) (env : Env) (txn : Transaction) (sub : SubC A) (msg : Message) (m : Machine) (k : Caches A) :
    Outcome Fault (Result × Machine × Caches A) :=
  let b := getBalance env.db m.state msg.sender
  if b.1 < msg.value then .ok (⟨.insufficientBalance, msg.gas, [], zeroAddress⟩, { m with state := b.2 }, k)
  else
    let n := getNonce env.db b.2 msg.sender
    let s := setNonce env.db n.2 msg.sender ((n.1 + 1) % 2 ^ 64)
    let address := contractAddress env msg n.1
    let a := s.accessAccount address
    let n' := getNonce env.db a.2 address
    let h := IntraBlockState.getCodeHash env.db n'.2 address
    if n'.1 ≠ 0 ∨ h.1 ≠ kEmptyHash then .ok (⟨.invalidInstruction, 0, [], zeroAddress⟩, { m with state := h.2 }, k)
    else deployC engine env txn sub msg address { m with state := h.2 } k

/-- core/silkworm/execution/evm.cpp:204-216: the code at the destination, run for the recipient. -/
def runCodeC (engine : Engine A) (env : Env) (txn : Transaction) (sub : SubC A) (msg : Message) (recipient : Bytes) (m : Machine)
    (k : Caches A) : Outcome Fault (Result × Machine × Caches A) :=
  let c := getCode env.db m.state msg.destination
  if c.1.isEmpty then .ok (⟨.success, msg.gas, [], zeroAddress⟩, { m with state := c.2 }, k)
  else
    let h := IntraBlockState.getCodeHash env.db c.2 msg.destination
    executeCodeC engine env txn sub { msg with destination := recipient } c.1 (some h.1) { m with state := h.2 } k

/-- core/silkworm/execution/evm.cpp:176-225: `call` after the checks. -/
def enterC (engine : Engine A) (env : Env) (txn : Transaction) (sub : SubC A) (msg : Message) (recipient : Bytes) (m : Machine)
    (k : Caches A) : Outcome Fault (Result × Machine × Caches A) :=
  let snapshot := m.state.takeSnapshot
  let m' := { m with state := transfer env msg recipient m.state }
  (if env.isPrecompiled msg.destination then (lift (runPrecompiled env msg)).bind fun r => .ok (r, m', k)
   else runCodeC engine env txn sub msg recipient m' k).bind fun x =>
    let e := settle snapshot x.1 x.2.1.state
    .ok (e.1, { x.2.1 with state := e.2 }, x.2.2)

/-- core/silkworm/execution/evm.cpp:154-226 (`call`). -/
def callC (engine : Engine A) (env : Env) (txn : Transaction) (sub : SubC A) (msg : Message) (m : Machine) (k : Caches A) :
    Outcome Fault (Result × Machine × Caches A) :=
  let b := if msg.kind = .delegatecall then (msg.value, m.state) else getBalance env.db m.state msg.sender
  if msg.kind ≠ .delegatecall ∧ b.1 < msg.value then
    .ok (⟨.insufficientBalance, msg.gas, [], zeroAddress⟩, { m with state := b.2 }, k)
  else
    (recipient msg m.addressStack).bind fun r =>
      if msg.value = 0 ∧ env.revision ≥ Revision.spuriousDragon ∧ env.isPrecompiled msg.destination = false then
        let e := exists? env.db b.2 msg.destination
        if e.1 = false then .ok (⟨.success, msg.gas, [], zeroAddress⟩, { m with state := e.2 }, k)
        else enterC engine env txn sub msg r { m with state := e.2 } k
      else enterC engine env txn sub msg r { m with state := b.2 } k

/-- `create` or `call`, as at core/silkworm/execution/evm.cpp:64, 483-484, with messages nested at most `depth` deep. -/
def messageC (engine : Engine A) (env : Env) (txn : Transaction) : Nat → SubC A
  | 0, _, _, _ => .err .tooDeep
  | depth + 1, msg, m, k =>
    if msg.kind = .create ∨ msg.kind = .create2 then createC engine env txn (messageC engine env txn depth) msg m k
    else callC engine env txn (messageC engine env txn depth) msg m k

/-- core/silkworm/execution/evm.cpp:45-67 (`execute(txn, gas)`). -/
def executeC (engine : Engine A) (env : Env) (txn : Transaction) (gas : Nat) (m : Machine) (k : Caches A) :
    Outcome Fault (CallResult × Machine × Caches A) :=
  match txn.sender with
  | none => .ub
  | some sender =>
    (messageC engine env txn maxNesting (transactionMessage txn sender gas) m k).bind fun r =>
      .ok (⟨r.1.status, (r.1.gasLeft.emod (2 ^ 64)).toNat, r.1.output⟩, r.2.1, r.2.2)

end Silkworm.Evm
