import Verif.Chain.Validity
import Verif.Execution.Precompiled
import Verif.State.IntraBlockState

/-!
# Model of core/silkworm/execution/{evm,address}.{hpp,cpp}

The interpreter (evmone or an exogenous one) is a parameter: for a revision, a message and a code it is a program that
asks the host for services and finally returns a result. Such a program is a well-founded tree, because interpreters
terminate. The three ways of running it (core/silkworm/execution/evm.cpp:247-255) and its caches of analyses are not
distinguished here but in `Execution/Caches.lean` (C110). Addresses are 20 bytes, `evmc::uint256be` is a natural number, gas (`int64_t`) an integer.

`message` recurses on the nesting of messages. When its first argument runs out, the outcome is `err`, which stands for
nothing in the code; `Verif/Properties` shows that it does not happen with interpreters that limit the depth.
-/

namespace Silkworm.Evm

open IntraBlockState

/-- `evmc_status_code` (evmc.h); only those that the code mentions are told apart. -/
inductive Status where
  | success
  | revert
  | outOfGas
  | invalidInstruction
  | insufficientBalance
  | contractValidationFailure
  | precompileFailure
  | other (code : Nat)
  deriving DecidableEq, Repr

/-- `evmc_call_kind` (evmc.h). -/
inductive Kind where
  | call
  | delegatecall
  | callcode
  | create
  | create2
  deriving DecidableEq, Repr

/-- `evmc_message` (evmc.h). -/
structure Message where
  kind : Kind
  /-- `flags & EVMC_STATIC`. -/
  isStatic : Bool := false
  depth : Nat := 0
  gas : Int
  destination : Bytes
  sender : Bytes
  input : Bytes := []
  value : Nat := 0
  salt : Bytes := zero32
  deriving DecidableEq

/-- `evmc::address{}`. -/
def zeroAddress : Bytes := List.replicate 20 0

/-- `evmc_result` (evmc.h). -/
structure Result where
  status : Status
  gasLeft : Int
  output : Bytes := []
  createAddress : Bytes := zeroAddress
  deriving DecidableEq

/-- `evmc_storage_status` (evmc.h). -/
inductive StorageStatus where
  | unchanged
  | modified
  | modifiedAgain
  | added
  | deleted
  deriving DecidableEq, Repr

/-- `evmc_tx_context` (evmc.h). -/
structure TxContext where
  gasPrice : Nat
  origin : Bytes
  coinbase : Bytes
  number : Nat
  timestamp : Nat
  gasLimit : Nat
  difficulty : Nat
  chainId : Nat
  baseFee : Nat
  deriving DecidableEq

/-- The services of `evmc::Host` (evmc.hpp; core/silkworm/execution/evm.hpp:102-141). -/
inductive HostCall where
  | accountExists (address : Bytes)
  | accessAccount (address : Bytes)
  | accessStorage (address key : Bytes)
  | getStorage (address key : Bytes)
  | setStorage (address key value : Bytes)
  | getBalance (address : Bytes)
  | getCodeSize (address : Bytes)
  | getCodeHash (address : Bytes)
  | copyCode (address : Bytes) (offset size : Nat)
  | selfdestruct (address beneficiary : Bytes)
  | call (message : Message)
  | getTxContext
  | getBlockHash (number : Int)
  | emitLog (address data : Bytes) (topics : List Bytes)

/-- What they return; for `access_*` whether the access is cold. -/
def HostCall.Answer : HostCall → Type
  | .accountExists _ => Bool
  | .accessAccount _ => Bool
  | .accessStorage _ _ => Bool
  | .getStorage _ _ => Bytes
  | .setStorage _ _ _ => StorageStatus
  | .getBalance _ => Nat
  | .getCodeSize _ => Nat
  | .getCodeHash _ => Bytes
  | .copyCode _ _ _ => Bytes
  | .selfdestruct _ _ => Unit
  | .call _ => Result
  | .getTxContext => TxContext
  | .getBlockHash _ => Bytes
  | .emitLog _ _ _ => Unit

/-- What an interpreter does with a message: ask the host and go on, or return. -/
inductive Program where
  | done (result : Result)
  | ask (call : HostCall) (next : call.Answer → Program)

/-- What the EVM refers to (core/silkworm/execution/evm.hpp:50-52, 64-66, 90-92). -/
structure Env where
  crypto : Precompiled.Crypto
  db : StateReader
  /-- `StateBuffer::read_header`. -/
  readHeader : Nat → Bytes → Option BlockHeader
  config : ChainConfig
  block : Block
  /-- The interpreter: revision, message, code. -/
  interpreter : Nat → Message → Bytes → Program

/-- What changes: core/silkworm/execution/evm.hpp:91, 94, 95. -/
structure Machine where
  state : IntraBlockState
  blockHashes : List Bytes := []
  addressStack : List Bytes := []

/-- The messages are nested deeper than the model looks. -/
inductive Fault where
  | tooDeep
  deriving DecidableEq, Repr

/-- Functions without errors. -/
def lift {α : Type} : Outcome Empty α → Outcome Fault α
  | .ok a => .ok a
  | .err e => e.elim
  | .ub => .ub

/-- core/silkworm/execution/evm.cpp:323. -/
def Env.revision (env : Env) : Nat := env.config.revision env.block.header.number

/-- core/silkworm/execution/evm.cpp:337-344 (`is_precompiled`); addresses are compared as numbers. -/
def Env.isPrecompiled (env : Env) (address : Bytes) : Bool :=
  beToNat address != 0 && decide (beToNat address ≤ Precompiled.number env.revision)

/-- core/silkworm/execution/address.cpp:26-40 (`create_address`). -/
def createAddress (keccak : Bytes → Bytes) (caller : Bytes) (nonce : Nat) : Bytes :=
  let rlp := Rlp.encodeHeader ⟨true, 1 + 20 + Rlp.lengthUint 8 nonce⟩ ++ Rlp.encodeBytes caller ++ Rlp.encodeUint 8 nonce
  ((keccak rlp).drop 12).take 20

/-- core/silkworm/execution/address.cpp:42-57 (`create2_address`). -/
def create2Address (keccak : Bytes → Bytes) (caller salt codeHash : Bytes) : Bytes :=
  ((keccak ([0xff] ++ caller ++ salt ++ codeHash)).drop 12).take 20

/-- core/silkworm/execution/evm.cpp:81-87; other kinds do not occur in `create`. -/
def contractAddress (env : Env) (msg : Message) (nonce : Nat) : Bytes :=
  match msg.kind with
  | .create => createAddress env.crypto.keccak msg.sender nonce
  | .create2 => create2Address env.crypto.keccak msg.sender msg.salt (env.crypto.keccak msg.input)
  | _ => zeroAddress

/-- `static_cast<int64_t>` of a `uint64_t`. -/
def toInt64 (n : Nat) : Int := if n < 2 ^ 63 then n else (n : Int) - 2 ^ 64

/-! ## The host -/

/-- core/silkworm/execution/evm.cpp:346-354. -/
def accountExists (env : Env) (s : IntraBlockState) (address : Bytes) : Bool × IntraBlockState :=
  if env.revision ≥ Revision.spuriousDragon then
    let r := isDead env.db s address
    (!r.1, r.2)
  else exists? env.db s address

/-- core/silkworm/execution/evm.cpp:356-361; `true` is `EVMC_ACCESS_COLD`. -/
def accessAccount (env : Env) (s : IntraBlockState) (address : Bytes) : Bool × IntraBlockState :=
  if env.isPrecompiled address then (false, s) else s.accessAccount address

/-- core/silkworm/execution/evm.cpp:399-406. -/
def sloadCost (rev : Nat) : Nat :=
  if rev ≥ Revision.berlin then 100 else if rev ≥ Revision.istanbul then 800 else 200

/-- core/silkworm/execution/evm.cpp:408-411. -/
def sstoreResetGas (rev : Nat) : Nat := if rev ≥ Revision.berlin then sub64 5000 2100 else 5000

/-- core/silkworm/execution/evm.cpp:417-418. -/
def sstoreClearsRefund (rev : Nat) : Nat :=
  if rev ≥ Revision.london then (sstoreResetGas rev + 1900) % 2 ^ 64 else 15000

/-- core/silkworm/execution/evm.cpp:420-443: net gas metering. -/
def netMetering (rev : Nat) (s : IntraBlockState) (original current value : Bytes) : StorageStatus × IntraBlockState :=
  if original = current then
    if original = zero32 then (.added, s)
    else (.modified, if value = zero32 then s.addRefund (sstoreClearsRefund rev) else s)
  else
    let s1 := if original ≠ zero32 ∧ current = zero32 then s.subtractRefund (sstoreClearsRefund rev) else s
    let s2 := if original ≠ zero32 ∧ value = zero32 then s1.addRefund (sstoreClearsRefund rev) else s1
    let s3 :=
      if original = value then
        if original = zero32 then s2.addRefund (sub64 20000 (sloadCost rev))
        else s2.addRefund (sub64 (sstoreResetGas rev) (sloadCost rev))
      else s2
    (.modifiedAgain, s3)

/-- core/silkworm/execution/evm.cpp:385-397: metering before EIP-1283 and in Petersburg. -/
def grossMetering (s : IntraBlockState) (current value : Bytes) : StorageStatus × IntraBlockState :=
  if current = zero32 then (.added, s)
  else if value = zero32 then (.deleted, s.addRefund 15000)
  else (.modified, s)

/-- core/silkworm/execution/evm.cpp:371-444 (`set_storage`). -/
def setStorage (env : Env) (s : IntraBlockState) (address key value : Bytes) : StorageStatus × IntraBlockState :=
  let c := getCurrentStorage env.db s address key
  if c.1 = value then (.unchanged, c.2)
  else
    let s := IntraBlockState.setStorage env.db c.2 address key value
    if env.revision ≥ Revision.istanbul ∨ env.revision = Revision.constantinople then
      let o := getOriginalStorage env.db s address key
      netMetering env.revision o.2 o.1 c.1 value
    else grossMetering s c.1 value

/-- core/silkworm/execution/evm.cpp:455-461. -/
def getCodeHash (env : Env) (s : IntraBlockState) (address : Bytes) : Bytes × IntraBlockState :=
  let d := isDead env.db s address
  if d.1 then (zero32, d.2) else IntraBlockState.getCodeHash env.db d.2 address

/-- core/silkworm/execution/evm.cpp:463-474: the bytes copied. -/
def copyCode (env : Env) (s : IntraBlockState) (address : Bytes) (offset size : Nat) : Bytes × IntraBlockState :=
  let c := getCode env.db s address
  if offset ≥ c.1.length then ([], c.2)
  else ((c.1.drop offset).take (min size (c.1.length - offset)), c.2)

/-- core/silkworm/execution/evm.cpp:476-480. -/
def selfdestruct (env : Env) (s : IntraBlockState) (address beneficiary : Bytes) : IntraBlockState :=
  let s := recordSuicide s address
  let b := getBalance env.db s address
  let s := addToBalance env.db b.2 beneficiary b.1
  setBalance env.db s address 0

/-- core/silkworm/execution/evm.cpp:500-515. -/
def getTxContext (env : Env) (txn : Transaction) : Outcome Empty TxContext :=
  let header := env.block.header
  let baseFee := header.baseFeePerGas.getD 0
  (txn.effectiveGasPrice baseFee).bind fun price =>
    match txn.sender with
    | none => .ub
    | some origin =>
      .ok ⟨price, origin, header.beneficiary, header.number, header.timestamp, header.gasLimit, header.difficulty,
        env.config.chainId, baseFee⟩

/-- The loop at core/silkworm/execution/evm.cpp:532-538; `count` iterations from `i` on. -/
def fillHashes (readHeader : Nat → Bytes → Option BlockHeader) (base : Nat) : Nat → Nat → List Bytes → List Bytes
  | 0, _, hashes => hashes
  | count + 1, i, hashes =>
    match readHeader (sub64 base i) (hashes.getD (i - 1) zero32) with
    | none => hashes
    | some header => fillHashes readHeader base count (i + 1) (hashes.set i header.parentHash)

/-- core/silkworm/execution/evm.cpp:517-541 (`get_block_hash`): the hash and the new `block_hashes_`. `hashes[size_t(-1)]`
and a failed assertion are undefined. -/
def getBlockHash (env : Env) (cache : List Bytes) (n : Int) : Outcome Empty (Bytes × List Bytes) :=
  let base := env.block.header.number
  let newSize := ((base : Int) - n).emod (2 ^ 64) |>.toNat
  if newSize > 256 then .ub
  else
    let hashes := if cache.isEmpty then [env.block.header.parentHash] else cache
    let oldSize := hashes.length
    let resized := if oldSize < newSize then hashes ++ List.replicate (newSize - oldSize) zero32 else hashes
    let filled := fillHashes env.readHeader base (newSize - oldSize) oldSize resized
    if newSize = 0 then .ub else .ok (filled.getD (newSize - 1) zero32, filled)

/-- core/silkworm/execution/evm.cpp:482-498 (`EvmHost::call`): what is done with the result of `create`. -/
def stripOutput (r : Result) : Result := if r.status = .revert then r else { r with output := [] }

/-- The services of the host. `sub` is `EVM::create` or `EVM::call`. -/
def host (env : Env) (txn : Transaction) (sub : Message → Machine → Outcome Fault (Result × Machine)) (m : Machine) :
    (c : HostCall) → Outcome Fault (c.Answer × Machine)
  | .accountExists a => let r := accountExists env m.state a; .ok (r.1, { m with state := r.2 })
  | .accessAccount a => let r := accessAccount env m.state a; .ok (r.1, { m with state := r.2 })
  | .accessStorage a k => let r := m.state.accessStorage a k; .ok (r.1, { m with state := r.2 })
  | .getStorage a k => let r := getCurrentStorage env.db m.state a k; .ok (r.1, { m with state := r.2 })
  | .setStorage a k v => let r := setStorage env m.state a k v; .ok (r.1, { m with state := r.2 })
  | .getBalance a => let r := getBalance env.db m.state a; .ok (r.1, { m with state := r.2 })
  | .getCodeSize a => let r := getCode env.db m.state a; .ok (r.1.length, { m with state := r.2 })
  | .getCodeHash a => let r := getCodeHash env m.state a; .ok (r.1, { m with state := r.2 })
  | .copyCode a o n => let r := copyCode env m.state a o n; .ok (r.1, { m with state := r.2 })
  | .selfdestruct a b => .ok ((), { m with state := selfdestruct env m.state a b })
  | .call msg =>
    (sub msg m).bind fun r =>
      .ok (if msg.kind = .create ∨ msg.kind = .create2 then stripOutput r.1 else r.1, r.2)
  | .getTxContext => (lift (getTxContext env txn)).bind fun c => .ok (c, m)
  | .getBlockHash n =>
    (lift (getBlockHash env m.blockHashes n)).bind fun r => .ok (r.1, { m with blockHashes := r.2 })
  | .emitLog a d t => .ok ((), { m with state := m.state.addLog ⟨a, t, d⟩ })

/-- Run a program. -/
def runProgram (env : Env) (txn : Transaction) (sub : Message → Machine → Outcome Fault (Result × Machine)) :
    Program → Machine → Outcome Fault (Result × Machine)
  | .done r, m => .ok (r, m)
  | .ask c next, m => (host env txn sub m c).bind fun x => runProgram env txn sub (next x.1) x.2

/-! ## The EVM -/

/-- `address_stack_.pop()`. -/
def Machine.pop (m : Machine) : Outcome Fault Machine :=
  match m.addressStack with
  | [] => .ub
  | _ :: rest => .ok { m with addressStack := rest }

/-- core/silkworm/execution/evm.cpp:242-261 (`execute`). -/
def executeCode (env : Env) (txn : Transaction) (sub : Message → Machine → Outcome Fault (Result × Machine))
    (msg : Message) (code : Bytes) (m : Machine) : Outcome Fault (Result × Machine) :=
  (runProgram env txn sub (env.interpreter env.revision msg code)
      { m with addressStack := msg.destination :: m.addressStack }).bind fun r =>
    r.2.pop.bind fun m => .ok (r.1, m)

/-- core/silkworm/execution/evm.cpp:120-138: the deposit of the code. -/
def depositCode (env : Env) (address : Bytes) (r : Result) (s : IntraBlockState) : Result × IntraBlockState :=
  if r.status = .success then
    let cost : Nat := r.output.length * 200 % 2 ^ 64
    if env.revision ≥ Revision.london ∧ r.output.head? = some 0xEF then ({ r with status := .contractValidationFailure }, s)
    else if env.revision ≥ Revision.spuriousDragon ∧ r.output.length > 0x6000 then ({ r with status := .outOfGas }, s)
    else if r.gasLeft ≥ 0 ∧ r.gasLeft ≥ cost then
      ({ r with gasLeft := r.gasLeft - cost }, s.setCode env.crypto.keccak env.db address r.output)
    else if env.revision ≥ Revision.homestead then ({ r with status := .outOfGas }, s)
    else (r, s)
  else (r, s)

/-- core/silkworm/execution/evm.cpp:218-223, 143-148: a failure reverts, and takes all gas unless it is a `REVERT`. -/
def settle (snapshot : Snapshot) (r : Result) (s : IntraBlockState) : Result × IntraBlockState :=
  if r.status = .success then (r, s)
  else ((if r.status = .revert then r else { r with gasLeft := 0 }), s.revertToSnapshot snapshot)

/-- core/silkworm/execution/evm.cpp:97-106: what happens to the state before the code of a new contract runs. -/
def openContract (env : Env) (msg : Message) (address : Bytes) (s : IntraBlockState) : IntraBlockState :=
  let s := createContract env.db s address
  let s := if env.revision ≥ Revision.spuriousDragon then setNonce env.db s address 1 else s
  let s := subtractFromBalance env.db s msg.sender msg.value
  addToBalance env.db s address msg.value

/-- core/silkworm/execution/evm.cpp:108-118 (`deploy_message`). -/
def deployMessage (msg : Message) (address : Bytes) : Message :=
  { kind := .call, depth := msg.depth, gas := msg.gas, destination := address, sender := msg.sender, value := msg.value }

/-- core/silkworm/execution/evm.cpp:95-151: `create` after the checks. -/
def deploy (env : Env) (txn : Transaction) (sub : Message → Machine → Outcome Fault (Result × Machine))
    (msg : Message) (address : Bytes) (m : Machine) : Outcome Fault (Result × Machine) :=
  let snapshot := m.state.takeSnapshot
  (executeCode env txn sub (deployMessage msg address) msg.input
      { m with state := openContract env msg address m.state }).bind fun x =>
    let d := depositCode env address x.1 x.2.state
    let e := settle snapshot d.1 d.2
    .ok (if e.1.status = .success then { e.1 with createAddress := address } else e.1, { x.2 with state := e.2 })

/-- core/silkworm/execution/evm.cpp:69-152 (`create`). The second operand of `||` at line 91 is evaluated in any case,
which has no effect. -/
def create (env : Env) (txn : Transaction) (sub : Message → Machine → Outcome Fault (Result × Machine))
    (msg : Message) (m : Machine) : Outcome Fault (Result × Machine) :=
  let b := getBalance env.db m.state msg.sender
  if b.1 < msg.value then .ok (⟨.insufficientBalance, msg.gas, [], zeroAddress⟩, { m with state := b.2 })
  else
    let n := getNonce env.db b.2 msg.sender
    let s := setNonce env.db n.2 msg.sender ((n.1 + 1) % 2 ^ 64)
    let address := contractAddress env msg n.1
    let a := s.accessAccount address
    let n' := getNonce env.db a.2 address
    let h := IntraBlockState.getCodeHash env.db n'.2 address
    if n'.1 ≠ 0 ∨ h.1 ≠ kEmptyHash then .ok (⟨.invalidInstruction, 0, [], zeroAddress⟩, { m with state := h.2 })
    else deploy env txn sub msg address { m with state := h.2 }

/-- core/silkworm/execution/evm.cpp:228-240 (`recipient_of_call_message`). -/
def recipient (msg : Message) (stack : List Bytes) : Outcome Fault Bytes :=
  match msg.kind with
  | .callcode => .ok msg.sender
  | .delegatecall => match stack with | [] => .ub | top :: _ => .ok top
  | .call => .ok msg.destination
  | _ => .ub

/-- core/silkworm/execution/evm.cpp:178-187: the transfer of value. -/
def transfer (env : Env) (msg : Message) (recipient : Bytes) (s : IntraBlockState) : IntraBlockState :=
  if msg.kind = .call then
    if msg.isStatic then s.touch recipient
    else addToBalance env.db (subtractFromBalance env.db s msg.sender msg.value) recipient msg.value
  else s

/-- core/silkworm/execution/evm.cpp:190-203: a precompiled contract. -/
def runPrecompiled (env : Env) (msg : Message) : Outcome Empty Result :=
  let num := beToNat msg.destination % 256
  (Precompiled.gas num msg.input env.revision).bind fun g =>
    let gas := toInt64 g
    if gas < 0 ∨ gas > msg.gas then .ok ⟨.outOfGas, msg.gas, [], zeroAddress⟩
    else
      (Precompiled.run env.crypto num msg.input).bind fun output =>
        match output with
        | some out => .ok ⟨.success, msg.gas - gas, out, zeroAddress⟩
        | none => .ok ⟨.precompileFailure, msg.gas, [], zeroAddress⟩

/-- core/silkworm/execution/evm.cpp:204-216: the code at the destination, run for the recipient. -/
def runCode (env : Env) (txn : Transaction) (sub : Message → Machine → Outcome Fault (Result × Machine))
    (msg : Message) (recipient : Bytes) (m : Machine) : Outcome Fault (Result × Machine) :=
  let c := getCode env.db m.state msg.destination
  if c.1.isEmpty then .ok (⟨.success, msg.gas, [], zeroAddress⟩, { m with state := c.2 })
  else
    let h := IntraBlockState.getCodeHash env.db c.2 msg.destination
    executeCode env txn sub { msg with destination := recipient } c.1 { m with state := h.2 }

/-- core/silkworm/execution/evm.cpp:176-225: `call` after the checks. Without code it returns before line 218, where
nothing would happen. -/
def enter (env : Env) (txn : Transaction) (sub : Message → Machine → Outcome Fault (Result × Machine))
    (msg : Message) (recipient : Bytes) (m : Machine) : Outcome Fault (Result × Machine) :=
  let snapshot := m.state.takeSnapshot
  let m' := { m with state := transfer env msg recipient m.state }
  (if env.isPrecompiled msg.destination then (lift (runPrecompiled env msg)).bind fun r => .ok (r, m')
   else runCode env txn sub msg recipient m').bind fun x =>
    let e := settle snapshot x.1 x.2.state
    .ok (e.1, { x.2 with state := e.2 })

/-- core/silkworm/execution/evm.cpp:154-226 (`call`). -/
def call (env : Env) (txn : Transaction) (sub : Message → Machine → Outcome Fault (Result × Machine))
    (msg : Message) (m : Machine) : Outcome Fault (Result × Machine) :=
  let b := if msg.kind = .delegatecall then (msg.value, m.state) else getBalance env.db m.state msg.sender
  if msg.kind ≠ .delegatecall ∧ b.1 < msg.value then
    .ok (⟨.insufficientBalance, msg.gas, [], zeroAddress⟩, { m with state := b.2 })
  else
    (recipient msg m.addressStack).bind fun r =>
      if msg.value = 0 ∧ env.revision ≥ Revision.spuriousDragon ∧ env.isPrecompiled msg.destination = false then
        let e := exists? env.db b.2 msg.destination
        if e.1 = false then .ok (⟨.success, msg.gas, [], zeroAddress⟩, { m with state := e.2 })
        else enter env txn sub msg r { m with state := e.2 }
      else enter env txn sub msg r { m with state := b.2 }

/-- `create` or `call`, as at core/silkworm/execution/evm.cpp:64, 483-484, with messages nested at most `depth` deep. -/
def message (env : Env) (txn : Transaction) : Nat → Message → Machine → Outcome Fault (Result × Machine)
  | 0, _, _ => .err .tooDeep
  | depth + 1, msg, m =>
    if msg.kind = .create ∨ msg.kind = .create2 then create env txn (message env txn depth) msg m
    else call env txn (message env txn depth) msg m

/-- core/silkworm/execution/evm.cpp:52-62: the message of a transaction. -/
def transactionMessage (txn : Transaction) (sender : Bytes) (gas : Nat) : Message :=
  { kind := if txn.to.isSome then .call else .create
    gas := toInt64 gas
    destination := txn.to.getD zeroAddress
    sender := sender
    input := txn.data
    value := txn.value }

/-- core/silkworm/execution/evm.hpp:35-39. -/
structure CallResult where
  status : Status
  gasLeft : Nat
  data : Bytes
  deriving DecidableEq

/-- Nesting that is enough: transactions have depth 0, and interpreters do not send messages deeper than 1024. -/
def maxNesting : Nat := 1026

/-- core/silkworm/execution/evm.cpp:45-67 (`execute(txn, gas)`). -/
def execute (env : Env) (txn : Transaction) (gas : Nat) (m : Machine) : Outcome Fault (CallResult × Machine) :=
  match txn.sender with
  | none => .ub
  | some sender =>
    (message env txn maxNesting (transactionMessage txn sender gas) m).bind fun r =>
      .ok (⟨r.1.status, (r.1.gasLeft.emod (2 ^ 64)).toNat, r.1.output⟩, r.2)

end Silkworm.Evm
