import Verif.Chain.Blockchain
import Verif.Chain.Networks
import Verif.Chain.IntrinsicGas
import Verif.Common.Util

/-!
# Model of wasm/silkworm_wasm_api.{hpp,cpp}

The functions are called by a host, which has pointers only. Memory is a map from numbers of objects to objects; a pointer is null,
or refers to a member of an object at an offset, or to one of the constant configurations of the public networks. Using a pointer to
what is no longer there, or to an object of another type, is undefined. Numbers of objects are not used twice, so that a pointer to a
deleted object never refers to another one. The host can also read and write memory itself (`hostRead`, `hostWrite`).

Simplifications: `new` does not fail; the program goes on after the exception of `insert_block`.
-/

namespace Silkworm.Wasm

/-- What an object is. -/
inductive Object where
  /-- Memory of `malloc`; `none` is a byte that was not written. -/
  | buffer (cells : List (Option UInt8))
  | bytes (b : Bytes)
  | number (n : Nat)
  | config (c : ChainConfig)
  | transaction (t : Transaction)
  | account (a : Account)
  | block (b : Block)
  | state (m : MemoryBuffer)
  /-- core/silkworm/chain/blockchain.hpp:54-56: references to the state and to the configuration. -/
  | chain (state : Nat) (config : Nat ⊕ Nat) (bad : AMap Bytes ValidationError)

/-- What a pointer refers to within an object. -/
inductive Member where
  | whole
  /-- The characters of a string. -/
  | data
  | balance
  | codeHash
  | header
  | stateRoot
  /-- The address in `from`. -/
  | sender
  deriving DecidableEq

/-- A pointer. -/
inductive Pointer where
  | null
  /-- A constant configuration. -/
  | network (chainId : Nat)
  | to (id : Nat) (member : Member) (offset : Nat)
  deriving DecidableEq

/-- A pointer to an object. -/
def Pointer.object (id : Nat) : Pointer := .to id .whole 0

/-- The memory. -/
structure Heap where
  objects : AMap Nat Object := []
  next : Nat := 0

/-- What the functions depend on. -/
structure Env where
  keccak : Bytes → Bytes
  /-- `trie::root_hash` of the encoded transactions. -/
  listRoot : List Bytes → Bytes
  /-- The check of the proof of work. -/
  sealOk : BlockHeader → Bool
  /-- `ecdsa::recover`. -/
  recover : Bytes → Bytes → Bool → Option Bytes
  /-- `silkworm::execute_block`. -/
  execute : ChainConfig → MemoryBuffer → Block → Outcome ValidationError (List BufferCall)
  /-- `malloc` succeeds. -/
  memory : Bool

/-- What a `Blockchain` with this configuration depends on. -/
def Env.chain (e : Env) (c : ChainConfig) : ChainEnv :=
  { keccak := e.keccak, listRoot := e.listRoot, sealOk := e.sealOk, config := c,
    recoverSender := Transaction.recoverSender e.keccak e.recover, execute := e.execute c }

/-- What a function returns. -/
inductive Value where
  | unit
  | number (n : Nat)
  | flag (b : Bool)
  | pointer (p : Pointer)
  | bytes (b : Bytes)
  | verdict (r : InsertResult)
  deriving DecidableEq

/-! ## Memory -/

/-- The bytes of an `intx::uint256` in memory. -/
def numberBytes (n : Nat) : Bytes := (beFixed 32 n).reverse

/-- The number with these bytes. -/
def bytesNumber (b : Bytes) : Nat := beToNat b.reverse

/-- An array with `n` bytes: addresses and hashes have a fixed size. -/
def fixed (n : Nat) (b : Bytes) : Bytes := (b ++ List.replicate n 0).take n

/-- The bytes of a member that can be read. A string ends with a zero byte. -/
def Object.cells : Object → Member → List (Option UInt8)
  | .buffer cells, .whole => cells
  | .bytes b, .data => (b ++ [0]).map some
  | .number n, .whole => (numberBytes n).map some
  | .account a, .balance => (numberBytes a.balance).map some
  | .account a, .codeHash => (fixed 32 a.codeHash).map some
  | .block b, .stateRoot => (fixed 32 b.header.stateRoot).map some
  | .transaction t, .sender =>
    match t.sender with
    | none => []
    | some s => (fixed 20 s).map some
  | _, _ => []

/-- Bytes put in place of others. -/
def overwrite {α : Type} (l : List α) (offset : Nat) (w : List α) : List α := l.take offset ++ w ++ l.drop (offset + w.length)

/-- The object after bytes of a member were written, if all of them belong to it. -/
def Object.store (o : Object) (m : Member) (offset : Nat) (w : Bytes) : Option Object :=
  match o, m with
  | .buffer cells, .whole => if offset + w.length ≤ cells.length then some (.buffer (overwrite cells offset (w.map some))) else none
  | .bytes b, .data => if offset + w.length ≤ b.length then some (.bytes (overwrite b offset w)) else none
  | .number n, .whole =>
    if offset + w.length ≤ 32 then some (.number (bytesNumber (overwrite (numberBytes n) offset w))) else none
  | .account a, .balance =>
    if offset + w.length ≤ 32 then some (.account { a with balance := bytesNumber (overwrite (numberBytes a.balance) offset w) })
    else none
  | .account a, .codeHash =>
    if offset + w.length ≤ 32 then some (.account { a with codeHash := overwrite (fixed 32 a.codeHash) offset w }) else none
  | .block b, .stateRoot =>
    if offset + w.length ≤ 32 then
      some (.block { b with header := { b.header with stateRoot := overwrite (fixed 32 b.header.stateRoot) offset w } })
    else none
  | .transaction t, .sender =>
    match t.sender with
    | none => none
    | some s => if offset + w.length ≤ 20 then some (.transaction { t with sender := some (overwrite (fixed 20 s) offset w) }) else none
  | _, _ => none

/-- The values of bytes that were all written. -/
def definedBytes : List (Option UInt8) → Option Bytes
  | [] => some []
  | none :: _ => none
  | some b :: l => (definedBytes l).map (b :: ·)

namespace Heap

/-- A new object. -/
def alloc (h : Heap) (o : Object) : Heap × Pointer :=
  ({ objects := h.objects.set h.next o, next := h.next + 1 }, .object h.next)

/-- The object at a pointer. -/
def object (h : Heap) : Pointer → Option Object
  | .to id .whole 0 => h.objects.get? id
  | _ => none

/-- `delete` and `free`: nothing happens to null. -/
def release (h : Heap) (p : Pointer) (kind : Object → Bool) : Outcome Empty Heap :=
  match p with
  | .null => .ok h
  | .to id .whole 0 =>
    match h.objects.get? id with
    | some o => if kind o then .ok { h with objects := h.objects.erase id } else .ub
    | none => .ub
  | _ => .ub

/-- `n` bytes from a pointer on. -/
def read (h : Heap) (p : Pointer) (n : Nat) : Outcome Empty Bytes :=
  match p with
  | .to id m offset =>
    match h.objects.get? id with
    | none => .ub
    | some o =>
      if offset + n ≤ (o.cells m).length then
        match definedBytes (((o.cells m).drop offset).take n) with
        | some b => .ok b
        | none => .ub
      else .ub
  | _ => .ub

/-- Bytes are written from a pointer on. -/
def write (h : Heap) (p : Pointer) (w : Bytes) : Outcome Empty Heap :=
  match p with
  | .to id m offset =>
    match h.objects.get? id with
    | none => .ub
    | some o =>
      match o.store m offset w with
      | some o => .ok { h with objects := h.objects.set id o }
      | none => .ub
  | _ => .ub

/-- `*p` for `Bytes*`, and so on. -/
def bytes (h : Heap) (p : Pointer) : Outcome Empty Bytes :=
  match h.object p with
  | some (.bytes b) => .ok b
  | _ => .ub

/-- An `intx::uint256`, which can be the balance of an account. -/
def number (h : Heap) (p : Pointer) : Outcome Empty Nat :=
  match p with
  | .to id .whole 0 =>
    match h.objects.get? id with
    | some (.number n) => .ok n
    | _ => .ub
  | .to id .balance 0 =>
    match h.objects.get? id with
    | some (.account a) => .ok a.balance
    | _ => .ub
  | _ => .ub

/-- `*p = n` -/
def setNumber (h : Heap) (p : Pointer) (n : Nat) : Outcome Empty Heap :=
  match p with
  | .to id .whole 0 =>
    match h.objects.get? id with
    | some (.number _) => .ok { h with objects := h.objects.set id (.number n) }
    | _ => .ub
  | .to id .balance 0 =>
    match h.objects.get? id with
    | some (.account a) => .ok { h with objects := h.objects.set id (.account { a with balance := n }) }
    | _ => .ub
  | _ => .ub

/-- A configuration of the host or a constant one. -/
def config (h : Heap) (p : Pointer) : Outcome Empty ChainConfig :=
  match p with
  | .network id =>
    match lookupChainConfig id with
    | some c => .ok c
    | none => .ub
  | .to id .whole 0 =>
    match h.objects.get? id with
    | some (.config c) => .ok c
    | _ => .ub
  | _ => .ub

/-- A configuration is changed. The constant ones cannot be. -/
def setConfig (h : Heap) (p : Pointer) (f : ChainConfig → ChainConfig) : Outcome Empty Heap :=
  match p with
  | .to id .whole 0 =>
    match h.objects.get? id with
    | some (.config c) => .ok { h with objects := h.objects.set id (.config (f c)) }
    | _ => .ub
  | _ => .ub

def transaction (h : Heap) (p : Pointer) : Outcome Empty (Nat × Transaction) :=
  match p with
  | .to id .whole 0 =>
    match h.objects.get? id with
    | some (.transaction t) => .ok (id, t)
    | _ => .ub
  | _ => .ub

def account (h : Heap) (p : Pointer) : Outcome Empty (Nat × Account) :=
  match p with
  | .to id .whole 0 =>
    match h.objects.get? id with
    | some (.account a) => .ok (id, a)
    | _ => .ub
  | _ => .ub

def block (h : Heap) (p : Pointer) : Outcome Empty (Nat × Block) :=
  match p with
  | .to id .whole 0 =>
    match h.objects.get? id with
    | some (.block b) => .ok (id, b)
    | _ => .ub
  | _ => .ub

/-- A `BlockHeader*`, which is within a block. -/
def header (h : Heap) (p : Pointer) : Outcome Empty (Nat × BlockHeader) :=
  match p with
  | .to id .header 0 =>
    match h.objects.get? id with
    | some (.block b) => .ok (id, b.header)
    | _ => .ub
  | _ => .ub

def state (h : Heap) (p : Pointer) : Outcome Empty (Nat × MemoryBuffer) :=
  match p with
  | .to id .whole 0 =>
    match h.objects.get? id with
    | some (.state m) => .ok (id, m)
    | _ => .ub
  | _ => .ub

/-- An account or null. -/
def accountOrNull (h : Heap) (p : Pointer) : Outcome Empty (Option Account) :=
  match p with
  | .null => .ok none
  | p => do
    let a ← h.account p
    .ok (some a.2)

/-- A number or null. -/
def numberOrNull (h : Heap) (p : Pointer) : Outcome Empty (Option Nat) :=
  match p with
  | .null => .ok none
  | p => do
    let n ← h.number p
    .ok (some n)

/-- An object is given another value. -/
def put (h : Heap) (id : Nat) (o : Object) : Heap := { h with objects := h.objects.set id o }

end Heap

/-! ## The functions -/

/-- What can be referred to as a configuration: a constant one, or an object. -/
def configRef : Pointer → Nat ⊕ Nat
  | .network id => .inl id
  | .to id _ _ => .inr id
  | .null => .inr 0

/-- The pointer that the reference stands for. -/
def refPointer : Nat ⊕ Nat → Pointer
  | .inl id => .network id
  | .inr id => .object id

/-- silkworm_wasm_api.cpp:25 (`new_buffer`). -/
def newBuffer (e : Env) (h : Heap) (size : Nat) : Heap × Pointer :=
  if e.memory then h.alloc (.buffer (List.replicate size none)) else (h, .null)

/-- silkworm_wasm_api.cpp:31-39 (`new_bytes_from_hex`). -/
def newBytesFromHex (h : Heap) (data : Pointer) (size : Nat) : Outcome Empty (Heap × Pointer) := do
  let text ← h.read data size
  match fromHex text with
  | none => .ok (h, .null)
  | some b => .ok (h.alloc (.bytes b))

/-- silkworm_wasm_api.cpp:47 (`new_uint256_le`). -/
def uint256Le (a b c d : Nat) : Nat := a + b * 2 ^ 64 + c * 2 ^ 128 + d * 2 ^ 192

/-- silkworm_wasm_api.cpp:51 (`lookup_config`). -/
def lookupConfig (chainId : Nat) : Pointer :=
  match lookupChainConfig chainId with
  | some c => .network c.chainId
  | none => .null

/-- silkworm_wasm_api.cpp:61-63 (`config_set_fork_block`): an array with ten elements is written to (config.cpp:107-111). -/
def setForkBlock (h : Heap) (config : Pointer) (fork block : Nat) : Outcome Empty Heap :=
  if fork ≤ 10 then h.setConfig config (·.setRevisionBlock fork (some block)) else .ub

/-- silkworm_wasm_api.cpp:69-73 (`difficulty`). -/
def difficulty (h : Heap) (inOut : Pointer) (number timestamp parentTimestamp : Nat) (parentHasUncles : Bool) (config : Pointer) :
    Outcome Empty Heap := do
  let d ← h.number inOut
  let c ← h.config config
  h.setNumber inOut (canonicalDifficulty number timestamp d parentTimestamp parentHasUncles c)

/-- silkworm_wasm_api.cpp:75-84 (`new_transaction`): an object is made, and deleted after a failure. -/
def newTransaction (h : Heap) (rlp : Pointer) : Outcome Empty (Heap × Pointer) := do
  let b ← h.bytes rlp
  match Rlp.decodeTransaction b with
  | .ub => .ub
  | .err _ => .ok ({ (h.alloc (.transaction {})).1 with objects := (h.alloc (.transaction {})).1.objects.erase h.next }, .null)
  | .ok (t, rest) =>
    if rest = [] then .ok (h.alloc (.transaction t))
    else .ok ({ (h.alloc (.transaction t)).1 with objects := (h.alloc (.transaction t)).1.objects.erase h.next }, .null)

/-- silkworm_wasm_api.cpp:88-91 (`check_intrinsic_gas`). -/
def checkIntrinsicGas (h : Heap) (txn : Pointer) (homestead istanbul : Bool) : Outcome Empty Bool := do
  let t ← h.transaction txn
  .ok (decide (intrinsicGas t.2 homestead istanbul ≤ t.2.gasLimit))

/-- silkworm_wasm_api.cpp:93-96 (`recover_sender`). -/
def recoverSender (e : Env) (h : Heap) (txn : Pointer) : Outcome Empty (Heap × Pointer) := do
  let t ← h.transaction txn
  let r := t.2.recoverSender e.keccak e.recover
  .ok (h.put t.1 (.transaction r), if r.sender.isSome then .to t.1 .sender 0 else .null)

/-- silkworm_wasm_api.cpp:98-101 (`keccak256`). -/
def keccak256 (e : Env) (h : Heap) (out input : Pointer) : Outcome Empty Heap := do
  let b ← h.bytes input
  h.write out (fixed 32 (e.keccak b))

/-- silkworm_wasm_api.cpp:103-110 (`new_account`). -/
def newAccount (h : Heap) (nonce : Nat) (balance : Pointer) : Outcome Empty (Heap × Pointer) := do
  let b ← h.numberOrNull balance
  .ok (h.alloc (.account { nonce := nonce, balance := b.getD 0 }))

/-- silkworm_wasm_api.cpp:120-129 (`new_block`): an object is made, and deleted after a failure. -/
def newBlock (h : Heap) (rlp : Pointer) : Outcome Empty (Heap × Pointer) := do
  let b ← h.bytes rlp
  match Rlp.decodeBlock b with
  | .ub => .ub
  | .err _ => .ok ({ (h.alloc (.block {})).1 with objects := (h.alloc (.block {})).1.objects.erase h.next }, .null)
  | .ok (x, rest) =>
    if rest = [] then .ok (h.alloc (.block x))
    else .ok ({ (h.alloc (.block x)).1 with objects := (h.alloc (.block x)).1.objects.erase h.next }, .null)

/-- silkworm_wasm_api.cpp:139 (`block_recover_senders`). -/
def blockRecoverSenders (e : Env) (h : Heap) (block : Pointer) : Outcome Empty Heap := do
  let b ← h.block block
  .ok (h.put b.1 (.block (Blockchain.recoverSenders (e.chain {}) b.2)))

/-- silkworm_wasm_api.cpp:145-150 (`state_root_hash_new`): without memory, null is written to. -/
def stateRootHash (e : Env) (h : Heap) (state : Pointer) : Outcome Empty (Heap × Pointer) := do
  let m ← h.state state
  let root ← Trie.stateRootHash e.keccak m.2
  let p := newBuffer e h 32
  let h ← p.1.write p.2 (fixed 32 root)
  .ok (h, p.2)

/-- silkworm_wasm_api.cpp:152 (`address_from_ptr`). -/
def addressAt (h : Heap) (p : Pointer) : Outcome Empty Bytes := do
  let b ← h.read p 20
  .ok (toAddress b)

/-- silkworm_wasm_api.cpp:154 (`bytes32_from_ptr`). -/
def bytes32At (h : Heap) (p : Pointer) : Outcome Empty Bytes := do
  let b ← h.read p 32
  .ok (toBytes32 b)

/-- silkworm_wasm_api.cpp:158-160 (`state_storage_size`). -/
def storageSize (h : Heap) (state address account : Pointer) : Outcome Empty Nat := do
  let m ← h.state state
  let a ← addressAt h address
  let x ← h.account account
  .ok (m.2.storageSize a x.2.incarnation)

/-- silkworm_wasm_api.cpp:162-171 (`state_read_account_new`). -/
def readAccount (h : Heap) (state address : Pointer) : Outcome Empty (Heap × Pointer) := do
  let m ← h.state state
  let a ← addressAt h address
  match m.2.readAccount a with
  | none => .ok (h, .null)
  | some x => .ok (h.alloc (.account x))

/-- silkworm_wasm_api.cpp:173-177 (`state_read_code_new`). -/
def readCode (h : Heap) (state codeHash : Pointer) : Outcome Empty (Heap × Pointer) := do
  let m ← h.state state
  let c ← bytes32At h codeHash
  .ok (h.alloc (.bytes (m.2.readCode c)))

/-- silkworm_wasm_api.cpp:179-185 (`state_read_storage_new`). -/
def readStorage (h : Heap) (state address account location : Pointer) : Outcome Empty (Heap × Pointer) := do
  let m ← h.state state
  let a ← addressAt h address
  let x ← h.account account
  let l ← h.bytes location
  .ok (h.alloc (.bytes (zerolessView (m.2.readStorage a x.2.incarnation (toBytes32 l)))))

/-- silkworm_wasm_api.cpp:187-193 (`state_update_account`): the initial value is always said to be none. -/
def updateAccount (h : Heap) (state address current : Pointer) : Outcome Empty Heap := do
  let m ← h.state state
  let a ← addressAt h address
  let x ← h.accountOrNull current
  .ok (h.put m.1 (.state (m.2.updateAccount a none x)))

/-- silkworm_wasm_api.cpp:195-197 (`state_update_code`). -/
def updateCode (h : Heap) (state address account code : Pointer) : Outcome Empty Heap := do
  let m ← h.state state
  let _ ← addressAt h address
  let x ← h.account account
  let c ← h.bytes code
  .ok (h.put m.1 (.state (m.2.updateAccountCode x.2.codeHash c)))

/-- silkworm_wasm_api.cpp:199-203 (`state_update_storage`): the initial value is always said to be zero. -/
def updateStorage (h : Heap) (state address account location value : Pointer) : Outcome Empty Heap := do
  let m ← h.state state
  let a ← addressAt h address
  let x ← h.account account
  let l ← h.bytes location
  let v ← h.bytes value
  .ok (h.put m.1 (.state (m.2.updateStorage a x.2.incarnation (toBytes32 l) zero32 (toBytes32 v))))

/-- silkworm_wasm_api.cpp:205-207 (`new_blockchain`). With the number `2^64 - 1` the vectors of the state are resized to no elements
(core/silkworm/state/memory_buffer.cpp:122-128), and what is not there is written to. -/
def newBlockchain (e : Env) (h : Heap) (state config genesis : Pointer) : Outcome Empty (Heap × Pointer) := do
  let m ← h.state state
  let c ← h.config config
  let g ← h.block genesis
  if g.2.header.number < 2 ^ 64 - 1 then
    .ok ((h.put m.1 (.state (Blockchain.new (e.chain c) m.2 g.2).state)).alloc (.chain m.1 (configRef config) []))
  else .ub

/-- The `Blockchain` at a pointer: its number, and the references. -/
def Heap.chain (h : Heap) (p : Pointer) : Outcome Empty (Nat × Nat × (Nat ⊕ Nat) × AMap Bytes ValidationError) :=
  match p with
  | .to id .whole 0 =>
    match h.objects.get? id with
    | some (.chain s c bad) => .ok (id, s, c, bad)
    | _ => .ub
  | _ => .ub

/-- The block after `insert_block` (core/silkworm/chain/blockchain.cpp:32-46): its senders are recovered unless it is refused before. -/
def insertedBlock (env : ChainEnv) (c : Blockchain) (block : Block) : Block :=
  match preValidateBlock env.keccak env.listRoot env.sealOk block c.state.headerStore env.config with
  | .ok () =>
    match c.badBlocks.get? (block.header.hash env.keccak) with
    | some _ => block
    | none => Blockchain.recoverSenders env block
  | _ => block

/-- silkworm_wasm_api.cpp:211-213 (`blockchain_insert_block`). -/
def insertBlock (e : Env) (h : Heap) (chain block : Pointer) (check : Bool) : Outcome Empty (Heap × InsertResult) := do
  let x ← h.chain chain
  let m ← h.state (.object x.2.1)
  let c ← h.config (refPointer x.2.2.1)
  let b ← h.block block
  let r ← Blockchain.insertBlock (e.chain c) ⟨m.2, x.2.2.2⟩ b.2 check
  .ok ((((h.put b.1 (.block (insertedBlock (e.chain c) ⟨m.2, x.2.2.2⟩ b.2))).put m.1 (.state r.1.state)).put x.1
    (.chain x.2.1 x.2.2.1 r.1.badBlocks)), r.2)

/-- A call by the host. -/
inductive Call where
  /-- Memory is read by the host itself. -/
  | hostRead (p : Pointer) (n : Nat)
  /-- Memory is written by the host itself. -/
  | hostWrite (p : Pointer) (w : Bytes)
  | newBuffer (size : Nat)
  | deleteBuffer (p : Pointer)
  | newBytesFromHex (data : Pointer) (size : Nat)
  | deleteBytes (p : Pointer)
  | bytesData (p : Pointer)
  | bytesLength (p : Pointer)
  | newUint256 (a b c d : Nat)
  | deleteUint256 (p : Pointer)
  | lookupConfig (chainId : Nat)
  | newConfig (chainId : Nat)
  | deleteConfig (p : Pointer)
  | setForkBlock (p : Pointer) (fork block : Nat)
  | setMuirGlacier (p : Pointer) (block : Nat)
  | setDao (p : Pointer) (block : Nat)
  | difficulty (inOut : Pointer) (number timestamp parentTimestamp : Nat) (parentHasUncles : Bool) (config : Pointer)
  | newTransaction (rlp : Pointer)
  | deleteTransaction (p : Pointer)
  | checkIntrinsicGas (txn : Pointer) (homestead istanbul : Bool)
  | recoverSender (txn : Pointer)
  | keccak256 (out input : Pointer)
  | newAccount (nonce : Nat) (balance : Pointer)
  | deleteAccount (p : Pointer)
  | accountNonce (p : Pointer)
  | accountBalance (p : Pointer)
  | accountCodeHash (p : Pointer)
  | newBlock (rlp : Pointer)
  | deleteBlock (p : Pointer)
  | blockHeader (p : Pointer)
  | headerNumber (p : Pointer)
  | headerStateRoot (p : Pointer)
  | blockRecoverSenders (p : Pointer)
  | newState
  | deleteState (p : Pointer)
  | stateRootHash (state : Pointer)
  | numberOfAccounts (state : Pointer)
  | storageSize (state address account : Pointer)
  | readAccount (state address : Pointer)
  | readCode (state codeHash : Pointer)
  | readStorage (state address account location : Pointer)
  | updateAccount (state address current : Pointer)
  | updateCode (state address account code : Pointer)
  | updateStorage (state address account location value : Pointer)
  | newBlockchain (state config genesis : Pointer)
  | deleteBlockchain (p : Pointer)
  | insertBlock (chain block : Pointer) (check : Bool)

/-- A function that gives a pointer. -/
def givesPointer (r : Outcome Empty (Heap × Pointer)) : Outcome Empty (Heap × Value) := do
  let r ← r
  .ok (r.1, .pointer r.2)

/-- A function that gives nothing. -/
def givesNothing (r : Outcome Empty Heap) : Outcome Empty (Heap × Value) := do
  let h ← r
  .ok (h, .unit)

/-- silkworm_wasm_api.cpp:25-213: the functions by their calls. -/
def step (e : Env) (h : Heap) : Call → Outcome Empty (Heap × Value)
  | .hostRead p n => do
    let b ← h.read p n
    .ok (h, .bytes b)
  | .hostWrite p w => givesNothing (h.write p w)
  | .newBuffer size => givesPointer (.ok (newBuffer e h size))
  -- silkworm_wasm_api.cpp:27
  | .deleteBuffer p => givesNothing (h.release p fun o => o matches .buffer _)
  | .newBytesFromHex data size => givesPointer (newBytesFromHex h data size)
  -- silkworm_wasm_api.cpp:41
  | .deleteBytes p => givesNothing (h.release p fun o => o matches .bytes _)
  -- silkworm_wasm_api.cpp:43
  | .bytesData p =>
    match p with
    | .to id .whole 0 => do
      let _ ← h.bytes p
      .ok (h, .pointer (.to id .data 0))
    | _ => .ub
  -- silkworm_wasm_api.cpp:45
  | .bytesLength p => do
    let b ← h.bytes p
    .ok (h, .number b.length)
  -- silkworm_wasm_api.cpp:47
  | .newUint256 a b c d => givesPointer (.ok (h.alloc (.number (uint256Le a b c d))))
  -- silkworm_wasm_api.cpp:49
  | .deleteUint256 p => givesNothing (h.release p fun o => o matches .number _)
  | .lookupConfig id => .ok (h, .pointer (lookupConfig id))
  -- silkworm_wasm_api.cpp:53-57
  | .newConfig id => givesPointer (.ok (h.alloc (.config { chainId := id })))
  -- silkworm_wasm_api.cpp:59
  | .deleteConfig p => givesNothing (h.release p fun o => o matches .config _)
  | .setForkBlock p fork block => givesNothing (setForkBlock h p fork block)
  -- silkworm_wasm_api.cpp:65
  | .setMuirGlacier p block => givesNothing (h.setConfig p fun c => { c with muirGlacierBlock := some block })
  -- silkworm_wasm_api.cpp:67
  | .setDao p block => givesNothing (h.setConfig p fun c => { c with daoBlock := some block })
  | .difficulty inOut number timestamp parentTimestamp uncles config =>
    givesNothing (difficulty h inOut number timestamp parentTimestamp uncles config)
  | .newTransaction rlp => givesPointer (newTransaction h rlp)
  -- silkworm_wasm_api.cpp:86
  | .deleteTransaction p => givesNothing (h.release p fun o => o matches .transaction _)
  | .checkIntrinsicGas txn homestead istanbul => do
    let b ← checkIntrinsicGas h txn homestead istanbul
    .ok (h, .flag b)
  | .recoverSender txn => givesPointer (recoverSender e h txn)
  | .keccak256 out input => givesNothing (keccak256 e h out input)
  | .newAccount nonce balance => givesPointer (newAccount h nonce balance)
  -- silkworm_wasm_api.cpp:112
  | .deleteAccount p => givesNothing (h.release p fun o => o matches .account _)
  -- silkworm_wasm_api.cpp:114
  | .accountNonce p => do
    let a ← h.account p
    .ok (h, .number a.2.nonce)
  -- silkworm_wasm_api.cpp:116
  | .accountBalance p => do
    let a ← h.account p
    .ok (h, .pointer (.to a.1 .balance 0))
  -- silkworm_wasm_api.cpp:118
  | .accountCodeHash p => do
    let a ← h.account p
    .ok (h, .pointer (.to a.1 .codeHash 0))
  | .newBlock rlp => givesPointer (newBlock h rlp)
  -- silkworm_wasm_api.cpp:131
  | .deleteBlock p => givesNothing (h.release p fun o => o matches .block _)
  -- silkworm_wasm_api.cpp:133
  | .blockHeader p => do
    let b ← h.block p
    .ok (h, .pointer (.to b.1 .header 0))
  -- silkworm_wasm_api.cpp:135
  | .headerNumber p => do
    let x ← h.header p
    .ok (h, .number x.2.number)
  -- silkworm_wasm_api.cpp:137
  | .headerStateRoot p => do
    let x ← h.header p
    .ok (h, .pointer (.to x.1 .stateRoot 0))
  | .blockRecoverSenders p => givesNothing (blockRecoverSenders e h p)
  -- silkworm_wasm_api.cpp:141
  | .newState => givesPointer (.ok (h.alloc (.state {})))
  -- silkworm_wasm_api.cpp:143
  | .deleteState p => givesNothing (h.release p fun o => o matches .state _)
  | .stateRootHash state => givesPointer (stateRootHash e h state)
  -- silkworm_wasm_api.cpp:156
  | .numberOfAccounts state => do
    let m ← h.state state
    .ok (h, .number m.2.numberOfAccounts)
  | .storageSize state address account => do
    let n ← storageSize h state address account
    .ok (h, .number n)
  | .readAccount state address => givesPointer (readAccount h state address)
  | .readCode state codeHash => givesPointer (readCode h state codeHash)
  | .readStorage state address account location => givesPointer (readStorage h state address account location)
  | .updateAccount state address current => givesNothing (updateAccount h state address current)
  | .updateCode state address account code => givesNothing (updateCode h state address account code)
  | .updateStorage state address account location value => givesNothing (updateStorage h state address account location value)
  | .newBlockchain state config genesis => givesPointer (newBlockchain e h state config genesis)
  -- silkworm_wasm_api.cpp:209
  | .deleteBlockchain p => givesNothing (h.release p fun o => o matches .chain ..)
  | .insertBlock chain block check => do
    let r ← insertBlock e h chain block check
    .ok (r.1, .verdict r.2)

/-- Calls one after the other. The host can make each depend on what was returned before. -/
def session (e : Env) : Heap → List Call → Outcome Empty (Heap × List Value)
  | h, [] => .ok (h, [])
  | h, c :: rest => do
    let r ← step e h c
    let s ← session e r.1 rest
    .ok (s.1, r.2 :: s.2)

end Silkworm.Wasm
