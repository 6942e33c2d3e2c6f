import Verif.Wasm.Api

/-!
# The rules a host of the WebAssembly functions has to keep

What the host knows about memory is a ledger: which objects there are and what they are. It follows from the calls made and the values
returned. The rules say which calls may be made. Only the types of calls, pointers and returned values are taken from the model.
-/

namespace Silkworm.Spec.Wasm

open Silkworm.Wasm (Pointer Member Call Value)

/-- What is known about an object. -/
inductive Kind where
  /-- Which bytes were written. -/
  | buffer (written : List Bool)
  /-- The length, once the host has asked for it. -/
  | bytes (length : Option Nat)
  | number
  | config
  /-- Whether the sender was recovered. -/
  | transaction (sender : Bool)
  | account
  | block
  | state
  /-- The objects it refers to. -/
  | chain (state : Nat) (config : Nat ⊕ Nat)

/-- The objects there are. -/
abbrev Ledger := Nat → Option Kind

namespace Ledger

/-- Before the first call. -/
def empty : Ledger := fun _ => none

def set (L : Ledger) (id : Nat) (k : Kind) : Ledger := fun i => if i = id then some k else L i

def remove (L : Ledger) (id : Nat) : Ledger := fun i => if i = id then none else L i

/-- The pointer is what a constructor gave for an object of this kind. -/
def isObject (L : Ledger) (p : Pointer) (kind : Kind → Bool) : Prop :=
  ∃ id k, p = .to id .whole 0 ∧ L id = some k ∧ kind k = true

/-- May be deleted. -/
def owned (L : Ledger) (p : Pointer) (kind : Kind → Bool) : Prop := p = .null ∨ L.isObject p kind

/-- A `uint256`: an object or the balance of an account. -/
def isNumber (L : Ledger) (p : Pointer) : Prop :=
  L.isObject p (fun k => k matches .number) ∨ ∃ id, p = .to id .balance 0 ∧ L id = some .account

/-- A public network or a configuration of the host. -/
def isConfig (L : Ledger) (p : Pointer) : Prop :=
  (∃ id, p = .network id ∧ id ∈ [1, 3, 4, 5]) ∨ L.isObject p (fun k => k matches .config)

/-- The configuration a chain refers to is still there. -/
def configThere (L : Ledger) : Nat ⊕ Nat → Prop
  | .inl id => id ∈ [1, 3, 4, 5]
  | .inr id => L id = some .config

/-- A header within a block. -/
def isHeader (L : Ledger) (p : Pointer) : Prop := ∃ id, p = .to id .header 0 ∧ L id = some .block

/-- The number of bytes the host may write at a pointer to a member of an object of this kind. -/
def room : Kind → Member → Option Nat
  | .buffer written, .whole => some written.length
  | .bytes (some n), .data => some n
  | .number, .whole => some 32
  | .account, .balance => some 32
  | .account, .codeHash => some 32
  | .block, .stateRoot => some 32
  | .transaction true, .sender => some 20
  | _, _ => none

/-- `n` bytes may be written. -/
def writable (L : Ledger) (p : Pointer) (n : Nat) : Prop :=
  ∃ id m offset k size, p = .to id m offset ∧ L id = some k ∧ room k m = some size ∧ offset + n ≤ size

/-- `n` bytes may be read: of a buffer only what was written; of a string also the zero at the end. -/
def readable (L : Ledger) (p : Pointer) (n : Nat) : Prop :=
  ∃ id m offset k, p = .to id m offset ∧ L id = some k ∧
    match k, m with
    | .buffer written, .whole => offset + n ≤ written.length ∧ ∀ i, offset ≤ i → i < offset + n → written[i]? = some true
    | .bytes (some size), .data => offset + n ≤ size + 1
    | k, m => ∃ size, room k m = some size ∧ offset + n ≤ size

/-- Bytes of a buffer are written. -/
def write (L : Ledger) (p : Pointer) (n : Nat) : Ledger :=
  match p with
  | .to id .whole offset =>
    match L id with
    | some (.buffer written) =>
      L.set id (.buffer (written.take offset ++ List.replicate n true ++ written.drop (offset + n)))
    | _ => L
  | _ => L

/-- The object that a constructor made, unless it gave null. -/
def add (L : Ledger) (v : Value) (k : Kind) : Ledger :=
  match v with
  | .pointer (.to id _ _) => L.set id k
  | _ => L

/-- The object is gone. -/
def drop (L : Ledger) (p : Pointer) : Ledger :=
  match p with
  | .to id _ _ => L.remove id
  | _ => L

end Ledger

/-- The calls that may be made. -/
def Allowed (L : Ledger) : Call → Prop
  | .hostRead p n => L.readable p n
  | .hostWrite p w => L.writable p w.length
  | .newBuffer _ => True
  | .deleteBuffer p => L.owned p (fun k => k matches .buffer _)
  | .newBytesFromHex data size => L.readable data size
  | .deleteBytes p => L.owned p (fun k => k matches .bytes _)
  | .bytesData p => L.isObject p (fun k => k matches .bytes _)
  | .bytesLength p => L.isObject p (fun k => k matches .bytes _)
  | .newUint256 _ _ _ _ => True
  | .deleteUint256 p => L.owned p (fun k => k matches .number)
  | .lookupConfig _ => True
  | .newConfig _ => True
  | .deleteConfig p => L.owned p (fun k => k matches .config)
  | .setForkBlock p fork _ => L.isObject p (fun k => k matches .config) ∧ fork ≤ 10
  | .setMuirGlacier p _ => L.isObject p (fun k => k matches .config)
  | .setDao p _ => L.isObject p (fun k => k matches .config)
  | .difficulty inOut _ _ _ _ config => L.isNumber inOut ∧ L.isConfig config
  | .newTransaction rlp => L.isObject rlp (fun k => k matches .bytes _)
  | .deleteTransaction p => L.owned p (fun k => k matches .transaction _)
  | .checkIntrinsicGas txn _ _ => L.isObject txn (fun k => k matches .transaction _)
  | .recoverSender txn => L.isObject txn (fun k => k matches .transaction _)
  | .keccak256 out input => L.isObject input (fun k => k matches .bytes _) ∧ L.writable out 32
  | .newAccount _ balance => balance = .null ∨ L.isNumber balance
  | .deleteAccount p => L.owned p (fun k => k matches .account)
  | .accountNonce p => L.isObject p (fun k => k matches .account)
  | .accountBalance p => L.isObject p (fun k => k matches .account)
  | .accountCodeHash p => L.isObject p (fun k => k matches .account)
  | .newBlock rlp => L.isObject rlp (fun k => k matches .bytes _)
  | .deleteBlock p => L.owned p (fun k => k matches .block)
  | .blockHeader p => L.isObject p (fun k => k matches .block)
  | .headerNumber p => L.isHeader p
  | .headerStateRoot p => L.isHeader p
  | .blockRecoverSenders p => L.isObject p (fun k => k matches .block)
  | .newState => True
  | .deleteState p => L.owned p (fun k => k matches .state)
  | .stateRootHash s => L.isObject s (fun k => k matches .state)
  | .numberOfAccounts s => L.isObject s (fun k => k matches .state)
  | .storageSize s address account =>
    L.isObject s (fun k => k matches .state) ∧ L.readable address 20 ∧ L.isObject account (fun k => k matches .account)
  | .readAccount s address => L.isObject s (fun k => k matches .state) ∧ L.readable address 20
  | .readCode s codeHash => L.isObject s (fun k => k matches .state) ∧ L.readable codeHash 32
  | .readStorage s address account location =>
    L.isObject s (fun k => k matches .state) ∧ L.readable address 20 ∧ L.isObject account (fun k => k matches .account) ∧
      L.isObject location (fun k => k matches .bytes _)
  | .updateAccount s address current =>
    L.isObject s (fun k => k matches .state) ∧ L.readable address 20 ∧
      (current = .null ∨ L.isObject current (fun k => k matches .account))
  | .updateCode s address account code =>
    L.isObject s (fun k => k matches .state) ∧ L.readable address 20 ∧ L.isObject account (fun k => k matches .account) ∧
      L.isObject code (fun k => k matches .bytes _)
  | .updateStorage s address account location value =>
    L.isObject s (fun k => k matches .state) ∧ L.readable address 20 ∧ L.isObject account (fun k => k matches .account) ∧
      L.isObject location (fun k => k matches .bytes _) ∧ L.isObject value (fun k => k matches .bytes _)
  | .newBlockchain s config genesis =>
    L.isObject s (fun k => k matches .state) ∧ L.isConfig config ∧ L.isObject genesis (fun k => k matches .block)
  | .deleteBlockchain p => L.owned p (fun k => k matches .chain ..)
  | .insertBlock chain block _ =>
    (∃ id s c, chain = .to id .whole 0 ∧ L id = some (.chain s c) ∧ L s = some .state ∧ L.configThere c) ∧
      L.isObject block (fun k => k matches .block)

/-- The object a pointer to a whole object is about. -/
def objectOf : Pointer → Nat
  | .to id _ _ => id
  | _ => 0

/-- What the host knows after a call that returned a value. -/
def after (L : Ledger) (c : Call) (v : Value) : Ledger :=
  match c with
  | .hostWrite p w => L.write p w.length
  | .keccak256 out _ => L.write out 32
  | .newBuffer size => L.add v (.buffer (List.replicate size false))
  | .newBytesFromHex _ _ => L.add v (.bytes none)
  | .bytesLength p =>
    match v with
    | .number n => L.set (objectOf p) (.bytes (some n))
    | _ => L
  | .newUint256 _ _ _ _ => L.add v .number
  | .newConfig _ => L.add v .config
  | .newTransaction _ => L.add v (.transaction false)
  | .recoverSender txn =>
    match v with
    | .pointer .null => L.set (objectOf txn) (.transaction false)
    | _ => L.set (objectOf txn) (.transaction true)
  | .newAccount _ _ => L.add v .account
  | .newBlock _ => L.add v .block
  | .newState => L.add v .state
  | .stateRootHash _ => L.add v (.buffer (List.replicate 32 true))
  | .readAccount _ _ => L.add v .account
  | .readCode _ _ => L.add v (.bytes none)
  | .readStorage _ _ _ _ => L.add v (.bytes none)
  | .newBlockchain s config _ =>
    L.add v (.chain (objectOf s) (match config with | .network id => .inl id | p => .inr (objectOf p)))
  | .deleteBuffer p => L.drop p
  | .deleteBytes p => L.drop p
  | .deleteUint256 p => L.drop p
  | .deleteConfig p => L.drop p
  | .deleteTransaction p => L.drop p
  | .deleteAccount p => L.drop p
  | .deleteBlock p => L.drop p
  | .deleteState p => L.drop p
  | .deleteBlockchain p => L.drop p
  | _ => L

/-- The pointers that a call follows. -/
def uses : Call → List Pointer
  | .hostRead p _ | .hostWrite p _ => [p]
  | .deleteBuffer p | .deleteBytes p | .deleteUint256 p | .deleteConfig p | .deleteTransaction p | .deleteAccount p | .deleteBlock p
  | .deleteState p | .deleteBlockchain p => [p]
  | .newBytesFromHex p _ | .bytesData p | .bytesLength p => [p]
  | .setForkBlock p _ _ | .setMuirGlacier p _ | .setDao p _ => [p]
  | .difficulty inOut _ _ _ _ config => [inOut, config]
  | .newTransaction p | .checkIntrinsicGas p _ _ | .recoverSender p => [p]
  | .keccak256 out input => [out, input]
  | .newAccount _ p | .accountNonce p | .accountBalance p | .accountCodeHash p => [p]
  | .newBlock p | .blockHeader p | .headerNumber p | .headerStateRoot p | .blockRecoverSenders p => [p]
  | .stateRootHash s | .numberOfAccounts s => [s]
  | .storageSize s address account => [s, address, account]
  | .readAccount s address => [s, address]
  | .readCode s codeHash => [s, codeHash]
  | .readStorage s address account location => [s, address, account, location]
  | .updateAccount s address current => [s, address, current]
  | .updateCode s address account code => [s, address, account, code]
  | .updateStorage s address account location value => [s, address, account, location, value]
  | .newBlockchain s config genesis => [s, config, genesis]
  | .insertBlock chain block _ => [chain, block]
  | .newBuffer _ | .newUint256 _ _ _ _ | .lookupConfig _ | .newConfig _ | .newState => []

/-- What a call deletes. -/
def deletes : Call → Option Pointer
  | .deleteBuffer p | .deleteBytes p | .deleteUint256 p | .deleteConfig p | .deleteTransaction p | .deleteAccount p | .deleteBlock p
  | .deleteState p | .deleteBlockchain p => some p
  | _ => none

/-- What the host knows after calls that returned values. -/
def known : Ledger → List Call → List Value → Ledger
  | L, c :: cs, v :: vs => known (after L c v) cs vs
  | L, _, _ => L

/-- The call is not one that is about a state. Insertion of a block is about the state of a chain. -/
def leavesState (s : Nat) : Call → Prop
  | .updateAccount p _ _ | .updateCode p _ _ _ | .updateStorage p _ _ _ _ | .newBlockchain p _ _ | .deleteState p => objectOf p ≠ s
  | .insertBlock _ _ _ => False
  | _ => True

/-- What a state holds for a host. -/
structure World where
  account : Bytes → Option Account
  code : Bytes → Bytes
  /-- By address, incarnation and location. -/
  storage : Bytes → Nat → Bytes → Bytes

/-- The state of `new_state`. -/
def World.empty : World := ⟨fun _ => none, fun _ => [], fun _ _ _ => List.replicate 32 0⟩

/-- One change. -/
inductive Update where
  | account (address : Bytes) (x : Option Account)
  | code (hash code : Bytes)
  | storage (address : Bytes) (incarnation : Nat) (location value : Bytes)

/-- Only what is named changes. -/
def World.apply (w : World) : Update → World
  | .account a x => { w with account := fun b => if b = a then x else w.account b }
  | .code k c => { w with code := fun j => if j = k then c else w.code j }
  | .storage a i l v => { w with storage := fun b n k => if b = a ∧ n = i ∧ k = l then v else w.storage b n k }

/-- Changes in order. -/
def World.applyAll (w : World) (us : List Update) : World := us.foldl World.apply w

/-- The values have the sizes of their types. -/
def Update.Ok : Update → Prop
  | .account _ (some x) => x.nonce < 2 ^ 64 ∧ x.balance < 2 ^ 256 ∧ x.codeHash.length = 32 ∧ x.incarnation < 2 ^ 64
  | .storage _ _ _ v => v.length = 32
  | _ => True

/-- The lowest `k` bytes of a number, the lowest first. -/
def leBytes : Nat → Nat → List UInt8
  | 0, _ => []
  | k + 1, n => UInt8.ofNat (n % 256) :: leBytes k (n / 256)

end Silkworm.Spec.Wasm
