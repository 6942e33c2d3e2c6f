import Verif.Chain.Blockchain
import Verif.Common.Util
import Verif.Trie.StateRoot

/-!
# The program that runs the consensus tests

Model of cmd/consensus.cpp. A JSON document is given by its members: strings are their bytes, objects are lists of members. Members
that are absent or have another type are not part of the model. Messages are left out.
-/

namespace Silkworm.Tools

open Silkworm.Rlp State

/-! ## Networks -/

/-- A chain without proof of work whose first forks are at these blocks. -/
def network (forks : List Nat) (muirGlacier dao : Option Nat := none) : ChainConfig :=
  { chainId := 1, sealEngine := .noProof, forkBlocks := forks.map some ++ List.replicate (10 - forks.length) none,
    muirGlacierBlock := muirGlacier, daoBlock := dao }

/-- cmd/consensus.cpp:70-269 (`kNetworkConfig`). -/
def kNetworkConfig : List (String × ChainConfig) :=
  [("Frontier", network []), ("Homestead", network [0]), ("EIP150", network [0, 0]), ("EIP158", network [0, 0, 0]),
   ("Byzantium", network [0, 0, 0, 0]), ("Constantinople", network [0, 0, 0, 0, 0]),
   ("ConstantinopleFix", network [0, 0, 0, 0, 0, 0]), ("Istanbul", network [0, 0, 0, 0, 0, 0, 0]),
   ("Berlin", network [0, 0, 0, 0, 0, 0, 0, 0] (muirGlacier := some 0)),
   ("London", network [0, 0, 0, 0, 0, 0, 0, 0, 0] (muirGlacier := some 0)),
   ("FrontierToHomesteadAt5", network [5]), ("HomesteadToEIP150At5", network [0, 5]),
   ("HomesteadToDaoAt5", network [0] (dao := some 5)), ("EIP158ToByzantiumAt5", network [0, 0, 0, 5]),
   ("ByzantiumToConstantinopleFixAt5", network [0, 0, 0, 0, 5, 5]),
   ("BerlinToLondonAt5", network [0, 0, 0, 0, 0, 0, 0, 0, 5] (muirGlacier := some 0)),
   ("EIP2384", network [0, 0, 0, 0, 0, 0, 0] (muirGlacier := some 0))]

/-! ## States -/

/-- A member of "pre" or "postState": the address and its account, as texts. -/
structure TestAccount where
  address : Bytes
  balance : Bytes
  nonce : Bytes
  code : Bytes
  storage : List (Bytes × Bytes) := []
  deriving DecidableEq

/-- The exceptions. -/
inductive TestError
  /-- `bad_optional_access`: the text is not hexadecimal. -/
  | notHex
  /-- `check_rlp_err`, cmd/consensus.cpp:285-289. -/
  | rlp (e : DecodingResult)
  /-- `out_of_range`: no such network. -/
  | noNetwork
  /-- `length_error` from the insertion of a block. -/
  | lengthError
  deriving DecidableEq

/-- `from_hex(text).value()`. -/
def hexValue (text : Bytes) : Outcome TestError Bytes :=
  match fromHex text with
  | some b => .ok b
  | none => .err .notHex

/-- `rlp::read_uint256` and `rlp::read_uint64` of such a value with leading zeros allowed, and `check_rlp_err`. -/
def hexNumberOf (k : Nat) (text : Bytes) : Outcome TestError Nat :=
  (hexValue text).bind fun b =>
    match readUint k b true with
    | .ok n => .ok n
    | .err e => .err (.rlp e)
    | .ub => .ub

/-- cmd/consensus.cpp:319-323: the storage of an account. -/
def presetStorage (address : Bytes) (incarnation : Nat) : List (Bytes × Bytes) → MemoryBuffer → Outcome TestError MemoryBuffer
  | [], b => .ok b
  | s :: t, b =>
    (hexValue s.1).bind fun key => (hexValue s.2).bind fun value =>
      presetStorage address incarnation t (b.updateStorage address incarnation (toBytes32 key) zero32 (toBytes32 value))

/-- cmd/consensus.cpp:296-324: one account; `kDefaultIncarnation` is 1. -/
def presetAccount (keccak : Bytes → Bytes) (t : TestAccount) (b : MemoryBuffer) : Outcome TestError MemoryBuffer :=
  (hexValue t.address).bind fun key => (hexNumberOf 32 t.balance).bind fun balance => (hexNumberOf 8 t.nonce).bind fun nonce =>
    (hexValue t.code).bind fun code =>
      let account : Account := { nonce := nonce, balance := balance }
      let account := if code = [] then account else { account with incarnation := 1, codeHash := keccak code }
      let b := if code = [] then b else b.updateAccountCode account.codeHash code
      presetStorage (toAddress key) account.incarnation t.storage (b.updateAccount (toAddress key) none (some account))

/-- cmd/consensus.cpp:295-325 (`init_pre_state`). -/
def initPreState (keccak : Bytes → Bytes) : List TestAccount → MemoryBuffer → Outcome TestError MemoryBuffer
  | [], b => .ok b
  | t :: l, b => (presetAccount keccak t b).bind (initPreState keccak l)

/-- cmd/consensus.cpp:418-428: the slots of an account. -/
def sameSlots (b : MemoryBuffer) (address : Bytes) (incarnation : Nat) : List (Bytes × Bytes) → Outcome TestError Bool
  | [] => .ok true
  | s :: t =>
    (hexValue s.1).bind fun key => (hexValue s.2).bind fun value =>
      if b.readStorage address incarnation (toBytes32 key) ≠ toBytes32 value then .ok false else sameSlots b address incarnation t

/-- cmd/consensus.cpp:378-428: one account. A code that is not hexadecimal is a mismatch. -/
def sameAccount (b : MemoryBuffer) (t : TestAccount) : Outcome TestError Bool :=
  (hexValue t.address).bind fun key =>
    match b.readAccount (toAddress key) with
    | none => .ok false
    | some account =>
      (hexNumberOf 32 t.balance).bind fun balance =>
        if account.balance ≠ balance then .ok false
        else
          (hexNumberOf 8 t.nonce).bind fun nonce =>
            if account.nonce ≠ nonce then .ok false
            else if some (b.readCode account.codeHash) ≠ fromHex t.code then .ok false
            else if b.storageSize (toAddress key) account.incarnation ≠ t.storage.length then .ok false
            else sameSlots b (toAddress key) account.incarnation t.storage

/-- cmd/consensus.cpp:377-429: the loop. -/
def sameAccounts (b : MemoryBuffer) : List TestAccount → Outcome TestError Bool
  | [] => .ok true
  | t :: l => (sameAccount b t).bind fun same => if same then sameAccounts b l else .ok false

/-- cmd/consensus.cpp:370-433 (`post_check`). -/
def postCheck (b : MemoryBuffer) (expected : List TestAccount) : Outcome TestError Bool :=
  if b.numberOfAccounts ≠ expected.length then .ok false else sameAccounts b expected

/-! ## Tests -/

/-- cmd/consensus.cpp:327. -/
inductive TestStatus
  | passed
  | failed
  | skipped
  deriving DecidableEq

/-- A member of "blocks": the text of the block and what exception it should lead to. -/
structure TestBlock where
  rlp : Bytes
  expectException : Option Bytes := none

/-- cmd/consensus.cpp:333-348: the block of a text. -/
def blockOf (text : Bytes) : Outcome Empty (Option Block) :=
  match fromHex text with
  | none => .ok none
  | some rlp =>
    match decodeBlock rlp with
    | .ub => .ub
    | .err _ => .ok none
    | .ok (block, rest) => .ok (if rest = [] then some block else none)

/-- Invalid blocks pass exactly if they are expected. -/
def verdict (expected invalid : Bool) : TestStatus := if expected = invalid then .passed else .failed

/-- "InvalidStateRoot" -/
def kInvalidStateRoot : Bytes := "InvalidStateRoot".toList.map fun c => UInt8.ofNat c.toNat

/-- Undefined behaviour is passed on; there is no exception. -/
def noError {α : Type} : Outcome Empty α → Outcome TestError α
  | .ok a => .ok a
  | .err e => nomatch e
  | .ub => .ub

/-- The verdict about an inserted block. -/
def judge (expected : Bool) (c : Blockchain) : InsertResult → Outcome TestError (TestStatus × Blockchain)
  | .ok => .ok (verdict expected false, c)
  | .invalid _ => .ok (verdict expected true, c)
  | .lengthError => .err .lengthError

/-- cmd/consensus.cpp:329-368 (`run_block`). -/
def runBlock (env : ChainEnv) (c : Blockchain) (t : TestBlock) : Outcome TestError (TestStatus × Blockchain) :=
  (noError (blockOf t.rlp)).bind fun block =>
    match block with
    | none => .ok (verdict t.expectException.isSome true, c)
    | some block =>
      (noError (c.insertBlock env block (t.expectException == some kInvalidStateRoot))).bind fun r =>
        judge t.expectException.isSome r.1 r.2

/-- cmd/consensus.cpp:462-467: the blocks, until one does not pass. -/
def runBlocks (env : ChainEnv) : Blockchain → List TestBlock → Outcome TestError (TestStatus × Blockchain)
  | c, [] => .ok (.passed, c)
  | c, t :: l => (runBlock env c t).bind fun r => if r.1 = .passed then runBlocks env r.2 l else .ok r

/-- A blockchain test. -/
structure BlockchainTest where
  genesisRlp : Bytes
  network : String
  sealEngine : String
  pre : List TestAccount
  blocks : List TestBlock
  postStateHash : Option Bytes
  postState : List TestAccount

/-- cmd/consensus.cpp:437-440: bytes after the genesis block are not looked at. -/
def genesisOf (text : Bytes) : Outcome TestError Block :=
  (hexValue text).bind fun rlp =>
    match decodeBlock rlp with
    | .ok (block, _) => .ok block
    | .err e => .err (.rlp e)
    | .ub => .ub

/-- cmd/consensus.cpp:446-454. -/
def sealEngineOf (name : String) : Option SealEngineType :=
  if name = "Ethash" then some .ethash else if name = "NoProof" then some .noProof else none

/-- cmd/consensus.cpp:470-487: the state at the end. -/
def checkEnd (keccak : Bytes → Bytes) (b : MemoryBuffer) (t : BlockchainTest) : Outcome TestError TestStatus :=
  match t.postStateHash with
  | some text =>
    (noError (Trie.stateRootHash keccak b)).bind fun root => (hexValue text).bind fun h =>
      .ok (if root ≠ toBytes32 h then .failed else .passed)
  | none => (postCheck b t.postState).bind fun same => .ok (if same then .passed else .failed)

/-- cmd/consensus.cpp:436-488 (`blockchain_test`). The configuration in `env` is replaced. -/
def blockchainTest (env : ChainEnv) (t : BlockchainTest) : Outcome TestError TestStatus :=
  (genesisOf t.genesisRlp).bind fun genesis =>
    match kNetworkConfig.lookup t.network with
    | none => .err .noNetwork
    | some config =>
      match sealEngineOf t.sealEngine with
      | none => .ok .skipped
      | some engine =>
        (initPreState env.keccak t.pre {}).bind fun state =>
          let env := { env with config := { config with sealEngine := engine } }
          (runBlocks env (Blockchain.new env state genesis) t.blocks).bind fun r =>
            if r.1 = .passed then checkEnd env.keccak r.2.state t else .ok r.1

/-- cmd/consensus.cpp:599-603: the sender that is recovered. -/
def senderOf (recover : Transaction → Transaction) (t : Transaction) : Option Bytes := (recover t).sender

/-- cmd/consensus.cpp:576-628: one network; `expected` is the text of the sender, if the transaction should be valid there. `none`
to go on. -/
def checkNetwork (recover : Transaction → Transaction) (decoded : Option Transaction) (name : String) (expected : Option Bytes) :
    Outcome TestError (Option TestStatus) :=
  match decoded with
  | none => .ok (if expected.isSome then some .failed else none)
  | some t =>
    match kNetworkConfig.lookup name with
    | none => .err .noNetwork
    | some config =>
      match preValidateTransaction t 0 config none with
      | .ub => .ub
      | .err _ => .ok (if expected.isSome then some .failed else none)
      | .ok () =>
        match expected, senderOf recover t with
        | some _, none => .ok (some .failed)
        | none, some _ => .ok (some .failed)
        | none, none => .ok none
        | some text, some sender => .ok (if toHex sender ≠ text then some .failed else none)

/-- cmd/consensus.cpp:576-631: the networks in order, without "rlp" and "_info". -/
def checkNetworks (recover : Transaction → Transaction) (decoded : Option Transaction) :
    List (String × Option Bytes) → Outcome TestError TestStatus
  | [] => .ok .passed
  | e :: l =>
    (checkNetwork recover decoded e.1 e.2).bind fun r =>
      match r with
      | some s => .ok s
      | none => checkNetworks recover decoded l

/-- cmd/consensus.cpp:566-575: the transaction, if all of the text is one. -/
def transactionOf (text : Bytes) : Outcome Empty (Option Transaction) :=
  match fromHex text with
  | none => .ok none
  | some rlp =>
    match decodeTransaction rlp with
    | .ub => .ub
    | .err _ => .ok none
    | .ok (t, rest) => .ok (if rest = [] then some t else none)

/-- cmd/consensus.cpp:565-632 (`transaction_test`). -/
def transactionTest (recover : Transaction → Transaction) (rlp : Bytes) (networks : List (String × Option Bytes)) :
    Outcome TestError TestStatus :=
  (noError (transactionOf rlp)).bind fun t => checkNetworks recover t networks

/-! ## Results -/

/-- cmd/consensus.cpp:505-530 (`RunResults`); the counters are `size_t`. -/
structure RunResults where
  passed : Nat := 0
  failed : Nat := 0
  skipped : Nat := 0
  deriving DecidableEq

/-- cmd/consensus.cpp:517-529 (`add`). -/
def RunResults.add (r : RunResults) : TestStatus → RunResults
  | .passed => { r with passed := (r.passed + 1) % 2 ^ 64 }
  | .failed => { r with failed := (r.failed + 1) % 2 ^ 64 }
  | .skipped => { r with skipped := (r.skipped + 1) % 2 ^ 64 }

/-- cmd/consensus.cpp:510-515 (`operator+=`). -/
def RunResults.plus (r s : RunResults) : RunResults :=
  { passed := (r.passed + s.passed) % 2 ^ 64, failed := (r.failed + s.failed) % 2 ^ 64, skipped := (r.skipped + s.skipped) % 2 ^ 64 }

/-- cmd/consensus.cpp:538-562 (`run_test_file`): `none` stands for a file that is not JSON. -/
def runFile : Option (List TestStatus) → RunResults
  | none => { skipped := 1 }
  | some l => l.foldl RunResults.add {}

/-- cmd/consensus.cpp:681-711: all files, or excluded ones. -/
def runFiles (files : List (Option (List TestStatus))) : RunResults := files.foldl (fun r f => r.plus (runFile f)) {}

/-- cmd/consensus.cpp:723 `return static_cast<int>(res.failed)`: the lowest 8 bits are what the caller of the program sees. -/
def exitStatus (r : RunResults) : Nat := r.failed % 256

end Silkworm.Tools
