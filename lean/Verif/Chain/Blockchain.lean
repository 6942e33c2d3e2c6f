import Verif.Chain.Validity
import Verif.State.MemoryBuffer
import Verif.Trie.StateRoot

/-!
# Model of core/silkworm/chain/blockchain.{hpp,cpp} over a memory buffer

Execution of a block (`silkworm::execute_block`, core/silkworm/execution/execution.cpp) is a parameter: from the state and
the block it gives an error, after which the state is unchanged, or the calls made to the buffer. Sender recovery is a
parameter too. Dereferencing an empty `optional` and a failed `assert` are undefined behaviour. An exception leaves the
objects as they are at that point.
-/

namespace Silkworm

/-- What `Blockchain` depends on. -/
structure ChainEnv where
  keccak : Bytes → Bytes
  /-- `trie::root_hash` of the encoded transactions. -/
  listRoot : List Bytes → Bytes
  /-- The check of the proof of work. -/
  sealOk : BlockHeader → Bool
  config : ChainConfig
  /-- `Transaction::recover_sender`. -/
  recoverSender : Transaction → Transaction
  /-- `silkworm::execute_block`. -/
  execute : MemoryBuffer → Block → Outcome ValidationError (List BufferCall)

/-- The object and the state it refers to. -/
structure Blockchain where
  state : MemoryBuffer
  badBlocks : AMap Bytes ValidationError := []

/-- How `insert_block` ends: it returns, or `std::length_error` is thrown. -/
inductive InsertResult where
  | ok
  | invalid (e : ValidationError)
  | lengthError
  deriving DecidableEq, Repr

/-- The readers of the buffer used by validation. -/
def MemoryBuffer.headerStore (b : MemoryBuffer) : HeaderStore := ⟨b.readHeader, b.readBody⟩

namespace Blockchain

/-- core/silkworm/chain/blockchain.cpp:25-30, the constructor. -/
def new (env : ChainEnv) (state : MemoryBuffer) (genesis : Block) : Blockchain :=
  let hash := genesis.header.hash env.keccak
  { state := (state.insertBlock genesis hash).canonizeBlock genesis.header.number hash }

/-- core/silkworm/types/block.cpp:45-49 (`Block::recover_senders`). -/
def recoverSenders (env : ChainEnv) (block : Block) : Block :=
  { block with transactions := block.transactions.map env.recoverSender }

/-- core/silkworm/chain/blockchain.cpp:98-104: `state_root_hash` and the comparison. -/
def checkStateRoot (env : ChainEnv) (b : MemoryBuffer) (block : Block) :
    Outcome Empty (MemoryBuffer × Option ValidationError) :=
  (Trie.stateRootHash env.keccak b).bind fun root =>
    if root ≠ block.header.stateRoot then .ok (b.unwindStateChanges block.header.number, some .wrongStateRoot)
    else .ok (b, none)

/-- core/silkworm/chain/blockchain.cpp:91-107 (`execute_block`). -/
def executeBlock (env : ChainEnv) (b : MemoryBuffer) (block : Block) (check : Bool) :
    Outcome Empty (MemoryBuffer × Option ValidationError) :=
  match env.execute b block with
  | .ub => .ub
  | .err e => .ok (b, some e)
  | .ok calls => if check then checkStateRoot env (b.applyAll calls) block else .ok (b.applyAll calls, none)

/-- core/silkworm/chain/blockchain.cpp:53-61: execute until an error; the number of executed blocks. -/
def executeChain (env : ChainEnv) (check : Bool) : MemoryBuffer → List (Block × Bytes) →
    Outcome Empty (MemoryBuffer × Nat × Option ValidationError)
  | b, [] => .ok (b, 0, none)
  | b, x :: xs =>
    (executeBlock env b x.1 check).bind fun r =>
      match r.2 with
      | some e => .ok (r.1, 0, some e)
      | none => (executeChain env check r.1 xs).bind fun q => .ok (q.1, q.2.1 + 1, q.2.2)

/-- The block put together from what is stored: core/silkworm/chain/blockchain.cpp:113-119, 140-144. -/
def storedBlock (b : MemoryBuffer) (n : Nat) (hash : Bytes) : Outcome Empty Block :=
  match b.readBody n hash, b.readHeader n hash with
  | some body, some header => .ok { header := header, transactions := body.transactions, ommers := body.ommers }
  | _, _ => .ub

/-- One iteration of the loop at core/silkworm/chain/blockchain.cpp:111-123. -/
def reExecuteBlock (env : ChainEnv) (b : MemoryBuffer) (n : Nat) : Outcome Empty MemoryBuffer :=
  match b.canonicalHash n with
  | none => .ub
  | some hash =>
    (storedBlock b n hash).bind fun block =>
      (executeBlock env b block false).bind fun r =>
        match r.2 with
        | some _ => .ub
        | none => .ok r.1

/-- The block numbers in turn. -/
def reExecuteLoop (env : ChainEnv) : MemoryBuffer → List Nat → Outcome Empty MemoryBuffer
  | b, [] => .ok b
  | b, n :: ns => (reExecuteBlock env b n).bind fun b => reExecuteLoop env b ns

/-- core/silkworm/chain/blockchain.cpp:109-124 (`re_execute_canonical_chain`). -/
def reExecute (env : ChainEnv) (b : MemoryBuffer) (ancestor tip : Nat) : Outcome Empty MemoryBuffer :=
  if tip < ancestor then .ub else reExecuteLoop env b (List.range' (ancestor + 1) (tip - ancestor))

/-- core/silkworm/chain/blockchain.cpp:126-131 (`unwind_last_changes`). -/
def unwindLast (b : MemoryBuffer) (ancestor tip : Nat) : Outcome Empty MemoryBuffer :=
  if tip < ancestor then .ub
  else .ok ((List.range' (ancestor + 1) (tip - ancestor)).reverse.foldl (fun b n => b.unwindStateChanges n) b)

/-- core/silkworm/chain/blockchain.cpp:133-151 (`intermediate_chain`): `count` blocks back from the block with the given
number and hash; in ascending order. -/
def chainBack (b : MemoryBuffer) : Nat → Nat → Bytes → Outcome Empty (List (Block × Bytes))
  | 0, _, _ => .ok []
  | count + 1, n, hash =>
    (storedBlock b n hash).bind fun block =>
      (chainBack b count (n - 1) block.header.parentHash).bind fun rest => .ok (rest ++ [(block, hash)])

/-- core/silkworm/chain/blockchain.cpp:153-159 (`canonical_ancestor`). The recursion ends at the latest with number 0;
`header.number - 1` wraps there, and there is no header with such a number. -/
def canonicalAncestor (b : MemoryBuffer) : Nat → BlockHeader → Bytes → Outcome Empty Nat
  | 0, _, _ => .ub
  | fuel + 1, header, hash =>
    if b.canonicalHash header.number = some hash then .ok header.number
    else
      match b.readHeader (sub64 header.number 1) header.parentHash with
      | none => .ub
      | some parent => canonicalAncestor b fuel parent header.parentHash

/-- core/silkworm/chain/blockchain.cpp:72-73. -/
def headDifficulty (b : MemoryBuffer) (current : Nat) : Outcome Empty Nat :=
  match b.canonicalHash current with
  | none => .ub
  | some hash =>
    match b.totalDifficulty current hash with
    | none => .ub
    | some d => .ok d

/-- `optional > value`: an empty optional is less than every value. -/
def optionGreater (a : Option Nat) (b : Nat) : Bool :=
  match a with
  | none => false
  | some a => b < a

/-- core/silkworm/chain/blockchain.cpp:76-82: the blocks from the old head down lose their place, the new ones get it. -/
def canonizeChain (b : MemoryBuffer) (ancestor current : Nat) (chain : List (Block × Bytes)) : MemoryBuffer :=
  let b := (List.range' (ancestor + 1) (current - ancestor)).reverse.foldl (fun b i => b.decanonizeBlock i) b
  chain.foldl (fun b x => b.canonizeBlock x.1.header.number x.2) b

/-- Back to the canonical state: core/silkworm/chain/blockchain.cpp:65-66, 84-85. -/
def restore (env : ChainEnv) (b : MemoryBuffer) (ancestor executed current : Nat) : Outcome Empty MemoryBuffer :=
  (unwindLast b ancestor (ancestor + executed)).bind fun b => reExecute env b ancestor current

/-- core/silkworm/chain/blockchain.cpp:63-88: after the execution of the chain. -/
def conclude (env : ChainEnv) (c : Blockchain) (block : Block) (hash : Bytes) (ancestor current : Nat)
    (chain : List (Block × Bytes)) (r : MemoryBuffer × Nat × Option ValidationError) :
    Outcome Empty (Blockchain × InsertResult) :=
  match r.2.2 with
  | some e =>
    (restore env r.1 ancestor r.2.1 current).bind fun b =>
      .ok ({ c with state := b, badBlocks := c.badBlocks.set hash e }, .invalid e)
  | none =>
    let b := r.1.insertBlock block hash
    (headDifficulty b current).bind fun d =>
      if optionGreater (b.totalDifficulty block.header.number hash) d then
        .ok ({ c with state := canonizeChain b ancestor current chain }, .ok)
      else
        (restore env b ancestor r.2.1 current).bind fun b => .ok ({ c with state := b }, .ok)

/-- core/silkworm/chain/blockchain.cpp:42-88: the block is well-formed and not known to be bad. The size of the vector of
`intermediate_chain`, a `size_t`, wraps to nearly `2^64` if the block itself is canonical, which is more than a vector can
have. -/
def process (env : ChainEnv) (c : Blockchain) (block : Block) (hash : Bytes) (check : Bool) :
    Outcome Empty (Blockchain × InsertResult) :=
  (canonicalAncestor c.state (block.header.number + 1) block.header hash).bind fun ancestor =>
    let current := c.state.currentCanonicalBlock
    (unwindLast c.state ancestor current).bind fun b =>
      let parentNumber := sub64 block.header.number 1
      if parentNumber < ancestor then .ok ({ c with state := b }, .lengthError)
      else
        (chainBack b (parentNumber - ancestor) parentNumber block.header.parentHash).bind fun intermediate =>
          let chain := intermediate ++ [(block, hash)]
          (executeChain env check b chain).bind fun r => conclude env c block hash ancestor current chain r

/-- core/silkworm/chain/blockchain.cpp:32-89 (`insert_block`). -/
def insertBlock (env : ChainEnv) (c : Blockchain) (block : Block) (check : Bool) :
    Outcome Empty (Blockchain × InsertResult) :=
  match preValidateBlock env.keccak env.listRoot env.sealOk block c.state.headerStore env.config with
  | .ub => .ub
  | .err e => .ok (c, .invalid e)
  | .ok () =>
    let hash := block.header.hash env.keccak
    match c.badBlocks.get? hash with
    | some e => .ok (c, .invalid e)
    | none => process env c (recoverSenders env block) hash check

/-- A sequence of insertions and their results. -/
def insertAll (env : ChainEnv) (c : Blockchain) : List (Block × Bool) → Outcome Empty (Blockchain × List InsertResult)
  | [] => .ok (c, [])
  | x :: xs =>
    (insertBlock env c x.1 x.2).bind fun r => (insertAll env r.1 xs).bind fun q => .ok (q.1, r.2 :: q.2)

end Blockchain

end Silkworm
