import Verif.Chain.Validity
import Verif.State.MemoryBuffer

/-!
# Specification of the canonical chain

Chains of accepted blocks back to the genesis block, and their total difficulty (Yellow Paper, section 4.3 and 10).
-/

namespace Silkworm.Spec

/-- There is a chain of accepted headers from the genesis to the block with this hash; `d` is the sum of the difficulties and
`n` the number of the block. -/
inductive ChainTo (hashOf : BlockHeader → List UInt8) (genesis : BlockHeader) (accepted : List BlockHeader) :
    List UInt8 → Nat → Nat → Prop
  | genesis : ChainTo hashOf genesis accepted (hashOf genesis) genesis.difficulty genesis.number
  | step (p : List UInt8) (d n : Nat) (x : BlockHeader) : ChainTo hashOf genesis accepted p d n → x ∈ accepted →
      x.parentHash = p → x.number = n + 1 → ChainTo hashOf genesis accepted (hashOf x) (d + x.difficulty) x.number

/-- The hashes by number form one chain of accepted headers, from the genesis block on. -/
structure CanonicalChain (hashOf : BlockHeader → List UInt8) (genesis : BlockHeader) (accepted : List BlockHeader)
    (hashes : List (List UInt8)) : Prop where
  genesis : hashes[0]? = some (hashOf genesis)
  linked : ∀ n h, hashes[n + 1]? = some h →
    ∃ x ∈ accepted, hashOf x = h ∧ x.number = n + 1 ∧ hashes[n]? = some x.parentHash

/-- The blocks executed one after the other from a buffer, and the buffer they lead to. -/
inductive Replay (execute : MemoryBuffer → Block → Outcome ValidationError (List BufferCall)) (start : MemoryBuffer) :
    List Block → MemoryBuffer → Prop
  | nil : Replay execute start [] start
  | snoc (blocks : List Block) (b : MemoryBuffer) (x : Block) (calls : List BufferCall) :
      Replay execute start blocks b → execute b x = .ok calls → Replay execute start (blocks ++ [x]) (b.applyAll calls)

end Silkworm.Spec
