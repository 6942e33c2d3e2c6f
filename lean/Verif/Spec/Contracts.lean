import Verif.Spec.Precompiled
import Verif.Execution.Precompiled

/-!
# Which precompiled contracts there are, what they cost and what they return

Yellow Paper, appendix E; EIPs 152, 196, 197, 198, 1108, 2565. Hashes and curve operations are those of
`Precompiled.Crypto`.
-/

namespace Silkworm.Spec.Precompiled

/-- The contracts at addresses 1 to 4 exist from the beginning, 5 to 8 from Byzantium, 9 from Istanbul. -/
def Present (byzantium istanbul : Bool) (num : Nat) : Prop :=
  1 ≤ num ∧ (num ≤ 4 ∨ (byzantium ∧ num ≤ 8) ∨ (istanbul ∧ num ≤ 9))

/-- What a contract costs. -/
def cost (istanbul berlin : Bool) (num : Nat) (input : Bytes) : Nat :=
  if num = 5 then modexpGas berlin input else gas num istanbul input

/-- EIP-152: rounds (4 bytes), h (64), m (128), t (16), final flag (1). -/
def blake2 (compress : Bytes → Bytes → Bytes → Bool → Nat → Bytes) (input : Bytes) : Option Bytes :=
  if input.length = 213 ∧ numberAt input 212 1 ≤ 1 then
    some (compress (bytesAt input 4 64) (bytesAt input 68 128) (bytesAt input 196 16) (decide (numberAt input 212 1 = 1))
      (numberAt input 0 4))
  else none

/-- What a contract returns; `none` is a failure. -/
def Returns (c : Silkworm.Precompiled.Crypto) (num : Nat) (input : Bytes) (out : Option Bytes) : Prop :=
  match num with
  | 1 => out = some (ecrecover c.keccak c.recover input)
  | 2 => out = some (c.sha256 input)
  | 3 => out = some (List.replicate 12 0 ++ c.ripemd160 input)
  | 4 => out = some input
  | 5 => ∃ o, out = some o ∧ IsModexp input o
  | 6 => out = c.bnAdd input
  | 7 => out = c.bnMul input
  | 8 => out = c.pairing input
  | 9 => out = blake2 c.blake2Compress input
  | _ => False

end Silkworm.Spec.Precompiled
