import Verif.Crypto.Ethash
import Verif.Db.Genesis
import Verif.Common.Util

/-!
# Model of cmd/check_pow.cpp

The result of the command is what it prints or logs last, and its exit status. Progress messages and interrupts are left out; the range
checks of the command line are those on `blockFrom` and `blockTo`, which have 32 bits.
-/

namespace Silkworm.Tools

open Silkworm.Db Silkworm.Ethash

/-- How the command ends. -/
inductive PowEnd
  /-- cmd/check_pow.cpp:159: all blocks were checked. -/
  | complete
  /-- cmd/check_pow.cpp:132-142: the block, its boundary, and the hashes computed. -/
  | aboveTarget (block : Nat) (boundary final mix : Bytes)
  /-- cmd/check_pow.cpp:144-152: the block, the mix hash computed and that of the header. -/
  | mixMismatch (block : Nat) (computed stored : Bytes)
  /-- cmd/check_pow.cpp:161-165: an exception was logged. -/
  | thrown
  deriving DecidableEq, Repr

/-- cmd/check_pow.cpp:107-111: the context for a block. The one so far is referred to. -/
def powContext (memory : Bool) (c : Option Context) (n : Nat) : Outcome Fault (Option Context) :=
  match c with
  | none => .ub
  | some c => if c.epochNumber ≠ n / 30000 then createEpochContext memory (n / 30000) else .ok (some c)

/-- cmd/check_pow.cpp:113-123: the header of the canonical block; `none` is an exception. -/
def powHeader (db : Database) (n : Nat) : Outcome Fault (Option BlockHeader) :=
  match db.canonicalHashes.find (blockKey n) with
  | none => .ok none
  | some e =>
    match readHeader db n (toBytes32 e.2) with
    | .ok h => .ok h
    | .err _ => .ok none
    | .ub => .ub

/-- cmd/check_pow.cpp:125-152: what is wrong with the header of a block, if anything. -/
def powCheck (c : Option Context) (n : Nat) (h : BlockHeader) : Outcome Fault (Option PowEnd) :=
  match c with
  | none => .ub
  | some c => do
    let r ← Ethash.hash c (h.hash Keccak.keccak256 true) (beToNat h.nonce)
    if !isLessOrEqual (beWords r.1) (beWords (boundaryFromDifficulty h.difficulty)) then
      .ok (some (.aboveTarget n (boundaryFromDifficulty h.difficulty) r.1 r.2))
    else if r.2 ≠ h.mixHash then .ok (some (.mixMismatch n r.2 h.mixHash))
    else .ok none

/-- cmd/check_pow.cpp:107-156: what is done with a block: the end, or the context to go on with. -/
def powBlock (memory : Bool) (db : Database) (c : Option Context) (n : Nat) : Outcome Fault (PowEnd ⊕ Option Context) := do
  let c ← powContext memory c n
  let h ← powHeader db n
  match h with
  | none => .ok (.inl .thrown)
  | some h => do
    let e ← powCheck c n h
    match e with
    | some e => .ok (.inl e)
    | none => .ok (.inr c)

/-- cmd/check_pow.cpp:106-157: the loop, with at most `fuel` rounds; `none` if these are not enough. -/
def powLoop (memory : Bool) (db : Database) (blockTo : Nat) : Nat → Nat → Option Context → Option (Outcome Fault PowEnd)
  | 0, _, _ => none
  | fuel + 1, n, c =>
    if n ≤ blockTo then
      match powBlock memory db c n with
      | .ok (.inl e) => some (.ok e)
      | .ok (.inr c) => powLoop memory db blockTo fuel ((n + 1) % 2 ^ 32) c
      | .err e => nomatch e
      | .ub => some .ub
    else some (.ok .complete)

/-- cmd/check_pow.cpp:95-165: the command after the chain configuration was read. -/
def powCommand (memory : Bool) (db : Database) (blockFrom blockTo fuel : Nat) : Option (Outcome Fault PowEnd) :=
  match getStageProgress db (ascii "Senders") with
  | .err _ => some (.ok .thrown)
  | .ub => some .ub
  | .ok height =>
    match createEpochContext memory (blockFrom / 30000) with
    | .ok c => powLoop memory db (min blockTo (height % 2 ^ 32)) fuel blockFrom c
    | .err e => nomatch e
    | .ub => some .ub

/-- cmd/check_pow.cpp:74-168: the command and its exit status. -/
def checkPow (memory : Bool) (parseJson : Bytes → ChainConfig.JsonObject) (db : Database) (blockFrom blockTo fuel : Nat) :
    Option (Outcome Fault (PowEnd × Nat)) :=
  match Genesis.readChainConfig parseJson db with
  | .err e => nomatch e
  | .ub => some .ub
  | .ok none => some (.ok (.thrown, 0))
  | .ok (some config) =>
    if config.sealEngine ≠ .ethash then some (.ok (.thrown, 0))
    else
      match powCommand memory db (if blockFrom = 0 then 1 else blockFrom) blockTo fuel with
      | none => none
      | some .ub => some .ub
      | some (.err e) => nomatch e
      | some (.ok e) => some (.ok (e, 0))

end Silkworm.Tools
