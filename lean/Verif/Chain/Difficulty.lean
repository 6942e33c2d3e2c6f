import Verif.Chain.Config

/-!
# Model of core/silkworm/chain/difficulty.{hpp,cpp}

`intx::uint256` operations are written modulo `2^256`, `uint64_t` subtraction modulo `2^64`.
-/

namespace Silkworm

/-- core/silkworm/chain/difficulty.hpp (`kMinDifficulty`). -/
def kMinDifficulty : Nat := 131072

/-- Addition of `intx::uint256`. -/
def add256 (a b : Nat) : Nat := (a + b) % 2 ^ 256

/-- Subtraction of `intx::uint256`. -/
def sub256 (a b : Nat) : Nat := (a + 2 ^ 256 - b % 2 ^ 256) % 2 ^ 256

/-- Multiplication of `intx::uint256`. -/
def mul256 (a b : Nat) : Nat := (a * b) % 2 ^ 256

/-- `uint64_t` subtraction. -/
def sub64 (a b : Nat) : Nat := (a + 2 ^ 64 - b % 2 ^ 64) % 2 ^ 64

/-- `one << k` for `intx::uint256`: zero from `k = 256` on. -/
def shl256 (k : Nat) : Nat := if k < 256 then 2 ^ k else 0

/-- core/silkworm/chain/difficulty.cpp:21-32 (`difficulty_bomb`). -/
def difficultyBomb (difficulty blockNumber : Nat) : Nat :=
  let n := blockNumber / 100000
  let difficulty := if n ≥ 2 then add256 difficulty (shl256 (n - 2)) else difficulty
  if difficulty < kMinDifficulty then kMinDifficulty else difficulty

/-- core/silkworm/chain/difficulty.cpp:34-47 (`canonical_difficulty_frontier`). -/
def canonicalDifficultyFrontier (blockNumber blockTimestamp parentDifficulty parentTimestamp : Nat) : Nat :=
  let x := parentDifficulty / 2 ^ 11
  let difficulty :=
    if sub64 blockTimestamp parentTimestamp < 13 then add256 parentDifficulty x else sub256 parentDifficulty x
  difficultyBomb difficulty blockNumber

/-- core/silkworm/chain/difficulty.cpp:49-62 (`canonical_difficulty_homestead`). -/
def canonicalDifficultyHomestead (blockNumber blockTimestamp parentDifficulty parentTimestamp : Nat) : Nat :=
  let x := parentDifficulty / 2 ^ 11
  let difficulty := sub256 parentDifficulty (mul256 x 99)
  let z := sub64 blockTimestamp parentTimestamp / 10
  let difficulty := if 100 > z then add256 difficulty (mul256 (100 - z) x) else difficulty
  difficultyBomb difficulty blockNumber

/-- core/silkworm/chain/difficulty.cpp:64-86 (`canonical_difficulty_byzantium`). -/
def canonicalDifficultyByzantium (blockNumber blockTimestamp parentDifficulty parentTimestamp : Nat)
    (parentHasUncles : Bool) (bombDelay : Nat) : Nat :=
  let x := parentDifficulty / 2 ^ 11
  let difficulty := sub256 parentDifficulty (mul256 x 99)
  let y := if parentHasUncles then 2 else 1
  let z := sub64 blockTimestamp parentTimestamp / 9
  let difficulty := if 99 + y > z then add256 difficulty (mul256 (99 + y - z) x) else difficulty
  let blockNumber := if blockNumber > bombDelay then blockNumber - bombDelay else 0
  difficultyBomb difficulty blockNumber

/-- The condition `config.muir_glacier_block && block_number >= config.muir_glacier_block`, difficulty.cpp:98. -/
def muirGlacierReached (config : ChainConfig) (blockNumber : Nat) : Bool :=
  match config.muirGlacierBlock with
  | some b => decide (blockNumber ≥ b)
  | none => false

/-- core/silkworm/chain/difficulty.cpp:94-107: the bomb delay. -/
def bombDelay (config : ChainConfig) (blockNumber : Nat) : Nat :=
  let rev := config.revision blockNumber
  if rev ≥ Revision.london then 9700000
  else if muirGlacierReached config blockNumber then 9000000
  else if rev ≥ Revision.constantinople then 5000000
  else 3000000

/-- core/silkworm/chain/difficulty.cpp:88-115 (`canonical_difficulty`). -/
def canonicalDifficulty (blockNumber blockTimestamp parentDifficulty parentTimestamp : Nat) (parentHasUncles : Bool)
    (config : ChainConfig) : Nat :=
  let rev := config.revision blockNumber
  if rev ≥ Revision.byzantium then
    canonicalDifficultyByzantium blockNumber blockTimestamp parentDifficulty parentTimestamp parentHasUncles
      (bombDelay config blockNumber)
  else if rev ≥ Revision.homestead then
    canonicalDifficultyHomestead blockNumber blockTimestamp parentDifficulty parentTimestamp
  else canonicalDifficultyFrontier blockNumber blockTimestamp parentDifficulty parentTimestamp

end Silkworm
