import Verif.Base.Outcome

/-!
# Model of core/silkworm/chain/config.{hpp,cpp} and protocol_param.hpp
-/

namespace Silkworm

/-- core/silkworm/chain/config.hpp:30-35 (`SealEngineType`). -/
inductive SealEngineType where
  | noProof
  | ethash
  | clique
  | aura
  deriving DecidableEq, Repr

/-! `evmc_revision` (evmc.h) as numbers; `EVMC_MAX_REVISION` is Shanghai. -/

namespace Revision
/-- `EVMC_FRONTIER`. -/
def frontier : Nat := 0
/-- `EVMC_HOMESTEAD`. -/
def homestead : Nat := 1
/-- `EVMC_TANGERINE_WHISTLE`. -/
def tangerineWhistle : Nat := 2
/-- `EVMC_SPURIOUS_DRAGON`. -/
def spuriousDragon : Nat := 3
/-- `EVMC_BYZANTIUM`. -/
def byzantium : Nat := 4
/-- `EVMC_CONSTANTINOPLE`. -/
def constantinople : Nat := 5
/-- `EVMC_PETERSBURG`. -/
def petersburg : Nat := 6
/-- `EVMC_ISTANBUL`. -/
def istanbul : Nat := 7
/-- `EVMC_BERLIN`. -/
def berlin : Nat := 8
/-- `EVMC_LONDON`. -/
def london : Nat := 9
/-- `EVMC_MAX_REVISION`. -/
def max : Nat := 10
end Revision

/-- core/silkworm/chain/config.hpp:37-98 (`ChainConfig`); `fork_blocks` is an array of `EVMC_MAX_REVISION` entries. -/
structure ChainConfig where
  chainId : Nat := 0
  sealEngine : SealEngineType := .noProof
  forkBlocks : List (Option Nat) := List.replicate 10 none
  muirGlacierBlock : Option Nat := none
  daoBlock : Option Nat := none
  deriving DecidableEq, Repr

namespace ChainConfig

/-- The condition in core/silkworm/chain/config.cpp:92. -/
def forkReached (c : ChainConfig) (i blockNumber : Nat) : Bool :=
  match c.forkBlocks.getD i none with
  | some b => decide (blockNumber ≥ b)
  | none => false

/-- The loop of core/silkworm/chain/config.cpp:91-95, started with `i + 1` entries to look at. -/
def revisionLoop (c : ChainConfig) (blockNumber : Nat) : Nat → Nat
  | 0 => Revision.frontier
  | i + 1 => if c.forkReached i blockNumber then i + 1 else revisionLoop c blockNumber i

/-- core/silkworm/chain/config.cpp:90-97 (`ChainConfig::revision`). -/
def revision (c : ChainConfig) (blockNumber : Nat) : Nat := c.revisionLoop blockNumber Revision.max

/-- core/silkworm/chain/config.cpp:99-105 (`ChainConfig::revision_block`); `at` throws out of range inside `noexcept`,
which does not happen for revisions up to the maximum (the model returns none there). -/
def revisionBlock (c : ChainConfig) (rev : Nat) : Option Nat :=
  if rev = Revision.frontier then some 0 else c.forkBlocks.getD (rev - 1) none

/-- core/silkworm/chain/config.cpp:107-111 (`ChainConfig::set_revision_block`). -/
def setRevisionBlock (c : ChainConfig) (rev : Nat) (block : Option Nat) : ChainConfig :=
  if rev > 0 then { c with forkBlocks := c.forkBlocks.set (rev - 1) block } else c

/-- core/silkworm/chain/config.hpp:38-52 (`kJsonForkNames`). -/
def jsonForkNames : List String :=
  ["homesteadBlock", "eip150Block", "eip155Block", "byzantiumBlock", "constantinopleBlock", "petersburgBlock",
   "istanbulBlock", "berlinBlock", "londonBlock", "shanghaiBlock"]

/-- A JSON value as far as chain configurations use them (nlohmann::json): an unsigned number, the empty object or
anything else. Negative and floating-point numbers, which `get<uint64_t>` would convert, count as `other`. -/
inductive JsonValue where
  | number (n : Nat)
  | emptyObject
  | other
  deriving DecidableEq, Repr

/-- A JSON object: keys to values. -/
abbrev JsonObject := String → Option JsonValue

/-- `json[key] = value`. -/
def JsonObject.insert (j : JsonObject) (key : String) (v : JsonValue) : JsonObject :=
  fun k => if k = key then some v else j k

/-- core/silkworm/chain/config.cpp:21-25 (`member_to_json`). -/
def memberToJson (j : JsonObject) (key : String) (source : Option Nat) : JsonObject :=
  match source with
  | some n => JsonObject.insert j key (.number n)
  | none => j

/-- core/silkworm/chain/config.cpp:40-52: the seal engine. -/
def sealToJson (j : JsonObject) : SealEngineType → JsonObject
  | .ethash => JsonObject.insert j "ethash" .emptyObject
  | .clique => JsonObject.insert j "clique" .emptyObject
  | .aura => JsonObject.insert j "aura" .emptyObject
  | .noProof => j

/-- core/silkworm/chain/config.cpp:34-62 (`ChainConfig::to_json`). -/
def toJson (c : ChainConfig) : JsonObject :=
  let j : JsonObject := JsonObject.insert (fun _ => none) "chainId" (.number c.chainId)
  let j := sealToJson j c.sealEngine
  let j := (jsonForkNames.zip c.forkBlocks).foldl (fun j p => memberToJson j p.1 p.2) j
  let j := memberToJson j "muirGlacierBlock" c.muirGlacierBlock
  memberToJson j "daoForkBlock" c.daoBlock

/-- core/silkworm/chain/config.cpp:27-32 (`read_json_config_member`); `get<uint64_t>` of something that is not a number
throws, which terminates the `noexcept` caller. -/
def readMember (j : JsonObject) (key : String) : Outcome Empty (Option Nat) :=
  match j key with
  | some (.number n) => .ok (some n)
  | some _ => .ub
  | none => .ok none

/-- core/silkworm/chain/config.cpp:80-82: the loop over the fork names. -/
def readMembers (j : JsonObject) : List String → Outcome Empty (List (Option Nat))
  | [] => .ok []
  | k :: ks => do
    let m ← readMember j k
    let ms ← readMembers j ks
    .ok (m :: ms)

/-- core/silkworm/chain/config.cpp:72-78: the seal engine. -/
def readSealEngine (j : JsonObject) : SealEngineType :=
  if (j "ethash").isSome then .ethash
  else if (j "clique").isSome then .clique
  else if (j "aura").isSome then .aura
  else .noProof

/-- core/silkworm/chain/config.cpp:64-88 (`ChainConfig::from_json`). -/
def fromJson (j : JsonObject) : Outcome Empty (Option ChainConfig) :=
  match j "chainId" with
  | some (.number chainId) => do
    let forks ← readMembers j jsonForkNames
    let muir ← readMember j "muirGlacierBlock"
    let dao ← readMember j "daoForkBlock"
    .ok (some ⟨chainId, readSealEngine j, forks, muir, dao⟩)
  | _ => .ok none

end ChainConfig

/-- core/silkworm/chain/config.hpp:105-122 (`kMainnetConfig`). -/
def kMainnetConfig : ChainConfig :=
  { chainId := 1, sealEngine := .ethash,
    forkBlocks := [some 1150000, some 2463000, some 2675000, some 4370000, some 7280000, some 7280000, some 9069000,
      some 12244000, some 12965000, none],
    muirGlacierBlock := some 9200000, daoBlock := some 1920000 }

end Silkworm
