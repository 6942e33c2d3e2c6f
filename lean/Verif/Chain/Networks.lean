import Verif.Chain.Config

/-!
# Model of core/silkworm/chain/config.hpp:124-187: the configurations of the public networks
-/

namespace Silkworm

/-- core/silkworm/chain/config.hpp:124-140 (`kRopstenConfig`). -/
def kRopstenConfig : ChainConfig :=
  { chainId := 3, sealEngine := .ethash,
    forkBlocks := [some 0, some 0, some 10, some 1700000, some 4230000, some 4939394, some 6485846, some 9812189, some 10499401,
      none],
    muirGlacierBlock := some 7117117 }

/-- core/silkworm/chain/config.hpp:142-156 (`kRinkebyConfig`). -/
def kRinkebyConfig : ChainConfig :=
  { chainId := 4, sealEngine := .clique,
    forkBlocks := [some 1, some 2, some 3, some 1035301, some 3660663, some 4321234, some 5435345, some 8290928, some 8897988,
      none] }

/-- core/silkworm/chain/config.hpp:158-172 (`kGoerliConfig`). -/
def kGoerliConfig : ChainConfig :=
  { chainId := 5, sealEngine := .clique,
    forkBlocks := [some 0, some 0, some 0, some 0, some 0, some 0, some 1561651, some 4460644, some 5062605, none] }

/-- core/silkworm/chain/config.hpp:174-187 (`lookup_chain_config`). -/
def lookupChainConfig (chainId : Nat) : Option ChainConfig :=
  if chainId = kMainnetConfig.chainId then some kMainnetConfig
  else if chainId = kRopstenConfig.chainId then some kRopstenConfig
  else if chainId = kRinkebyConfig.chainId then some kRinkebyConfig
  else if chainId = kGoerliConfig.chainId then some kGoerliConfig
  else none

end Silkworm
