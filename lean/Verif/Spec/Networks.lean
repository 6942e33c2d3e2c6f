import Verif.Chain.Config
import Verif.Types.Block

/-!
# The public networks

From EIP-606 to EIP-609, EIP-1013, EIP-1716, EIP-1679, EIP-2387, the announcements of Berlin and London, and EIP-225.
-/

namespace Silkworm.Spec

/-- The networks in question by chain id (EIP-155): Mainnet, Ropsten, Rinkeby and Görli. -/
def networks : List Nat := [1, 3, 4, 5]

/-- Hard forks by name, each with the blocks of the four networks. -/
def hardForks : List (String × Nat × Nat × Nat × Nat) :=
  [("Homestead", 1150000, 0, 1, 0),
   ("Tangerine Whistle", 2463000, 0, 2, 0),
   ("Spurious Dragon", 2675000, 10, 3, 0),
   ("Byzantium", 4370000, 1700000, 1035301, 0),
   ("Constantinople", 7280000, 4230000, 3660663, 0),
   ("Petersburg", 7280000, 4939394, 4321234, 0),
   ("Istanbul", 9069000, 6485846, 5435345, 1561651),
   ("Berlin", 12244000, 9812189, 8290928, 4460644),
   ("London", 12965000, 10499401, 8897988, 5062605)]

/-- The block of a network at which its `r`-th hard fork happens (1 = Homestead). -/
def activation (network r : Nat) : Option Nat :=
  match hardForks[r - 1]? with
  | none => none
  | some (_, mainnet, ropsten, rinkeby, goerli) =>
    if network = 1 then some mainnet else if network = 3 then some ropsten else if network = 4 then some rinkeby
    else if network = 5 then some goerli else none

/-- EIP-225: Rinkeby and Görli are proof-of-authority networks. -/
def isClique (network : Nat) : Prop := network = 4 ∨ network = 5

/-- EIP-225: the vanity of 32 bytes and the signature of 65 bytes in the extra data, and difficulty 2 in turn or 1 out of turn. -/
def CliqueHeader (h : BlockHeader) : Prop := 32 + 65 ≤ h.extraData.length ∧ (h.difficulty = 1 ∨ h.difficulty = 2)

end Silkworm.Spec
