import Verif.Types.Transaction

/-!
# Model of core/silkworm/chain/intrinsic_gas.cpp and the constants of protocol_param.hpp
-/

namespace Silkworm

namespace Fee
/-- core/silkworm/chain/protocol_param.hpp:33 (`kAccessListStorageKeyCost`). -/
def accessListStorageKeyCost : Nat := 1900
/-- core/silkworm/chain/protocol_param.hpp:34 (`kAccessListAddressCost`). -/
def accessListAddressCost : Nat := 2400
/-- core/silkworm/chain/protocol_param.hpp:44 (`kGTxCreate`). -/
def gTxCreate : Nat := 32000
/-- core/silkworm/chain/protocol_param.hpp:45 (`kGTxDataZero`). -/
def gTxDataZero : Nat := 4
/-- core/silkworm/chain/protocol_param.hpp:46 (`kGTxDataNonZeroFrontier`). -/
def gTxDataNonZeroFrontier : Nat := 68
/-- core/silkworm/chain/protocol_param.hpp:47 (`kGTxDataNonZeroIstanbul`). -/
def gTxDataNonZeroIstanbul : Nat := 16
/-- core/silkworm/chain/protocol_param.hpp:48 (`kGTransaction`). -/
def gTransaction : Nat := 21000
end Fee

/-- Addition of `intx::uint128`. -/
def add128 (a b : Nat) : Nat := (a + b) % 2 ^ 128

/-- Multiplication of `intx::uint128`. -/
def mul128 (a b : Nat) : Nat := (a * b) % 2 ^ 128

/-- core/silkworm/chain/intrinsic_gas.cpp:25-51 (`intrinsic_gas`). -/
def intrinsicGas (t : Transaction) (homestead istanbul : Bool) : Nat :=
  let gas := Fee.gTransaction
  let gas := if t.to.isNone ∧ homestead = true then add128 gas Fee.gTxCreate else gas
  let gas := add128 gas (mul128 t.accessList.length Fee.accessListAddressCost)
  let gas := t.accessList.foldl (fun g e => add128 g (mul128 e.storageKeys.length Fee.accessListStorageKeyCost)) gas
  if t.data = [] then gas
  else
    let nonZeroBytes := t.data.countP (fun c => c != 0)
    let nonZeroGas := if istanbul then Fee.gTxDataNonZeroIstanbul else Fee.gTxDataNonZeroFrontier
    let gas := add128 gas (mul128 nonZeroBytes nonZeroGas)
    let zeroBytes := (t.data.length + 2 ^ 128 - nonZeroBytes) % 2 ^ 128
    add128 gas (mul128 zeroBytes Fee.gTxDataZero)

end Silkworm
