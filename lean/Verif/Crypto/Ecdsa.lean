/-!
# Model of core/silkworm/crypto/ecdsa.{hpp,cpp}

`intx::uint256` is a natural number; arithmetic is reduced modulo `2^256` explicitly.
`ecdsa::recover` (secp256k1) is a parameter wherever it is needed.
-/

namespace Silkworm.Ecdsa

/-- core/silkworm/crypto/ecdsa.hpp:30-31 (`kSecp256k1n`). -/
def secp256k1n : Nat := 0xfffffffffffffffffffffffffffffffebaaedce6af48a03bbfd25e8cd0364141

/-- core/silkworm/crypto/ecdsa.hpp:33 (`kSecp256k1Halfn`, `n >> 1`). -/
def secp256k1Halfn : Nat := secp256k1n / 2

/-- core/silkworm/crypto/ecdsa.cpp:25-31 (`y_parity_and_chain_id_to_v`). -/
def yParityAndChainIdToV (odd : Bool) (chainId : Option Nat) : Nat :=
  match chainId with
  | some c => (c * 2 + 35 + (if odd then 1 else 0)) % 2 ^ 256
  | none => if odd then 28 else 27

/-- core/silkworm/crypto/ecdsa.cpp:33-49 (`v_to_y_parity_and_chain_id`); the subtraction `v - 35` wraps. -/
def vToYParityAndChainId (v : Nat) : Bool × Option Nat :=
  if v = 27 ∨ v = 28 then (decide (v = 28), none)
  else
    let w := (v + 2 ^ 256 - 35) % 2 ^ 256
    (decide ((w % 2 ^ 64) % 2 = 1), some (w / 2))

/-- core/silkworm/crypto/ecdsa.cpp:51-63 (`is_valid_signature`). -/
def isValidSignature (r s : Nat) (homestead : Bool) : Bool :=
  if r = 0 ∨ s = 0 then false
  else if r ≥ secp256k1n ∧ s ≥ secp256k1n then false
  else if homestead = true ∧ s > secp256k1Halfn then false
  else true

end Silkworm.Ecdsa
