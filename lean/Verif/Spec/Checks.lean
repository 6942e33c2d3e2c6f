import Verif.Spec.Db
import Verif.Spec.Block
import Verif.Db.Access
import Verif.Db.UtilLemmas

/-!
# Specification of what the commands that check a database have to find
-/

namespace Silkworm.Spec

open Silkworm.Db (Database Table BlockBodyForStorage storedBodyItem)

/-- Every account of the plain state is there under the hash of its address. -/
def AccountsHashed (keccak : List UInt8 → List UInt8) (db : Database) : Prop :=
  ∀ a v, a.length = 20 → (a, v) ∈ db.plainState → (keccak a, v) ∈ db.hashedAccounts

/-- Every slot of the plain state is there under the hash of its address, its incarnation and the hash of its location. -/
def SlotsHashed (keccak : List UInt8 → List UInt8) (db : Database) : Prop :=
  ∀ a i l v, a.length = 20 → i.length = 8 → l.length = 32 → (a ++ i, l ++ v) ∈ db.plainState →
    (keccak a ++ i ++ keccak l, v) ∈ db.hashedStorage

/-- Every code hash is there under the hash of its address and its incarnation. -/
def CodeHashed (keccak : List UInt8 → List UInt8) (db : Database) : Prop :=
  ∀ a i v, a.length = 20 → i.length = 8 → (a ++ i, v) ∈ db.plainContractCode → (keccak a ++ i, v) ∈ db.hashedCodeHash

/-- The hashed state is that of the plain state. -/
structure HashedRight (keccak : List UInt8 → List UInt8) (db : Database) : Prop where
  accounts : AccountsHashed keccak db
  slots : SlotsHashed keccak db
  code : CodeHashed keccak db
  onlyAccounts : ∀ e ∈ db.hashedAccounts, ∃ a, a.length = 20 ∧ (a, e.2) ∈ db.plainState ∧ e.1 = keccak a

/-- What is assumed of the tables. -/
structure HashTables (db : Database) : Prop where
  ordered : Ordered db.hashedAccounts ∧ Ordered db.hashedCodeHash
  plain : ∀ e ∈ db.plainState, e.1.length = 20 ∨ e.1.length = 28
  code : ∀ e ∈ db.plainContractCode, e.1.length = 28

/-- The transactions of the stored bodies, which are `raw base`, `raw (base + 1)`, ... -/
structure BodiesStored (db : Database) (raw : Nat → List UInt8) : Prop where
  ordered : Ordered db.ethTx ∧ Ordered db.txLookup
  keys : (∀ e ∈ db.blockBodies, e.1.length = 40) ∧ ∀ e ∈ db.ethTx, e.1.length = 8
  lookups : ∀ e ∈ db.txLookup, e.2.length ≤ 8
  body : ∀ e ∈ db.blockBodies, ∃ b : BlockBodyForStorage, b.WF ∧ e.2 = rlp (storedBodyItem b) ∧
    b.baseTxnId + b.txnCount < 2 ^ 64 ∧ ∀ j, j < b.txnCount → (beFixed 8 (b.baseTxnId + j), raw (b.baseTxnId + j)) ∈ db.ethTx

/-- Transaction `i` belongs to this record of a body. -/
def BodyHas (record : List UInt8) (i : Nat) : Prop :=
  ∃ b : BlockBodyForStorage, b.WF ∧ record = rlp (storedBodyItem b) ∧ b.baseTxnId ≤ i ∧ i < b.baseTxnId + b.txnCount

/-- The hash of a transaction leads to this block. -/
def LeadsTo (db : Database) (hash : List UInt8) (n : Nat) : Prop := ∃ v, (hash, v) ∈ db.txLookup ∧ beToNat v = n

/-- Every canonical hash leads back to the number it is stored under. -/
def NumbersRight (db : Database) : Prop := ∀ e ∈ db.canonicalHashes, (e.2, e.1) ∈ db.headerNumbers

/-- Two maps have the same values. -/
def SameValues {α β : Type} [DecidableEq α] (a b : AMap α β) : Prop := ∀ k, a.get? k = b.get? k

/-- The value recorded for a slot before it was changed. -/
def slotBefore (m : AMap (List UInt8) (AMap Nat (AMap (List UInt8) (List UInt8)))) (address : List UInt8) (incarnation : Nat)
    (location : List UInt8) : Option (List UInt8) :=
  ((m.get? address).bind (·.get? incarnation)).bind (·.get? location)

/-- Nothing is recorded without a slot. -/
def NoEmptyParts (m : AMap (List UInt8) (AMap Nat (AMap (List UInt8) (List UInt8)))) : Prop :=
  ∀ a x, m.get? a = some x → (∃ i y, x.get? i = some y) ∧ ∀ i y, x.get? i = some y → ∃ l v, y.get? l = some v

end Silkworm.Spec
