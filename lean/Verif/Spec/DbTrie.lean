import Verif.Spec.TrieRecords
import Verif.Spec.StateRoot
import Verif.Spec.Db

/-!
# Specification of the hashed state and of the tables with trie records

The hashed state has one entry for an account: the hash of its address, the account and its slots, each with the hash of its
location and its value.
-/

namespace Silkworm.Spec

open Silkworm

/-- An account of the hashed state. -/
structure HashedAccount where
  key : List UInt8
  account : Account
  slots : List (List UInt8 × Nat)

/-- The entries of the storage trie of an account, YP (7)-(9). -/
def HashedAccount.storageTrie (a : HashedAccount) : List (List UInt8 × List UInt8) :=
  a.slots.map (fun s => (s.1, rlp (num s.2)))

/-- The entries of the state trie, YP (10)-(12). -/
def stateTrie (keccak : List UInt8 → List UInt8) (state : List HashedAccount) : List (List UInt8 × List UInt8) :=
  state.map (fun a => (a.key, rlp (accountItem a.account (trieRoot keccak a.storageTrie))))

/-- Slots are kept under the hash of the address and the eight bytes of the incarnation. -/
def HashedAccount.storageKey (a : HashedAccount) : List UInt8 := a.key ++ beFixed 8 a.account.incarnation

/-- The tables of hashed accounts and hashed storage hold this state. An account without incarnation has no storage. -/
structure InTables (state : List HashedAccount) (accounts storage : List (List UInt8 × List UInt8)) : Prop where
  accounts : accounts = state.map (fun a => (a.key, accountRecord a.account false))
  storage : ∀ a ∈ state, a.account.incarnation ≠ 0 → stored storage a.storageKey = a.slots.map (fun s => s.1 ++ be s.2)
  none : ∀ a ∈ state, a.account.incarnation = 0 → a.slots = []

/-- Hashes have 32 bytes, the state is in the order of hashes, accounts and values have the sizes their types allow, and no
two slots of an account have hashes that agree in 27 bytes. -/
structure ProperState (state : List HashedAccount) : Prop where
  keys : ∀ a ∈ state, a.key.length = 32
  sorted : state.Pairwise (fun a b => KeyLt a.key b.key)
  accounts : ∀ a ∈ state, a.account.WF
  locations : ∀ a ∈ state, ∀ s ∈ a.slots, s.1.length = 32
  values : ∀ a ∈ state, ∀ s ∈ a.slots, s.2 < 2 ^ 256
  slots : ∀ a ∈ state, a.slots.Pairwise (fun s t => KeyLt s.1 t.1 ∧ s.1.take 27 ≠ t.1.take 27)

/-- A 16-bit number as two bytes. -/
def twoBytes (n : Nat) : List UInt8 := [UInt8.ofNat (n / 256), UInt8.ofNat (n % 256)]

/-- The bytes of a record: three masks, the root hash if there is one, the hashes. -/
def recordBytes (stateMask treeMask hashMask : Nat) (hashes : List (List UInt8)) (rootHash : Option (List UInt8)) :
    List UInt8 :=
  twoBytes stateMask ++ twoBytes treeMask ++ twoBytes hashMask ++ rootHash.getD [] ++ hashes.flatten

/-- `v` is the record that belongs at `p` for the trie with these entries. -/
def RecordAt (keccak : List UInt8 → List UInt8) (entries : List (List UInt8 × List UInt8)) (p v : List UInt8) : Prop :=
  let T := entries.map (fun e => (nibbles e.1, e.2))
  Recorded T p ∧ ∃ sm tm hm hs r, IsRecord keccak T p sm tm hm hs r ∧ v = recordBytes sm tm hm hs r

/-- There is a record at `p` for the trie with these entries. -/
def HasRecord (entries : List (List UInt8 × List UInt8)) (p : List UInt8) : Prop :=
  Recorded (entries.map (fun e => (nibbles e.1, e.2))) p

/-- The world state whose addresses and locations hash to this state, in any order. -/
def WorldHashesTo (keccak : List UInt8 → List UInt8) (world : List (List UInt8 × Account × List (List UInt8 × List UInt8)))
    (state : List HashedAccount) : Prop :=
  ∃ f : HashedAccount → List UInt8 × Account × List (List UInt8 × List UInt8),
    (state.map f).Perm world ∧
    ∀ a ∈ state, a.key = keccak (f a).1 ∧ a.account = (f a).2.1 ∧
      a.slots.Perm (((f a).2.2.filter (fun s => fromBe s.2 ≠ 0)).map (fun s => (keccak s.1, fromBe s.2)))

end Silkworm.Spec
