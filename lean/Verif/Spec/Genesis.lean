import Mathlib.Data.List.Forall2
import Verif.Spec.StateRoot
import Verif.Spec.Util
import Verif.Db.Genesis

/-!
# Specification of the genesis block of a document (go-ethereum's format, Yellow Paper, appendix I)
-/

namespace Silkworm.Spec

open Silkworm.Genesis (Document Allocation Member)

/-- What is assumed of the hash function: 32 bytes, the known hashes, different addresses have different hashes. -/
structure GenesisHash (keccak : List UInt8 → List UInt8) : Prop where
  length : ∀ x, (keccak x).length = 32
  empty : keccak [] = kEmptyHash
  emptyString : keccak [0x80] = kEmptyRoot
  emptyList : keccak [0xc0] = kEmptyListHash
  addresses : ∀ a b, a.length = 20 → b.length = 20 → keccak a = keccak b → a = b

/-- What is assumed of the parsers of numbers: what they return has the width of its type. -/
structure GenesisNumbers (parse256 parse64 : List UInt8 → Option Nat) : Prop where
  wide : ∀ s n, parse256 s = some n → n < 2 ^ 256
  narrow : ∀ s n, parse64 s = some n → n < 2 ^ 64

/-- A text stands for these bytes: two hexadecimal digits for each, possibly behind "0x". -/
def HexBytes (text bytes : List UInt8) : Prop :=
  ∃ digits, HexText text digits ∧ digits.length = 2 * bytes.length ∧ hexNumber digits = some (fromBe bytes)

/-- An allocation gives this balance to this address. -/
def Gives (parse256 : List UInt8 → Option Nat) (item : List UInt8 × Allocation) (w : List UInt8 × Nat) : Prop :=
  HexBytes item.1 w.1 ∧ w.1.length = 20 ∧ ∃ text, item.2.balance = some text ∧ parse256 text = some w.2

/-- The balances of a document. -/
def GenesisBalances (parse256 : List UInt8 → Option Nat) (d : Document) (ws : List (List UInt8 × Nat)) : Prop :=
  (∃ items, d.alloc = .object items ∧ List.Forall₂ (Gives parse256) items ws) ∨ d.alloc = .absent ∧ ws = []

/-- An allocation stands for this account with its storage. -/
def Allocates (keccak : List UInt8 → List UInt8) (parse256 : List UInt8 → Option Nat) (item : List UInt8 × Allocation)
    (w : List UInt8 × Account × List (List UInt8 × List UInt8)) : Prop :=
  HexBytes item.1 w.1 ∧ w.1.length = 20 ∧ (∃ text, item.2.balance = some text ∧ parse256 text = some w.2.1.balance) ∧
  w.2.1.nonce = item.2.nonce ∧ w.2.1.codeHash = keccak item.2.code ∧ w.2.2 = item.2.storage

/-- The accounts of a document. -/
def GenesisWorld (keccak : List UInt8 → List UInt8) (parse256 : List UInt8 → Option Nat) (d : Document)
    (world : List (List UInt8 × Account × List (List UInt8 × List UInt8))) : Prop :=
  match d.alloc with
  | .object items => List.Forall₂ (Allocates keccak parse256) items world
  | _ => world = []

/-- A member is a string that stands for this number. -/
def NumberMember (parse : List UInt8 → Option Nat) (m : Member) (n : Nat) : Prop := ∃ s, m = .string s ∧ parse s = some n

/-- A member is a string that stands for these bytes. -/
def BytesMember (m : Member) (b : List UInt8) : Prop := ∃ s, m = .string s ∧ HexBytes s b

/-- This is the header of the genesis block of the document. -/
structure IsGenesis (keccak : List UInt8 → List UInt8) (parse256 parse64 : List UInt8 → Option Nat) (d : Document)
    (h : BlockHeader) : Prop where
  number : h.number = 0
  parentHash : h.parentHash = List.replicate 32 0
  beneficiary : h.beneficiary = List.replicate 20 0
  logsBloom : h.logsBloom = List.replicate 256 0
  gasUsed : h.gasUsed = 0
  baseFee : h.baseFeePerGas = none
  /-- No ommers: the hash of the empty list. -/
  ommersHash : h.ommersHash = keccak [0xc0]
  /-- No transactions and no receipts: the roots of empty tries. -/
  transactionsRoot : h.transactionsRoot = keccak [0x80]
  receiptsRoot : h.receiptsRoot = keccak [0x80]
  stateRoot : ∃ world, GenesisWorld keccak parse256 d world ∧ h.stateRoot = stateRoot keccak world
  difficulty : NumberMember parse256 d.difficulty h.difficulty
  gasLimit : NumberMember parse64 d.gasLimit h.gasLimit
  timestamp : NumberMember parse64 d.timestamp h.timestamp
  /-- Eight bytes, the most significant first. -/
  nonce : h.nonce.length = 8 ∧ NumberMember parse64 d.nonce (fromBe h.nonce)
  extraData : BytesMember d.extraData h.extraData
  mixHash : h.mixHash.length = 32 ∧ (d.mixhash = .absent ∧ h.mixHash = List.replicate 32 0 ∨ BytesMember d.mixhash h.mixHash)

/-- A document from which a chain can be started: all members there, of the right form, with a configuration; no address twice. -/
structure GenesisValid (parse256 parse64 : List UInt8 → Option Nat) (d : Document) : Prop where
  difficulty : ∃ n, NumberMember parse256 d.difficulty n
  gasLimit : ∃ n, NumberMember parse64 d.gasLimit n
  timestamp : ∃ n, NumberMember parse64 d.timestamp n
  nonce : ∃ n, NumberMember parse64 d.nonce n
  extraData : ∃ b, BytesMember d.extraData b
  /-- A mix hash has 32 bytes; only with Ethash must there be one. -/
  mixHash : (∃ b, b.length = 32 ∧ BytesMember d.mixhash b) ∨
    d.mixhash = .absent ∧ ∀ j text, d.config = .object j text → j "ethash" = none
  config : ∃ j text c, d.config = .object j text ∧ ChainConfig.fromJson j = .ok (some c)
  alloc : ∃ ws, GenesisBalances parse256 d ws ∧ (ws.map (·.1)).Nodup

end Silkworm.Spec
