import Mathlib.Data.List.Forall2
import Verif.Spec.Genesis
import Verif.Tools.Consensus

/-!
# What consensus tests say, independently of the code that runs them
-/

namespace Silkworm.Spec

open Silkworm.Tools

/-- An account of a test, as values. -/
structure Preset where
  address : List UInt8
  balance : Nat
  nonce : Nat
  code : List UInt8
  storage : List (List UInt8 × List UInt8)

/-- A text stands for this number, in at most `k` bytes. -/
def HexUint (k : Nat) (text : List UInt8) (n : Nat) : Prop := ∃ b, HexBytes text b ∧ b.length ≤ k ∧ fromBe b = n

/-- A text stands for this word of `k` bytes; zeros in front may be left out. -/
def HexWord (k : Nat) (text w : List UInt8) : Prop := ∃ b, HexBytes text b ∧ b.length ≤ k ∧ w = List.replicate (k - b.length) 0 ++ b

/-- The texts stand for these values. -/
structure Describes (t : TestAccount) (p : Preset) : Prop where
  address : HexWord 20 t.address p.address
  balance : HexUint 32 t.balance p.balance
  nonce : HexUint 8 t.nonce p.nonce
  code : HexBytes t.code p.code
  storage : List.Forall₂ (fun s w => HexWord 32 s.1 w.1 ∧ HexWord 32 s.2 w.2) t.storage p.storage

/-- An account of a state is as the values say: every slot has its value, and those that are not mentioned are zero. -/
def HasPreset (b : MemoryBuffer) (p : Preset) : Prop :=
  ∃ a, b.readAccount p.address = some a ∧ a.balance = p.balance ∧ a.nonce = p.nonce ∧ b.readCode a.codeHash = p.code ∧
    ∀ k, (∀ v, (k, v) ∈ p.storage → b.readStorage p.address a.incarnation k = v) ∧
      ((∀ v, (k, v) ∉ p.storage) → b.readStorage p.address a.incarnation k = List.replicate 32 0)

/-- A state consists of exactly these accounts. -/
structure SameAs (b : MemoryBuffer) (ps : List Preset) : Prop where
  accounts : ∀ p ∈ ps, HasPreset b p
  others : ∀ address, (∀ p ∈ ps, p.address ≠ address) → b.readAccount address = none

/-! ## Blocks -/

/-- A text stands for this block and nothing else. -/
def ReadsBlock (text : List UInt8) (block : Block) : Prop := ∃ bytes, HexBytes text bytes ∧ Rlp.decodeBlock bytes = .ok (block, [])

/-- A text stands for no block: it is not hexadecimal, not the encoding of a block, or there is more behind it. -/
def NoBlock (text : List UInt8) : Prop :=
  (∀ bytes, ¬ HexBytes text bytes) ∨
    ∃ bytes, HexBytes text bytes ∧
      ((∃ e, Rlp.decodeBlock bytes = .err e) ∨ ∃ block rest, Rlp.decodeBlock bytes = .ok (block, rest) ∧ rest ≠ [])

/-- A block of a test is taken in or turned down as expected. State roots are to be looked at only for "InvalidStateRoot". -/
inductive AsExpected (env : ChainEnv) (c : Blockchain) (t : TestBlock) : Blockchain → Prop
  | valid (block : Block) (c' : Blockchain) : t.expectException = none → ReadsBlock t.rlp block →
      c.insertBlock env block false = .ok (c', .ok) → AsExpected env c t c'
  | noBlock (x : List UInt8) : t.expectException = some x → NoBlock t.rlp → AsExpected env c t c
  | invalid (x : List UInt8) (block : Block) (c' : Blockchain) (e : ValidationError) : t.expectException = some x → ReadsBlock t.rlp block →
      c.insertBlock env block (x == kInvalidStateRoot) = .ok (c', .invalid e) → AsExpected env c t c'

/-- All blocks of a test, one after the other. -/
inductive AllAsExpected (env : ChainEnv) : Blockchain → List TestBlock → Blockchain → Prop
  | nil (c : Blockchain) : AllAsExpected env c [] c
  | cons (c c1 c2 : Blockchain) (t : TestBlock) (l : List TestBlock) : AsExpected env c t c1 → AllAsExpected env c1 l c2 →
      AllAsExpected env c (t :: l) c2

/-- The texts of a test stand for these values: no account and no slot twice. -/
structure Prescribes (ts : List TestAccount) (ps : List Preset) : Prop where
  accounts : List.Forall₂ Describes ts ps
  addresses : (ps.map Preset.address).Nodup
  slots : ∀ p ∈ ps, (p.storage.map Prod.fst).Nodup

/-- The environment of a test: the rules of its network, with or without proof of work. -/
def environment (env : ChainEnv) (t : BlockchainTest) : ChainEnv → Prop := fun e =>
  ∃ config engine, kNetworkConfig.lookup t.network = some config ∧
    (t.sealEngine = "Ethash" ∧ engine = SealEngineType.ethash ∨ t.sealEngine = "NoProof" ∧ engine = SealEngineType.noProof) ∧
    e = { env with config := { config with sealEngine := engine } }

/-! ## Networks -/

/-- The rules that a name stands for; "EIP2384" is Istanbul with a later ice age. -/
def rulesOf : List (String × Nat) :=
  [("Frontier", 0), ("Homestead", 1), ("EIP150", 2), ("EIP158", 3), ("Byzantium", 4), ("Constantinople", 5),
   ("ConstantinopleFix", 6), ("Istanbul", 7), ("EIP2384", 7), ("Berlin", 8), ("London", 9)]

/-- The names of two sets of rules, and the network that changes from one to the other at block 5. -/
def transitions : List (String × String) :=
  [("Frontier", "Homestead"), ("Homestead", "EIP150"), ("EIP158", "Byzantium"), ("Byzantium", "ConstantinopleFix"), ("Berlin", "London")]

/-! ## Transactions -/

/-- The bytes of a text are a transaction that is valid in a network and has this sender. -/
def ValidOn (recover : Transaction → Transaction) (text : List UInt8) (network : String) (sender : List UInt8) : Prop :=
  ∃ bytes t config, HexBytes text bytes ∧ Rlp.decodeTransaction bytes = .ok (t, []) ∧ kNetworkConfig.lookup network = some config ∧
    preValidateTransaction t 0 config none = .ok () ∧ (recover t).sender = some sender

/-- A text consists of the small hexadecimal digits of these bytes. -/
def LowerHex (text bytes : List UInt8) : Prop :=
  (∀ ch ∈ text, ch ∈ "0123456789abcdef".toList.map fun c => UInt8.ofNat c.toNat) ∧ text.length = 2 * bytes.length ∧
    hexNumber text = some (fromBe bytes)

end Silkworm.Spec
