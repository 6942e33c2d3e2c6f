import Verif.Spec.Db
import Verif.Spec.Block
import Verif.Db.Access

/-!
# Specification of blocks in the database (Erigon's layout)
-/

namespace Silkworm.Spec

open Silkworm.Db (Database)

/-- Block `b` is stored as the canonical block `n` with this hash and with its transactions under the numbers from `base` on.
Nothing is said about senders. -/
structure BlockStored (db : Database) (n : Nat) (hash : Bytes) (base : Nat) (b : Block) : Prop where
  ordered : Ordered db.canonicalHashes ∧ Ordered db.headers ∧ Ordered db.blockBodies ∧ Ordered db.ethTx ∧ Ordered db.senders
  hashLength : hash.length = 32
  canonical : (beFixed 8 n, hash) ∈ db.canonicalHashes
  header : (beFixed 8 n ++ hash, rlp (headerItem b.header)) ∈ db.headers
  body : (beFixed 8 n ++ hash,
    rlp (.list [num base, num b.transactions.length, .list (b.ommers.map headerItem)])) ∈ db.blockBodies
  transactions : ∀ j (h : j < b.transactions.length), (beFixed 8 (base + j), rlp (txItem b.transactions[j])) ∈ db.ethTx
  keys : ∀ e ∈ db.ethTx, e.1.length = 8
  range : base + b.transactions.length < 2 ^ 64
  headerWF : b.header.WF
  ommersWF : ∀ h ∈ b.ommers, h.WF
  codable : ∀ t ∈ b.transactions, t.Codable
  size : (rlp (.list [num base, num b.transactions.length, .list (b.ommers.map headerItem)])).length < 2 ^ 64

/-- The senders of the transactions of a block are stored one after the other. -/
structure SendersStored (db : Database) (n : Nat) (hash : Bytes) (senders : List Bytes) : Prop where
  length : ∀ s ∈ senders, s.length = 20
  mem : (beFixed 8 n ++ hash, senders.flatten) ∈ db.senders

/-- The block without senders, as it is transmitted. -/
def withoutSenders (b : Block) : Block := { b with transactions := b.transactions.map fun t => { t with sender := none } }

/-- The block with these senders. -/
def withSenders (b : Block) (senders : List Bytes) : Block :=
  { b with transactions := (b.transactions.zip senders).map fun p => { p.1 with sender := some p.2 } }

end Silkworm.Spec
