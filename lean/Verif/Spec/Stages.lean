import Verif.Spec.Db
import Verif.Spec.Block
import Verif.Db.Access

/-!
# Specification of what the stages of the synchronisation have to do
-/

namespace Silkworm.Spec

open Silkworm.Db (Database)

/-- The canonical chain of the blocks `first` to `last`: their hashes under their numbers, nothing beyond. -/
structure HashesTo (db : Database) (first last : Nat) (hash : Nat → Bytes) : Prop where
  ordered : Ordered db.canonicalHashes
  keys : ∀ e ∈ db.canonicalHashes, e.1.length = 8 ∧ beToNat e.1 ≤ last
  length : ∀ n, (hash n).length = 32
  mem : ∀ n, first ≤ n → n ≤ last → (beFixed 8 n, hash n) ∈ db.canonicalHashes
  distinct : ∀ m n, first ≤ m → m ≤ last → first ≤ n → n ≤ last → hash m = hash n → m = n
  range : last < 2 ^ 64

/-- The shortest big-endian representation of a number. -/
def IsShortest (b : Bytes) (n : Nat) : Prop := beToNat b = n ∧ b.head? ≠ some 0

end Silkworm.Spec
