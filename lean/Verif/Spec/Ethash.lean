import Verif.Spec.Keccak
import Mathlib.Data.Nat.Prime.Defs
import Mathlib.Order.Bounds.Defs

/-!
# Specification of Ethash

After the programs of the specification of Ethash (revision 23) and appendix J of the Yellow Paper. Numbers are unbounded, as they are
there; what is hashed is a list of words of 32 bits, each of which is four bytes, the lowest first.
-/

namespace Silkworm.Spec.Ethash

open Silkworm.Spec.Keccak (number)

/-- `serialize_hash` -/
def serialize (ws : List Nat) : List UInt8 :=
  ws.flatMap (fun w => [UInt8.ofNat (w % 256), UInt8.ofNat (w / 256 % 256), UInt8.ofNat (w / 256 ^ 2 % 256), UInt8.ofNat (w / 256 ^ 3 % 256)])

/-- `deserialize_hash` -/
def deserialize : List UInt8 → List Nat
  | a :: b :: c :: d :: rest => number [a, b, c, d] :: deserialize rest
  | _ => []

/-- `sha3_512` of a string, and of a list of words. -/
def hash512 (m : List UInt8) : List Nat := deserialize (Keccak.keccak512 m)

/-- `sha3_256` of a list of words. -/
def hash256 (ws : List Nat) : List Nat := deserialize (Keccak.keccak256 (serialize ws))

/-- `fnv`, with the prime 0x01000193. -/
def fnv (a b : Nat) : Nat := (a * 0x01000193 ^^^ b) % 2 ^ 32

/-- `get_cache_size` in items of 64 bytes: 2^24 bytes and 2^17 more for each epoch, up to a prime number of items. -/
def CacheItems (epoch n : Nat) : Prop := IsGreatest {p : Nat | p.Prime ∧ 64 * p ≤ 2 ^ 24 + 2 ^ 17 * epoch} n

/-- `get_full_size` in items of 128 bytes: 2^30 bytes and 2^23 more for each epoch, up to a prime number of items. -/
def DatasetItems (epoch n : Nat) : Prop := IsGreatest {p : Nat | p.Prime ∧ 128 * p ≤ 2 ^ 30 + 2 ^ 23 * epoch} n

/-- `get_seedhash`: as often as there are epochs before. -/
def seedHash : Nat → List UInt8
  | 0 => List.replicate 32 0
  | e + 1 => Keccak.keccak256 (seedHash e)

/-- `mkcache`: `n` items, each the hash of the one before. -/
def sequential (seed : List UInt8) : Nat → List Nat
  | 0 => hash512 seed
  | i + 1 => hash512 (serialize (sequential seed i))

/-- `mkcache`: item `i` becomes the hash of its predecessor and the item that its first word says. -/
def remix (n : Nat) (o : List (List Nat)) (i : Nat) : List (List Nat) :=
  let v := (o.getD i []).getD 0 0 % n
  o.set i (hash512 (serialize (List.zipWith (· ^^^ ·) (o.getD ((i + n - 1) % n) []) (o.getD v []))))

/-- `mkcache`: three rounds. -/
def mkcache (n : Nat) (seed : List UInt8) : List (List Nat) :=
  (List.range 3).foldl (fun o _ => (List.range n).foldl (remix n) o) ((List.range n).map (sequential seed))

/-- `calc_dataset_item` -/
def datasetItem (cache : List (List Nat)) (i : Nat) : List Nat :=
  let n := cache.length
  let mix := cache.getD (i % n) []
  let mix := hash512 (serialize (mix.set 0 (mix.getD 0 0 ^^^ i)))
  let mix := (List.range 256).foldl (fun mix j => List.zipWith fnv mix (cache.getD (fnv (i ^^^ j) (mix.getD (j % 16) 0) % n) [])) mix
  hash512 (serialize mix)

/-- `hashimoto`: one access to a dataset of `n` items of 128 bytes, which are two of 64. -/
def access (n : Nat) (lookup : Nat → List Nat) (s mix : List Nat) (i : Nat) : List Nat :=
  let p := fnv (i ^^^ s.getD 0 0) (mix.getD (i % 32) 0) % n
  List.zipWith fnv mix (lookup (2 * p) ++ lookup (2 * p + 1))

/-- `hashimoto`: four words become one. -/
def compress : List Nat → List Nat
  | a :: b :: c :: d :: rest => fnv (fnv (fnv a b) c) d :: compress rest
  | _ => []

/-- `hashimoto` for a nonce of eight bytes: the mix digest and the result. -/
def hashimoto (n : Nat) (lookup : Nat → List Nat) (header nonce : List UInt8) : List UInt8 × List UInt8 :=
  let s := hash512 (header ++ nonce.reverse)
  let cmix := compress ((List.range 64).foldl (access n lookup s) (s ++ s))
  (serialize cmix, serialize (hash256 (s ++ cmix)))

/-- The mix digest and the result for a block, which depends on its number by the epoch of 30000 blocks. -/
def Pow (number : Nat) (header nonce mix result : List UInt8) : Prop :=
  ∃ c n, CacheItems (number / 30000) c ∧ DatasetItems (number / 30000) n ∧
    hashimoto n (datasetItem (mkcache c (seedHash (number / 30000)))) header nonce = (mix, result)

/-- The number of a big-endian string. -/
def value (m : List UInt8) : Nat := number m.reverse

/-- Yellow Paper (sections 4.3.4 and 11.5): the mix digest is right, and the result as a number is at most 2^256 / difficulty. -/
def ValidSeal (number difficulty : Nat) (header nonce mix : List UInt8) : Prop :=
  ∃ result, Pow number header nonce mix result ∧ value result * difficulty ≤ 2 ^ 256

end Silkworm.Spec.Ethash
