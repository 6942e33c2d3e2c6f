/-!
# Specification of RLP (Yellow Paper, appendix B)

Independent of the model: items are byte strings or lists of items.
-/

namespace Silkworm.Spec

/-- An RLP item: YP equations (178)-(181). -/
inductive Item where
  | str (b : List UInt8)
  | list (l : List Item)

/-- `BE(n)`: big-endian representation without leading zeros, YP (185). -/
def be (n : Nat) : List UInt8 :=
  if _h : n = 0 then [] else be (n / 256) ++ [UInt8.ofNat (n % 256)]
  termination_by n
  decreasing_by omega

/-- Length prefix: one byte `base + len` below 56, otherwise `base + 55 + ‖BE(len)‖` followed by `BE(len)`,
YP (183)-(187) with `base = 128` for strings and `192` for lists. -/
def lenPrefix (base len : Nat) : List UInt8 :=
  if len < 56 then [UInt8.ofNat (base + len)]
  else UInt8.ofNat (base + 55 + (be len).length) :: be len

/-- `Rb`: serialization of a byte string, YP (183). -/
def rlpStr (b : List UInt8) : List UInt8 :=
  match b with
  | [x] => if x < 128 then [x] else lenPrefix 128 1 ++ [x]
  | _ => lenPrefix 128 b.length ++ b

mutual
/-- RLP of an item, YP (182). -/
def rlp : Item → List UInt8
  | .str b => rlpStr b
  | .list l => lenPrefix 192 (rlpItems l).length ++ rlpItems l
/-- Concatenated serializations of the items of a list, YP (188). -/
def rlpItems : List Item → List UInt8
  | [] => []
  | x :: xs => rlp x ++ rlpItems xs
end

mutual
/-- RLP is defined only when every string and every list payload is shorter than `2^64` bytes, YP (183), (187). -/
def fits : Item → Prop
  | .str b => b.length < 2 ^ 64
  | .list l => (rlpItems l).length < 2 ^ 64 ∧ fitsItems l
/-- Every item of the list fits. -/
def fitsItems : List Item → Prop
  | [] => True
  | x :: xs => fits x ∧ fitsItems xs
end

/-- A number as an RLP string. -/
def num (n : Nat) : Item := .str (be n)

end Silkworm.Spec
