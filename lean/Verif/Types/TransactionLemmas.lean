import Verif.Spec.RlpLemmas
import Verif.Spec.Transaction

/-! Helper lemmas for transactions: encoders agree with the specification; decoders invert them. -/

namespace Silkworm

open Rlp Spec

theorem pow256' : (2 : Nat) ^ 256 = 256 ^ 32 := by decide

/-! ### Specification sizes -/

theorem lenPrefix_pos (b n : Nat) : 1 ≤ (lenPrefix b n).length := by
  unfold lenPrefix; split <;> simp

theorem rlpStr_length_ge (b : Bytes) : b.length ≤ (rlpStr b).length := by
  unfold rlpStr
  split
  · split <;> simp
  · simp

mutual
theorem fits_of_length : ∀ i : Item, (rlp i).length < 2 ^ 64 → fits i
  | .str b, h => by
    simp only [rlp] at h
    simp only [fits]
    have := rlpStr_length_ge b
    omega
  | .list l, h => by
    simp only [rlp, List.length_append] at h
    simp only [fits]
    exact ⟨by omega, fitsItems_of_length l (by omega)⟩
theorem fitsItems_of_length : ∀ l : List Item, (rlpItems l).length < 2 ^ 64 → fitsItems l
  | [], _ => by simp [fitsItems]
  | x :: xs, h => by
    simp only [rlpItems, List.length_append] at h
    simp only [fitsItems]
    exact ⟨fits_of_length x (by omega), fitsItems_of_length xs (by omega)⟩
end

theorem rlpItems_append (l m : List Item) : rlpItems (l ++ m) = rlpItems l ++ rlpItems m := by
  induction l with
  | nil => rfl
  | cons x xs ih => simp [rlpItems, ih]

theorem rlpItems_map {α : Type} (f : α → Item) (v : List α) :
    rlpItems (v.map f) = (v.map (fun x => rlp (f x))).flatten := by
  induction v with
  | nil => rfl
  | cons x xs ih => simp [rlpItems, ih]

/-! ### Field encoders -/

theorem encU8 {n : Nat} (h : n < 2 ^ 64) : encodeUint 8 n = rlp (num n) := encodeUint_spec (by decide) h
theorem encU32 {n : Nat} (h : n < 2 ^ 256) : encodeUint 32 n = rlp (num n) :=
  encodeUint_spec (by decide) (by rw [← pow256']; exact h)
theorem lenU8 {n : Nat} (h : n < 2 ^ 64) : lengthUint 8 n = (rlp (num n)).length := by
  rw [← encU8 h]; exact lengthUint_eq h
theorem lenU32 {n : Nat} (h : n < 2 ^ 256) : lengthUint 32 n = (rlp (num n)).length := by
  rw [← encU32 h]; exact lengthUint_eq (by rw [← pow256']; exact h)
theorem encStr {s : Bytes} (h : s.length < 2 ^ 64) : encodeBytes s = rlp (.str s) := (rlp_str_eq h).symm
theorem lenStr {s : Bytes} (h : s.length < 2 ^ 64) : lengthBytes s = (rlp (.str s)).length := by
  rw [← encStr h]; exact lengthBytes_eq h
theorem encArr {s : Bytes} (h1 : s.length ≠ 1) (h2 : s.length < 56) : encodeArray s = rlp (.str s) := by
  rw [encodeArray_eq_bytes h1 h2, encStr (by omega)]
theorem lenArr {s : Bytes} (h1 : s.length ≠ 1) (h2 : s.length < 56) : s.length + 1 = (rlp (.str s)).length := by
  rw [← encArr h1 h2]; simp [encodeArray]

/-- A list header followed by encodings of the items is the specification's list. -/
theorem encList {l : List Item} {n : Nat} (hn : n = (rlpItems l).length) (h : n < 2 ^ 64) :
    encodeHeader ⟨true, n⟩ ++ rlpItems l = rlp (.list l) := by
  subst hn; exact (rlp_list_eq h).symm

theorem lenList {l : List Item} (h : (rlpItems l).length < 2 ^ 64) :
    lengthOfLength (rlpItems l).length + (rlpItems l).length = (rlp (.list l)).length := by
  rw [rlp_list_eq h, List.length_append, ← lengthOfLength_spec (h := ⟨true, (rlpItems l).length⟩) h]

theorem payload_spec {α : Type} {len : α → Nat} {f : α → Item} {v : List α}
    (hl : ∀ x ∈ v, len x = (rlp (f x)).length) : payloadLength len v = (rlpItems (v.map f)).length := by
  rw [rlpItems_map, ← payloadLength_eq len (fun x => rlp (f x)) v hl]

theorem encVec {α : Type} {len : α → Nat} {enc : α → Bytes} {f : α → Item} {v : List α}
    (he : ∀ x ∈ v, enc x = rlp (f x)) (hl : ∀ x ∈ v, len x = (rlp (f x)).length)
    (h64 : (rlpItems (v.map f)).length < 2 ^ 64) :
    encodeVector len enc v = rlp (.list (v.map f)) ∧ lengthVector len v = (rlp (.list (v.map f))).length := by
  constructor
  · unfold encodeVector
    rw [payload_spec hl, rlp_list_eq h64, rlpItems_map]
    congr 2
    exact List.map_congr_left he
  · unfold lengthVector
    rw [payload_spec hl, lenList h64]

/-! ### Access lists -/

theorem rlpItems_keys_length {ks : List Bytes} (h : ∀ k ∈ ks, k.length = 32) :
    (rlpItems (ks.map .str)).length = 33 * ks.length := by
  induction ks with
  | nil => rfl
  | cons k ks ih =>
    have hk := h k (by simp)
    simp only [List.map_cons, rlpItems, List.length_append, List.length_cons]
    rw [ih (fun x hx => h x (by simp [hx])), ← lenArr (s := k) (by omega) (by omega)]
    omega

theorem keys_spec {ks : List Bytes} (h : ∀ k ∈ ks, k.length = 32) (h64 : 33 * ks.length < 2 ^ 64) :
    encodeVector lengthBytes32 encodeArray ks = rlp (.list (ks.map .str)) ∧
    lengthVector lengthBytes32 ks = (rlp (.list (ks.map .str))).length := by
  apply encVec
  · intro k hk; exact encArr (by rw [h k hk]; decide) (by rw [h k hk]; decide)
  · intro k hk
    rw [← lenArr (by rw [h k hk]; decide) (by rw [h k hk]; decide), h k hk]
    rfl
  · rw [rlpItems_keys_length h]; exact h64

theorem list_length_le {l : List Item} (h : (rlpItems l).length < 2 ^ 64) :
    (rlp (.list l)).length ≤ (rlpItems l).length + 9 := by
  rw [← lenList h]
  unfold lengthOfLength
  split <;> omega

theorem rlp_str_length_le {s : Bytes} (h : s.length < 2 ^ 64) : (rlp (.str s)).length ≤ s.length + 9 := by
  rw [← lenStr h]
  unfold lengthBytes
  split
  · unfold lengthOfLength; split <;> omega
  · omega

theorem access_items {e : AccessListEntry} (hw : e.WF) (h64 : 33 * e.storageKeys.length < 2 ^ 64) :
    rlpItems [.str e.account, .list (e.storageKeys.map .str)] =
      encodeArray e.account ++ encodeVector lengthBytes32 encodeArray e.storageKeys ∧
    (accessListEntryHeader e).payloadLength =
      (rlpItems [.str e.account, .list (e.storageKeys.map .str)]).length ∧
    (rlpItems [.str e.account, .list (e.storageKeys.map .str)]).length ≤ 30 + 33 * e.storageKeys.length := by
  obtain ⟨k1, k2⟩ := keys_spec hw.keys h64
  have ha := hw.account
  have a1 := encArr (s := e.account) (by omega) (by omega)
  have a2 := lenArr (s := e.account) (by omega) (by omega)
  have hk : (rlp (.list (e.storageKeys.map .str))).length ≤ 33 * e.storageKeys.length + 9 := by
    have := list_length_le (l := e.storageKeys.map .str) (by rw [rlpItems_keys_length hw.keys]; omega)
    rw [rlpItems_keys_length hw.keys] at this
    exact this
  simp only [rlpItems, List.append_nil, List.length_append]
  refine ⟨by rw [a1, k1], ?_, by omega⟩
  simp only [accessListEntryHeader, k2]
  omega

theorem rlp_list_length_ge (l : List Item) : (rlpItems l).length ≤ (rlp (.list l)).length := by
  simp [rlp]

theorem access_spec {e : AccessListEntry} (hw : e.WF) (h64 : (rlp (accessItem e)).length < 2 ^ 64) :
    encodeAccessListEntry e = rlp (accessItem e) ∧ lengthAccessListEntry e = (rlp (accessItem e)).length := by
  have g1 := rlp_list_length_ge [.str e.account, .list (e.storageKeys.map .str)]
  have g2 := rlp_list_length_ge (e.storageKeys.map .str)
  rw [rlpItems_keys_length hw.keys] at g2
  have g3 : (rlp (.list (e.storageKeys.map .str))).length ≤
      (rlpItems [.str e.account, .list (e.storageKeys.map .str)]).length := by simp [rlpItems]
  unfold accessItem at h64
  obtain ⟨h1, h2, h3⟩ := access_items hw (by omega)
  refine ⟨?_, ?_⟩
  · unfold encodeAccessListEntry accessItem
    rw [List.append_assoc, ← h1, ← encList h2 (by omega)]
    rfl
  · unfold lengthAccessListEntry accessItem
    simp only
    rw [h2, lenList (by omega)]

theorem access_bound {e : AccessListEntry} (hw : e.WF) (h64 : 33 * e.storageKeys.length < 2 ^ 63) :
    (rlp (accessItem e)).length ≤ 40 + 33 * e.storageKeys.length := by
  obtain ⟨h1, h2, h3⟩ := access_items hw (by omega)
  unfold accessItem
  have := list_length_le (l := [.str e.account, .list (e.storageKeys.map .str)]) (by omega)
  omega

theorem sum_ge_of_mem {l : List Nat} {x : Nat} (h : x ∈ l) : x ≤ l.sum := by
  induction l with
  | nil => simp at h
  | cons y ys ih =>
    simp only [List.sum_cons]
    rcases List.mem_cons.mp h with h | h
    · omega
    · have := ih h; omega

theorem rlp_le_rlpItems {α : Type} {f : α → Item} {v : List α} {x : α} (h : x ∈ v) :
    (rlp (f x)).length ≤ (rlpItems (v.map f)).length := by
  induction v with
  | nil => simp at h
  | cons y ys ih =>
    simp only [List.map_cons, rlpItems, List.length_append]
    rcases List.mem_cons.mp h with h | h
    · subst h; omega
    · have := ih h; omega

theorem accessList_spec {al : List AccessListEntry} (hw : ∀ e ∈ al, e.WF)
    (h64 : (rlpItems (al.map accessItem)).length < 2 ^ 64) :
    encodeVector lengthAccessListEntry encodeAccessListEntry al = rlp (.list (al.map accessItem)) ∧
    lengthVector lengthAccessListEntry al = (rlp (.list (al.map accessItem))).length := by
  have h : ∀ e ∈ al, (rlp (accessItem e)).length < 2 ^ 64 := by
    intro e he
    have := rlp_le_rlpItems (f := accessItem) he
    omega
  exact encVec (f := accessItem) (enc := encodeAccessListEntry) (len := lengthAccessListEntry) (v := al)
    (fun e he => (access_spec (hw e he) (h e he)).1) (fun e he => (access_spec (hw e he) (h e he)).2) h64

theorem accessList_bound {al : List AccessListEntry} (hw : ∀ e ∈ al, e.WF)
    (h62 : (al.map (fun e => 40 + 33 * e.storageKeys.length)).sum < 2 ^ 62) :
    (rlpItems (al.map accessItem)).length ≤ (al.map (fun e => 40 + 33 * e.storageKeys.length)).sum := by
  have hk : ∀ e ∈ al, 33 * e.storageKeys.length < 2 ^ 63 := by
    intro e he
    have := sum_ge_of_mem (List.mem_map_of_mem (f := fun e : AccessListEntry => 40 + 33 * e.storageKeys.length) he)
    omega
  clear h62
  induction al with
  | nil => simp [rlpItems]
  | cons e es ih =>
    have := access_bound (hw e (by simp)) (hk e (by simp))
    have := ih (fun x hx => hw x (by simp [hx])) (fun x hx => hk x (by simp [hx]))
    simp only [List.map_cons, rlpItems, List.length_append, List.sum_cons]
    omega

/-! ### Transactions: encoders -/

theorem v_spec {t : Transaction} (hv : ∀ c, t.chainId = some c → 2 * c + 36 < 2 ^ 256) :
    t.v = vValue t.oddYParity t.chainId := by
  unfold Transaction.v Ecdsa.yParityAndChainIdToV vValue
  cases hc : t.chainId with
  | none => cases t.oddYParity <;> rfl
  | some c =>
    have := hv c hc
    simp only
    cases t.oddYParity
    · simp only [Bool.false_eq_true, if_false, Bool.toNat_false]; exact Nat.mod_eq_of_lt (by omega)
    · simp only [if_true, Bool.toNat_true]; exact Nat.mod_eq_of_lt (by omega)

theorem v_lt (t : Transaction) : t.v < 2 ^ 256 := by
  unfold Transaction.v Ecdsa.yParityAndChainIdToV
  split
  · exact Nat.mod_lt _ (by decide)
  · split <;> decide

theorem encTo {to : Option Bytes} (h : ∀ a, to = some a → a.length = 20) : encodeTo to = rlp (toItem to) := by
  unfold encodeTo toItem
  cases to with
  | none => rfl
  | some a => have := h a rfl; exact encArr (by omega) (by omega)

theorem lenTo {to : Option Bytes} (h : ∀ a, to = some a → a.length = 20) : lengthTo to = (rlp (toItem to)).length := by
  rw [← encTo h]
  unfold lengthTo encodeTo
  cases to with
  | none => rfl
  | some a => have := h a rfl; simp [encodeArray, this]

theorem num_length_le {n : Nat} (h : n < 2 ^ 256) : (rlp (num n)).length ≤ 33 := by
  rw [← lenU32 h]
  unfold lengthUint
  split <;> omega

theorem toItem_length_le {to : Option Bytes} (h : ∀ a, to = some a → a.length = 20) :
    (rlp (toItem to)).length ≤ 21 := by
  rw [← lenTo h]
  unfold lengthTo
  split <;> omega

/-- The items after the list header of a legacy transaction, with `v` as the code computes it. -/
def legacyItems (t : Transaction) (forSigning : Bool) : List Item :=
  legacyCore t ++ if forSigning then (match t.chainId with
    | none => []
    | some c => [num c, num 0, num 0])
  else [num t.v, num t.r, num t.s]

/-- The items after the list header of a typed transaction. -/
def typedItems (t : Transaction) (forSigning : Bool) : List Item :=
  typedCore t ++ if forSigning then [] else [num t.oddYParity.toNat, num t.r, num t.s]

theorem legacy_header {t : Transaction} (ht : t.type = .legacy) (hw : t.WF) (hd : t.data.length < 2 ^ 64)
    (forSigning : Bool) :
    (txHeader t forSigning).payloadLength = (rlpItems (legacyItems t forSigning)).length ∧
    legacyEncode t forSigning = encodeHeader (txHeader t forSigning) ++ rlpItems (legacyItems t forSigning) ∧
    (rlpItems (legacyItems t forSigning)).length ≤ t.data.length + 400 := by
  have e1 := encU8 hw.nonce
  have e2 := encU32 hw.fee
  have e3 := encU8 hw.gas
  have e4 := encTo hw.to
  have e5 := encU32 hw.value
  have e6 := encStr hd
  have l1 := lenU8 hw.nonce
  have l2 := lenU32 hw.fee
  have l3 := lenU8 hw.gas
  have l4 := lenTo hw.to
  have l5 := lenU32 hw.value
  have l6 := lenStr hd
  have b1 := num_length_le (n := t.nonce) (by have := hw.nonce; omega)
  have b2 := num_length_le hw.fee
  have b3 := num_length_le (n := t.gasLimit) (by have := hw.gas; omega)
  have b4 := toItem_length_le hw.to
  have b5 := num_length_le hw.value
  have b6 := rlp_str_length_le hd
  cases forSigning with
  | false =>
    have e7 := encU32 (v_lt t)
    have e8 := encU32 hw.r
    have e9 := encU32 hw.s
    have l7 := lenU32 (v_lt t)
    have l8 := lenU32 hw.r
    have l9 := lenU32 hw.s
    have b7 := num_length_le (v_lt t)
    have b8 := num_length_le hw.r
    have b9 := num_length_le hw.s
    simp only [legacyItems, legacyCore, txHeader, legacyEncode, ht, ne_eq, not_true_eq_false, if_false,
      Bool.not_false, if_true, reduceCtorEq, Bool.false_eq_true, rlpItems_append, rlpItems, List.append_nil, List.length_append,
      e1, e2, e3, e4, e5, e6, e7, e8, e9, l1, l2, l3, l4, l5, l6, l7, l8, l9, List.append_assoc]
    exact ⟨by omega, trivial, by omega⟩
  | true =>
    cases hc : t.chainId with
    | none =>
      simp only [legacyItems, legacyCore, txHeader, legacyEncode, ht, hc, ne_eq, not_true_eq_false, if_false,
        Bool.not_true, if_true, reduceCtorEq, Bool.false_eq_true, rlpItems_append, rlpItems, List.append_nil, List.length_append,
        e1, e2, e3, e4, e5, e6, l1, l2, l3, l4, l5, l6, List.append_assoc]
      exact ⟨by omega, trivial, by omega⟩
    | some c =>
      have e7 := encU32 (hw.chain c hc)
      have l7 := lenU32 (hw.chain c hc)
      have b7 := num_length_le (hw.chain c hc)
      have e8 : encodeUint 8 0 = rlp (num 0) := encU8 (by decide)
      have l8 : (rlp (num 0)).length = 1 := by rw [← e8]; rfl
      simp only [legacyItems, legacyCore, txHeader, legacyEncode, ht, hc, ne_eq, not_true_eq_false, if_false,
        Bool.not_true, if_true, reduceCtorEq, Bool.false_eq_true, rlpItems_append, rlpItems, List.append_nil, List.length_append,
        e1, e2, e3, e4, e5, e6, e7, e8, l1, l2, l3, l4, l5, l6, l7, List.append_assoc]
      exact ⟨by omega, trivial, by omega⟩

theorem getD_lt {t : Transaction} (hw : t.WF) : t.chainId.getD 0 < 2 ^ 256 := by
  cases hc : t.chainId with
  | none => decide
  | some c => exact hw.chain c hc

theorem encodeBool_spec (b : Bool) : encodeBool b = rlp (num b.toNat) := by
  unfold encodeBool
  cases b
  · exact encU8 (by decide)
  · exact encU8 (by decide)

theorem typed_header {t : Transaction} (ht : t.type ≠ .legacy) (hw : t.WF) (hd : t.data.length < 2 ^ 64)
    (ha : (rlpItems (t.accessList.map accessItem)).length < 2 ^ 64) (forSigning : Bool) :
    (txHeader t forSigning).payloadLength = (rlpItems (typedItems t forSigning)).length ∧
    (∀ wrap, eip2718Encode t forSigning wrap =
      (if wrap then encodeHeader ⟨false, lengthOfLength (txHeader t forSigning).payloadLength +
        (txHeader t forSigning).payloadLength + 1⟩ else []) ++
      typeByte t.type :: (encodeHeader (txHeader t forSigning) ++ rlpItems (typedItems t forSigning))) := by
  obtain ⟨a1, a2⟩ := accessList_spec hw.access ha
  have e0 := encU32 (getD_lt hw)
  have e1 := encU8 hw.nonce
  have e1' := encU32 hw.prio
  have e2 := encU32 hw.fee
  have e3 := encU8 hw.gas
  have e4 := encTo hw.to
  have e5 := encU32 hw.value
  have e6 := encStr hd
  have e7 := encodeBool_spec t.oddYParity
  have e8 := encU32 hw.r
  have e9 := encU32 hw.s
  have l0 := lenU32 (getD_lt hw)
  have l1 := lenU8 hw.nonce
  have l1' := lenU32 hw.prio
  have l2 := lenU32 hw.fee
  have l3 := lenU8 hw.gas
  have l4 := lenTo hw.to
  have l5 := lenU32 hw.value
  have l6 := lenStr hd
  have l7 : lengthUint 8 (if t.oddYParity then 1 else 0) = (rlp (num t.oddYParity.toNat)).length := by
    rw [← e7]; unfold encodeBool; exact lengthUint_eq (by cases t.oddYParity <;> decide)
  have l8 := lenU32 hw.r
  have l9 := lenU32 hw.s
  refine ⟨?_, ?_⟩
  · simp only [txHeader]
    rw [l0, l1, l1', l2, l3, l4, l5, l6, l7, l8, l9, a2]
    cases hty : t.type with
    | legacy => exact absurd hty ht
    | eip2930 =>
      cases forSigning <;>
      simp only [typedItems, typedCore, hty, ne_eq, not_false_eq_true, if_true, if_false, Bool.not_false,
        Bool.not_true, reduceCtorEq, Bool.false_eq_true, rlpItems_append, rlpItems, List.append_nil,
        List.length_append] <;>
      omega
    | eip1559 =>
      cases forSigning <;>
      simp only [typedItems, typedCore, hty, ne_eq, not_false_eq_true, if_true, if_false, Bool.not_false,
        Bool.not_true, reduceCtorEq, Bool.false_eq_true, rlpItems_append, rlpItems, List.append_nil,
        List.length_append] <;>
      omega
  · intro wrap
    simp only [eip2718Encode]
    rw [e0, e1, e1', e2, e3, e4, e5, e6, e7, e8, e9, a1]
    by_cases h59 : t.type = .eip1559 <;> cases forSigning <;>
    simp [typedItems, typedCore, h59, rlpItems]

theorem typed_bound {t : Transaction} (hw : t.WF) (hs : t.Sized) (forSigning : Bool) :
    (rlpItems (t.accessList.map accessItem)).length < 2 ^ 62 ∧
    (rlpItems (typedItems t forSigning)).length ≤ 2 ^ 63 + 400 := by
  have a3 := accessList_bound hw.access hs.access
  have a4 := hs.access
  have hd : t.data.length < 2 ^ 64 := by have := hs.data; omega
  have hd' := hs.data
  have b0 := num_length_le (getD_lt hw)
  have b1 := num_length_le (n := t.nonce) (by have := hw.nonce; omega)
  have b1' := num_length_le hw.prio
  have b2 := num_length_le hw.fee
  have b3 := num_length_le (n := t.gasLimit) (by have := hw.gas; omega)
  have b4 := toItem_length_le hw.to
  have b5 := num_length_le hw.value
  have b6 := rlp_str_length_le hd
  have b7 := num_length_le (n := t.oddYParity.toNat) (by cases t.oddYParity <;> decide)
  have b8 := num_length_le hw.r
  have b9 := num_length_le hw.s
  have b10 := list_length_le (l := t.accessList.map accessItem) (by omega)
  refine ⟨by omega, ?_⟩
  by_cases h59 : t.type = .eip1559 <;> cases forSigning <;>
    simp only [typedItems, typedCore, h59, if_true, if_false, Bool.false_eq_true, rlpItems_append,
      rlpItems, List.append_nil, List.length_append] <;> omega

end Silkworm
