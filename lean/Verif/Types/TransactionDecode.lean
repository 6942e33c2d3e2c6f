import Verif.Types.TransactionLemmas

/-! Helper lemmas: transaction decoders invert the encoders, accept little else, and where they read out of bounds. -/

namespace Silkworm

open Rlp Spec

/-! ### Field decoders on specification encodings -/

theorem decU8 {n : Nat} (h : n < 2 ^ 64) (rest : Bytes) : decodeUint 8 (rlp (num n) ++ rest) = .ok (n, rest) := by
  rw [← encU8 h]; exact decodeUint_roundTrip (by decide) h rest

theorem decU32 {n : Nat} (h : n < 2 ^ 256) (rest : Bytes) : decodeUint 32 (rlp (num n) ++ rest) = .ok (n, rest) := by
  rw [← encU32 h]; exact decodeUint_roundTrip (by decide) (by rw [← pow256']; exact h) rest

theorem decStr {s : Bytes} (h : s.length < 2 ^ 64) (rest : Bytes) : decodeBytes (rlp (.str s) ++ rest) = .ok (s, rest) := by
  rw [← encStr h]; exact decodeBytes_roundTrip h rest

theorem decArr {s : Bytes} {n : Nat} (hn : s.length = n) (h1 : n ≠ 1) (h2 : n < 2 ^ 64) (rest : Bytes) :
    decodeArray n (rlp (.str s) ++ rest) = .ok (s, rest) := by
  rw [← encStr (by omega)]; exact decodeArray_roundTrip_long h1 h2 hn rest

theorem decBool (b : Bool) (rest : Bytes) : decodeBool (rlp (num b.toNat) ++ rest) = .ok (b, rest) := by
  rw [← encodeBool_spec]; exact decodeBool_roundTrip b rest

theorem decVec {α : Type} {f : α → Item} {dec : Bytes → Dec (α × Bytes)} {v : List α}
    (hrt : ∀ x ∈ v, ∀ rest, dec (rlp (f x) ++ rest) = .ok (x, rest)) (h64 : (rlpItems (v.map f)).length < 2 ^ 64)
    (rest : Bytes) : decodeVector dec (rlp (.list (v.map f)) ++ rest) = .ok (v, rest) := by
  have h := encVec (len := fun x => (rlp (f x)).length) (enc := fun x => rlp (f x)) (f := f) (v := v)
    (fun _ _ => rfl) (fun _ _ => rfl) h64
  rw [← h.1]
  exact decodeVector_roundTrip hrt (fun x _ => rlp_ne_nil _) (fun _ _ => rfl)
    (by rw [payload_spec (f := f) (fun _ _ => rfl)]; exact h64) rest

theorem decTo {to : Option Bytes} (h : ∀ a, to = some a → a.length = 20) (rest : Bytes) :
    decodeTo (rlp (toItem to) ++ rest) = .ok (to, rest) := by
  cases to with
  | none => rfl
  | some a =>
    have ha := h a rfl
    have e : rlp (toItem (some a)) ++ rest = 0x94 :: (a ++ rest) := by
      rw [← encTo h]; simp [encodeTo, encodeArray, ha]
    have d := decArr (s := a) (n := 20) ha (by decide) (by decide) rest
    have e' : rlp (.str a) ++ rest = 0x94 :: (a ++ rest) := e
    rw [e'] at d
    rw [e]
    unfold decodeTo byteAt
    simp only [List.getElem?_cons_zero, Outcome.ok_bind]
    rw [if_neg (by decide), d]
    rfl

theorem decAccess {e : AccessListEntry} (hw : e.WF) (h64 : 33 * e.storageKeys.length < 2 ^ 63) (rest : Bytes) :
    decodeAccessListEntry (rlp (accessItem e) ++ rest) = .ok (e, rest) := by
  obtain ⟨h1, h2, h3⟩ := access_items hw (by omega)
  unfold accessItem decodeAccessListEntry
  rw [decodeHeader_rlp_list (by omega)]
  simp only [Outcome.ok_bind, Bool.not_true, Bool.false_eq_true, if_false]
  simp only [rlpItems, List.append_nil, List.append_assoc]
  rw [decArr hw.account (by decide) (by decide)]
  simp only [Outcome.ok_bind]
  rw [decVec (f := .str) (fun x hx rest => decArr (hw.keys x hx) (by decide) (by decide) rest)
    (by rw [rlpItems_keys_length hw.keys]; omega)]
  simp only [Outcome.ok_bind]
  rw [if_pos (by simp [List.length_append]; omega)]

theorem v_split {odd : Bool} {c : Option Nat} (hv : ∀ n, c = some n → 2 * n + 36 < 2 ^ 256) :
    Ecdsa.vToYParityAndChainId (Ecdsa.yParityAndChainIdToV odd c) = (odd, c) := by
  cases c with
  | none => cases odd <;> decide
  | some n =>
    have := hv n rfl
    have hlt : odd.toNat < 2 := Bool.toNat_lt odd
    have hj : Ecdsa.yParityAndChainIdToV odd (some n) = n * 2 + 35 + odd.toNat := by
      unfold Ecdsa.yParityAndChainIdToV
      have hb : (if odd = true then 1 else 0) = odd.toNat := by cases odd <;> rfl
      simp only [hb]
      exact Nat.mod_eq_of_lt (by omega)
    rw [hj]
    unfold Ecdsa.vToYParityAndChainId
    rw [if_neg (by omega)]
    simp only
    have e : (n * 2 + 35 + odd.toNat + 2 ^ 256 - 35) % 2 ^ 256 = n * 2 + odd.toNat := by omega
    rw [e]
    simp only [Prod.mk.injEq, Option.some.injEq]
    refine ⟨?_, by omega⟩
    have : (n * 2 + odd.toNat) % 2 ^ 64 % 2 = odd.toNat := by omega
    rw [this]
    cases odd <;> rfl

theorem v_join {v : Nat} (hv : v < 2 ^ 256) :
    Ecdsa.yParityAndChainIdToV (Ecdsa.vToYParityAndChainId v).1 (Ecdsa.vToYParityAndChainId v).2 = v := by
  unfold Ecdsa.vToYParityAndChainId
  by_cases h : v = 27 ∨ v = 28
  · rw [if_pos h]
    rcases h with h | h <;> subst h <;> decide
  · rw [if_neg h]
    simp only [Ecdsa.yParityAndChainIdToV]
    have hb : ∀ w : Nat, (if decide (w % 2 ^ 64 % 2 = 1) = true then 1 else 0) = w % 2 := by
      intro w
      by_cases hw : w % 2 ^ 64 % 2 = 1
      · simp only [hw, decide_true, if_true]; omega
      · simp only [hw, decide_false, Bool.false_eq_true, if_false]; omega
    rw [hb]
    omega

theorem chain_lt {v : Nat} (_hv : v < 2 ^ 256) : ∀ c, (Ecdsa.vToYParityAndChainId v).2 = some c → c < 2 ^ 256 := by
  intro c
  unfold Ecdsa.vToYParityAndChainId
  split
  · intro h; cases h
  · intro h; simp only [Option.some.injEq] at h; omega

theorem legacyDecode_spec {t t0 : Transaction} (hw : t.WF) (hd : t.data.length < 2 ^ 64)
    (hv : ∀ n, t.chainId = some n → 2 * n + 36 < 2 ^ 256) (rest : Bytes) :
    legacyDecode t0 (rlpItems (legacyItems t false) ++ rest) =
      .ok ({ t with type := t0.type, maxPriorityFeePerGas := t.maxFeePerGas, accessList := t0.accessList,
                    sender := t0.sender }, rest) := by
  unfold legacyDecode
  simp only [legacyItems, legacyCore, Bool.false_eq_true, if_false, List.cons_append, List.nil_append, rlpItems,
    List.append_nil, List.append_assoc]
  simp only [decU8 hw.nonce, decU32 hw.fee, decU8 hw.gas, decTo hw.to, decU32 hw.value, decStr hd, decU32 (v_lt t),
    decU32 hw.r, decU32 hw.s, Outcome.ok_bind]
  unfold Transaction.v
  rw [v_split hv]

theorem eip2718Decode_spec {t t0 : Transaction} (hty : t0.type = t.type) (ht : t.type ≠ .legacy) (hw : t.WF)
    (hs : t.Sized) (rest : Bytes) :
    eip2718Decode t0 (encodeHeader (txHeader t false) ++ (rlpItems (typedItems t false) ++ rest)) =
      .ok ({ t with chainId := some (t.chainId.getD 0),
                    maxPriorityFeePerGas := if t.type = .eip2930 then t.maxFeePerGas else t.maxPriorityFeePerGas,
                    sender := t0.sender }, rest) := by
  obtain ⟨p0, p3⟩ := typed_bound hw hs false
  have hd : t.data.length < 2 ^ 64 := by have := hs.data; omega
  obtain ⟨p1, _⟩ := typed_header ht hw hd (by omega) false
  have hl : (txHeader t false).list = true := rfl
  have hacc : ∀ rest, decodeVector decodeAccessListEntry (rlp (.list (t.accessList.map accessItem)) ++ rest) =
      .ok (t.accessList, rest) := by
    apply decVec
    · intro e he rest
      apply decAccess (hw.access e he)
      have := sum_ge_of_mem (List.mem_map_of_mem (f := fun e : AccessListEntry => 40 + 33 * e.storageKeys.length) he)
      have := hs.access
      omega
    · omega
  unfold eip2718Decode
  rw [decodeHeader_encode (by omega) (by rw [p1]; simp) (by rw [hl]; intro h; cases h)]
  simp only [Outcome.ok_bind, hl, Bool.not_true, Bool.false_eq_true, if_false]
  unfold decodeMaxFee
  rw [hty]
  cases h : t.type with
  | legacy => exact absurd h ht
  | eip2930 =>
    simp only [typedItems, typedCore, h, reduceCtorEq, if_false, if_true, Bool.false_eq_true, List.cons_append,
      List.nil_append, rlpItems, List.append_nil, List.append_assoc]
    simp only [decU32 (getD_lt hw), decU8 hw.nonce, decU32 hw.fee, decU8 hw.gas, decTo hw.to, decU32 hw.value, decStr hd,
      hacc, decBool, decU32 hw.r, decU32 hw.s, Outcome.ok_bind, hty]
  | eip1559 =>
    simp only [typedItems, typedCore, h, reduceCtorEq, if_false, if_true, Bool.false_eq_true, List.cons_append,
      List.nil_append, rlpItems, List.append_nil, List.append_assoc]
    simp only [decU32 (getD_lt hw), decU8 hw.nonce, decU32 hw.prio, decU32 hw.fee, decU8 hw.gas, decTo hw.to,
      decU32 hw.value, decStr hd, hacc, decBool, decU32 hw.r, decU32 hw.s, Outcome.ok_bind, hty]

theorem decodeTransaction_legacy {t t0 : Transaction} (ht : t.type = .legacy) (hw : t.WF) (hd : t.data.length < 2 ^ 62)
    (hv : ∀ n, t.chainId = some n → 2 * n + 36 < 2 ^ 256) (rest : Bytes) :
    decodeTransactionInto t0 (encodeTransactionInBlock t ++ rest) =
      .ok ({ t with maxPriorityFeePerGas := t.maxFeePerGas, accessList := t0.accessList, sender := t0.sender }, rest) := by
  obtain ⟨p1, p2, p3⟩ := legacy_header ht hw (by omega) false
  have hl : (txHeader t false).list = true := rfl
  unfold encodeTransactionInBlock encodeTransaction decodeTransactionInto
  rw [if_pos ht, p2, List.append_assoc, decodeHeader_encode (by omega) (by rw [p1]; simp) (by rw [hl]; intro h; cases h)]
  simp only [Outcome.ok_bind, hl, if_true]
  rw [legacyDecode_spec hw (by omega) hv]
  simp only [Outcome.ok_bind]
  rw [if_pos (by simp only [List.length_append]; omega), ht]

theorem typeByte_ofByte {t : Transaction} (ht : t.type ≠ .legacy) : txTypeOfByte (typeByte t.type) = .ok t.type := by
  cases h : t.type with
  | legacy => exact absurd h ht
  | eip2930 => rfl
  | eip1559 => rfl

theorem decodeTransaction_typed {t t0 : Transaction} (ht : t.type ≠ .legacy) (hw : t.WF) (hs : t.Sized) (rest : Bytes) :
    decodeTransactionInto t0 (encodeTransactionInBlock t ++ rest) =
      .ok ({ t with chainId := some (t.chainId.getD 0),
                    maxPriorityFeePerGas := if t.type = .eip2930 then t.maxFeePerGas else t.maxPriorityFeePerGas,
                    sender := t0.sender }, rest) := by
  obtain ⟨p0, p3⟩ := typed_bound hw hs false
  obtain ⟨p1, p2⟩ := typed_header ht hw (by have := hs.data; omega) (by omega) false
  have hl : (txHeader t false).list = true := rfl
  have hll := lengthOfLength_spec (h := txHeader t false) (by omega)
  have hlb : (encodeHeader (txHeader t false)).length ≤ 9 := by
    rw [← hll]; unfold lengthOfLength; split <;> omega
  have hl1 := List.length_pos_iff.mpr (encodeHeader_ne_nil (txHeader t false))
  unfold encodeTransactionInBlock encodeTransaction decodeTransactionInto
  rw [if_neg ht, p2, if_pos rfl, hll]
  simp only [List.append_assoc, List.cons_append]
  rw [decodeHeader_encode (by simp only; omega) (by simp only [List.length_cons, List.length_append]; omega)
    (by intro _ h; simp only at h; omega)]
  simp only [Outcome.ok_bind, Bool.false_eq_true, if_false]
  rw [if_neg (by omega)]
  unfold byteAt
  rw [List.getElem?_cons_zero]
  simp only [Outcome.ok_bind]
  rw [removePrefix_ok (by simp)]
  simp only [Outcome.ok_bind, List.drop_succ_cons, List.drop_zero, typeByte_ofByte ht]
  have hn : (encodeHeader (txHeader t false)).length + (txHeader t false).payloadLength + 1 - 1 =
      (encodeHeader (txHeader t false) ++ rlpItems (typedItems t false)).length := by
    rw [List.length_append, p1]; omega
  rw [hn, ← List.append_assoc, List.take_left' rfl]
  have hde := eip2718Decode_spec (t := t) (t0 := { t0 with type := t.type }) rfl ht hw hs []
  rw [List.append_nil] at hde
  rw [hde]
  simp only [Outcome.ok_bind, ne_eq, not_true_eq_false, if_false]
  rw [removePrefix_ok (by simp)]
  simp only [Outcome.ok_bind]
  rw [List.drop_left' rfl]

/-! ### Inversion of the decoders -/

theorem decU8_inv {n : Nat} {v rest : Bytes} (e : decodeUint 8 v = .ok (n, rest)) :
    n < 2 ^ 64 ∧ v = rlp (num n) ++ rest := by
  obtain ⟨h1, h2⟩ := decodeUint_inv (by decide) e
  rw [encU8 h1] at h2
  exact ⟨h1, h2⟩

theorem decU32_inv {n : Nat} {v rest : Bytes} (e : decodeUint 32 v = .ok (n, rest)) :
    n < 2 ^ 256 ∧ v = rlp (num n) ++ rest := by
  obtain ⟨h1, h2⟩ := decodeUint_inv (by decide) e
  rw [← pow256'] at h1
  rw [encU32 h1] at h2
  exact ⟨h1, h2⟩

theorem decStr_inv {s v rest : Bytes} (e : decodeBytes v = .ok (s, rest)) :
    s.length < 2 ^ 64 ∧ v = rlp (.str s) ++ rest := by
  have h := decodeBytes_lt e
  rw [← encStr h]
  exact ⟨h, decodeBytes_canonical _ _ _ e⟩

theorem decArr_inv {n : Nat} {s v rest : Bytes} (hn : n < 2 ^ 64) (e : decodeArray n v = .ok (s, rest)) :
    s.length = n ∧ v = rlp (.str s) ++ rest := by
  obtain ⟨h1, h2⟩ := decodeArray_inv e
  rw [encStr (by omega)] at h2
  exact ⟨h1, h2⟩

theorem decBool_inv {b : Bool} {v rest : Bytes} (e : decodeBool v = .ok (b, rest)) : v = rlp (num b.toNat) ++ rest := by
  rw [← encodeBool_spec]; exact decodeBool_canonical _ _ _ e

theorem decTo_inv {to : Option Bytes} {v rest : Bytes} (e : decodeTo v = .ok (to, rest)) :
    (∀ a, to = some a → a.length = 20) ∧ v = rlp (toItem to) ++ rest := by
  unfold decodeTo byteAt at e
  cases v with
  | nil => simp at e
  | cons b bs =>
    simp only [List.getElem?_cons_zero, Outcome.ok_bind] at e
    split at e
    · rename_i hb
      rw [removePrefix_ok (by simp)] at e
      simp only [List.drop_succ_cons, List.drop_zero, Outcome.ok_bind, Outcome.ok.injEq, Prod.mk.injEq] at e
      obtain ⟨e1, e2⟩ := e
      subst e1; subst e2; subst hb
      refine ⟨?_, rfl⟩
      intro a h
      cases h
    · obtain ⟨⟨a, r⟩, e1, e⟩ := Outcome.bind_eq_ok.mp e
      simp only [Outcome.ok.injEq, Prod.mk.injEq] at e
      obtain ⟨e2, e3⟩ := e
      subst e2; subst e3
      obtain ⟨h1, h2⟩ := decArr_inv (by decide) e1
      refine ⟨?_, h2⟩
      intro x hx
      cases hx
      exact h1

/-- Whatever is accepted as a list whose payload is exactly the items `l` is the specification's list. -/
theorem decList_inv {v r rest : Bytes} {h : Header} {l : List Item} (e : decodeHeader v = .ok (h, r))
    (hl : h.list = true) (hr : r = rlpItems l ++ rest) (hlen : rest.length = r.length - h.payloadLength) :
    v = rlp (.list l) ++ rest ∧ (rlpItems l).length < 2 ^ 64 := by
  obtain ⟨h1, h2, h3⟩ := decodeHeader_inv e
  rcases h3 with ⟨h3, _⟩ | ⟨h3, _⟩
  · subst h3; cases hl
  · obtain ⟨l', n⟩ := h
    simp only at hl hlen h1 h2
    subst hl
    have hn : n = (rlpItems l).length := by
      subst hr
      rw [List.length_append] at hlen h1
      omega
    refine ⟨?_, by omega⟩
    rw [h3, hr, ← List.append_assoc, encList hn h2]

theorem decVec_inv {α : Type} {f : α → Item} {dec : Bytes → Dec (α × Bytes)}
    (hc : ∀ v x rest, dec v = .ok (x, rest) → v = rlp (f x) ++ rest) {v rest : Bytes} {xs : List α}
    (e : decodeVector dec v = .ok (xs, rest)) :
    v = rlp (.list (xs.map f)) ++ rest ∧ (rlpItems (xs.map f)).length < 2 ^ 64 := by
  unfold decodeVector at e
  obtain ⟨⟨h, r⟩, e1, e⟩ := Outcome.bind_eq_ok.mp e
  simp only at e
  split at e
  · cases e
  · rename_i hl
    have hl : h.list = true := by simpa using hl
    obtain ⟨to, e2, e⟩ := Outcome.bind_eq_ok.mp e
    have hle := (decodeHeader_length e1).2.2
    rw [removePrefix_ok hle] at e
    cases e
    have hv := decodeItems_inv (enc := fun x => rlp (f x)) hc e2
    rw [← rlpItems_map] at hv
    apply decList_inv e1 hl
    · rw [← hv, List.take_append_drop]
    · simp

theorem decAccess_inv {x : AccessListEntry} {v rest : Bytes} (e : decodeAccessListEntry v = .ok (x, rest)) :
    x.WF ∧ v = rlp (accessItem x) ++ rest := by
  unfold decodeAccessListEntry at e
  obtain ⟨⟨h, r⟩, e1, e⟩ := Outcome.bind_eq_ok.mp e
  simp only at e
  split at e
  · cases e
  · rename_i hl
    have hl : h.list = true := by simpa using hl
    obtain ⟨⟨a, r1⟩, e2, e⟩ := Outcome.bind_eq_ok.mp e
    obtain ⟨⟨ks, r2⟩, e3, e⟩ := Outcome.bind_eq_ok.mp e
    dsimp only at e e3
    split at e
    · rename_i hlen
      cases e
      obtain ⟨a1, a2⟩ := decArr_inv (by decide) e2
      have hk := decodeVector_forall (P := fun k : Bytes => k.length = 32) (fun _ _ _ h => (decodeArray_inv h).1) e3
      obtain ⟨k1, k2⟩ := decVec_inv (f := .str) (fun v x rest h => (decArr_inv (by decide) h).2) e3
      refine ⟨⟨a1, hk⟩, ?_⟩
      apply (decList_inv e1 hl _ hlen).1
      simp only [rlpItems, List.append_nil, List.append_assoc]
      rw [a2, k1]
    · cases e

theorem accessList_inv {al : List AccessListEntry} {v rest : Bytes}
    (e : decodeVector decodeAccessListEntry v = .ok (al, rest)) :
    (∀ x ∈ al, x.WF) ∧ v = rlp (.list (al.map accessItem)) ++ rest ∧
      (rlpItems (al.map accessItem)).length < 2 ^ 64 :=
  ⟨decodeVector_forall (fun _ _ _ h => (decAccess_inv h).1) e,
   decVec_inv (fun _ _ _ h => (decAccess_inv h).2) e⟩

theorem legacyDecode_inv {t t0 : Transaction} (h0 : t0.type = .legacy) (h1 : t0.accessList = []) {v rest : Bytes}
    (e : legacyDecode t0 v = .ok (t, rest)) :
    t.WF ∧ t.type = .legacy ∧ t.data.length < 2 ^ 64 ∧ t.maxPriorityFeePerGas = t.maxFeePerGas ∧ t.accessList = [] ∧
      t.sender = t0.sender ∧ v = rlpItems (legacyItems t false) ++ rest := by
  unfold legacyDecode at e
  obtain ⟨⟨nonce, r1⟩, e1, e⟩ := Outcome.bind_eq_ok.mp e
  obtain ⟨⟨fee, r2⟩, e2, e⟩ := Outcome.bind_eq_ok.mp e
  obtain ⟨⟨gas, r3⟩, e3, e⟩ := Outcome.bind_eq_ok.mp e
  obtain ⟨⟨to, r4⟩, e4, e⟩ := Outcome.bind_eq_ok.mp e
  obtain ⟨⟨value, r5⟩, e5, e⟩ := Outcome.bind_eq_ok.mp e
  obtain ⟨⟨data, r6⟩, e6, e⟩ := Outcome.bind_eq_ok.mp e
  obtain ⟨⟨vv, r7⟩, e7, e⟩ := Outcome.bind_eq_ok.mp e
  obtain ⟨⟨r, r8⟩, e8, e⟩ := Outcome.bind_eq_ok.mp e
  obtain ⟨⟨s, r9⟩, e9, e⟩ := Outcome.bind_eq_ok.mp e
  simp only [Outcome.ok.injEq, Prod.mk.injEq] at e
  obtain ⟨et, er⟩ := e
  obtain ⟨b1, c1⟩ := decU8_inv e1
  obtain ⟨b2, c2⟩ := decU32_inv e2
  obtain ⟨b3, c3⟩ := decU8_inv e3
  obtain ⟨b4, c4⟩ := decTo_inv e4
  obtain ⟨b5, c5⟩ := decU32_inv e5
  obtain ⟨b6, c6⟩ := decStr_inv e6
  obtain ⟨b7, c7⟩ := decU32_inv e7
  obtain ⟨b8, c8⟩ := decU32_inv e8
  obtain ⟨b9, c9⟩ := decU32_inv e9
  have hv := v_join b7
  subst et; subst er
  refine ⟨⟨b1, b2, b2, b3, b4, b5, chain_lt b7, b8, b9, ?_⟩, h0, b6, rfl, h1, rfl, ?_⟩
  · simp [h1]
  · simp only [legacyItems, legacyCore, Bool.false_eq_true, if_false, List.cons_append, List.nil_append, rlpItems,
      List.append_nil, List.append_assoc, Transaction.v]
    rw [hv, c1, c2, c3, c4, c5, c6, c7, c8, c9]

theorem eip2718Decode_inv {t t0 : Transaction} (h0 : t0.type ≠ .legacy) {v rest : Bytes}
    (e : eip2718Decode t0 v = .ok (t, rest)) :
    t.WF ∧ t.type = t0.type ∧ t.data.length < 2 ^ 64 ∧ (t.type = .eip2930 → t.maxPriorityFeePerGas = t.maxFeePerGas) ∧
      t.chainId.isSome ∧ t.sender = t0.sender ∧ (rlpItems (t.accessList.map accessItem)).length < 2 ^ 64 ∧
      ∃ m, v = encodeHeader ⟨true, m⟩ ++ (rlpItems (typedItems t false) ++ rest) ∧ m < 2 ^ 64 ∧
        m ≤ (rlpItems (typedItems t false) ++ rest).length := by
  unfold eip2718Decode at e
  obtain ⟨⟨h, r⟩, eh, e⟩ := Outcome.bind_eq_ok.mp e
  simp only at e
  split at e
  · cases e
  rename_i hl
  have hl : h.list = true := by simpa using hl
  obtain ⟨⟨chain, r0⟩, e0, e⟩ := Outcome.bind_eq_ok.mp e
  obtain ⟨⟨nonce, r1⟩, e1, e⟩ := Outcome.bind_eq_ok.mp e
  obtain ⟨⟨prio, r1'⟩, e1', e⟩ := Outcome.bind_eq_ok.mp e
  obtain ⟨⟨fee, r2⟩, e2, e⟩ := Outcome.bind_eq_ok.mp e
  obtain ⟨⟨gas, r3⟩, e3, e⟩ := Outcome.bind_eq_ok.mp e
  obtain ⟨⟨to, r4⟩, e4, e⟩ := Outcome.bind_eq_ok.mp e
  obtain ⟨⟨value, r5⟩, e5, e⟩ := Outcome.bind_eq_ok.mp e
  obtain ⟨⟨data, r6⟩, e6, e⟩ := Outcome.bind_eq_ok.mp e
  obtain ⟨⟨al, r6'⟩, e6', e⟩ := Outcome.bind_eq_ok.mp e
  obtain ⟨⟨odd, r7⟩, e7, e⟩ := Outcome.bind_eq_ok.mp e
  obtain ⟨⟨rr, r8⟩, e8, e⟩ := Outcome.bind_eq_ok.mp e
  obtain ⟨⟨s, r9⟩, e9, e⟩ := Outcome.bind_eq_ok.mp e
  simp only [Outcome.ok.injEq, Prod.mk.injEq] at e
  obtain ⟨et, er⟩ := e
  dsimp only at e1 e1' e2 e3 e4 e5 e6 e6' e7 e8 e9
  obtain ⟨b0, c0⟩ := decU32_inv e0
  obtain ⟨b1, c1⟩ := decU8_inv e1
  obtain ⟨b1', c1'⟩ := decU32_inv e1'
  obtain ⟨b3, c3⟩ := decU8_inv e3
  obtain ⟨b4, c4⟩ := decTo_inv e4
  obtain ⟨b5, c5⟩ := decU32_inv e5
  obtain ⟨b6, c6⟩ := decStr_inv e6
  obtain ⟨b6', c6', d6'⟩ := accessList_inv e6'
  have c7 := decBool_inv e7
  obtain ⟨b8, c8⟩ := decU32_inv e8
  obtain ⟨b9, c9⟩ := decU32_inv e9
  obtain ⟨g1, g2, g3⟩ := decodeHeader_inv eh
  have hm : v = encodeHeader ⟨true, h.payloadLength⟩ ++ r := by
    rcases g3 with ⟨g3, _⟩ | ⟨g3, _⟩
    · rw [g3] at hl; cases hl
    · rw [g3, ← hl]
  unfold decodeMaxFee at e2
  subst et; subst er
  cases hty : t0.type with
  | legacy => exact absurd hty h0
  | eip2930 =>
    rw [hty, if_pos rfl] at e2
    simp only [Outcome.ok.injEq, Prod.mk.injEq] at e2
    obtain ⟨e21, e22⟩ := e2
    have hr : r = rlpItems (typedItems { t0 with
        chainId := some chain, nonce := nonce, maxPriorityFeePerGas := prio, maxFeePerGas := fee,
        gasLimit := gas, to := to, value := value, data := data, accessList := al,
        oddYParity := odd, r := rr, s := s } false) ++ r9 := by
      simp only [typedItems, typedCore, hty, reduceCtorEq, if_false, Bool.false_eq_true, List.cons_append,
        List.nil_append, rlpItems, List.append_nil, List.append_assoc, Option.getD_some]
      rw [c0, c1, c1', e21, e22, c3, c4, c5, c6, c6', c7, c8, c9]
    rw [hty] at hr
    refine ⟨⟨b1, b1', by simp only; omega, b3, b4, b5, by simp; exact b0, b8, b9, b6'⟩, rfl, b6, fun _ => e21, rfl, rfl, d6',
      h.payloadLength, ?_, g2, ?_⟩
    · exact hm.trans (congrArg _ hr)
    · rw [← hr]; exact g1
  | eip1559 =>
    rw [hty, if_neg (by decide)] at e2
    obtain ⟨b2, c2⟩ := decU32_inv e2
    have hr : r = rlpItems (typedItems { t0 with
        chainId := some chain, nonce := nonce, maxPriorityFeePerGas := prio, maxFeePerGas := fee,
        gasLimit := gas, to := to, value := value, data := data, accessList := al,
        oddYParity := odd, r := rr, s := s } false) ++ r9 := by
      simp only [typedItems, typedCore, hty, if_true, if_false, Bool.false_eq_true, List.cons_append,
        List.nil_append, rlpItems, List.append_nil, List.append_assoc, Option.getD_some]
      rw [c0, c1, c1', c2, c3, c4, c5, c6, c6', c7, c8, c9]
    rw [hty] at hr
    refine ⟨⟨b1, b1', b2, b3, b4, b5, by simp; exact b0, b8, b9, b6'⟩, rfl, b6, ?_, rfl, rfl, d6',
      h.payloadLength, ?_, g2, ?_⟩
    · intro h'; cases h'
    · exact hm.trans (congrArg _ hr)
    · rw [← hr]; exact g1

/-! ### Safety -/

theorem decodeTo_ub {v : Bytes} (e : decodeTo v = .ub) : v = [] := by
  unfold decodeTo byteAt at e
  cases v with
  | nil => rfl
  | cons b bs =>
    simp only [List.getElem?_cons_zero, Outcome.ok_bind] at e
    split at e
    · rw [removePrefix_ok (by simp)] at e
      cases e
    · rcases Outcome.bind_eq_ub.mp e with e | ⟨_, _, e⟩
      · exact absurd e (decodeArray_safe _ _)
      · cases e

theorem decodeAccessListEntry_safe : Safe decodeAccessListEntry := by
  intro v
  unfold decodeAccessListEntry
  apply Outcome.bind_ne_ub (decodeHeader_ne_ub _)
  intro ⟨h, r⟩ _
  simp only
  split
  · simp
  apply Outcome.bind_ne_ub (decodeArray_safe _ _)
  intro ⟨a, r⟩ _
  apply Outcome.bind_ne_ub (decodeVector_safe (decodeArray_safe 32) (decodeArray_consumes 32) _)
  intro ⟨a, r⟩ _
  simp only
  split <;> simp

theorem decodeAccessListEntry_consumes : Consumes decodeAccessListEntry := by
  intro v x rest e
  have h := congrArg List.length (decAccess_inv e).2
  have := List.length_pos_iff.mpr (rlp_ne_nil (accessItem x))
  rw [List.length_append] at h
  omega

theorem legacyDecode_ub {t0 : Transaction} {v : Bytes} (e : legacyDecode t0 v = .ub) :
    ∃ nonce fee gas, v = rlpItems [num nonce, num fee, num gas] := by
  unfold legacyDecode at e
  rcases Outcome.bind_eq_ub.mp e with e | ⟨⟨nonce, r1⟩, e1, e⟩
  · exact absurd e (decodeUint_safe _ _)
  rcases Outcome.bind_eq_ub.mp e with e | ⟨⟨fee, r2⟩, e2, e⟩
  · exact absurd e (decodeUint_safe _ _)
  rcases Outcome.bind_eq_ub.mp e with e | ⟨⟨gas, r3⟩, e3, e⟩
  · exact absurd e (decodeUint_safe _ _)
  rcases Outcome.bind_eq_ub.mp e with e | ⟨⟨to, r4⟩, e4, e⟩
  · refine ⟨nonce, fee, gas, ?_⟩
    have h := decodeTo_ub e
    have c1 := (decU8_inv e1).2
    have c2 := (decU32_inv e2).2
    have c3 := (decU8_inv e3).2
    simp only [rlpItems, List.append_nil]
    rw [c1, c2, c3, h, List.append_nil]
  exfalso
  rcases Outcome.bind_eq_ub.mp e with e | ⟨⟨_, _⟩, _, e⟩
  · exact absurd e (decodeUint_safe _ _)
  rcases Outcome.bind_eq_ub.mp e with e | ⟨⟨_, _⟩, _, e⟩
  · exact absurd e (decodeBytes_safe _)
  rcases Outcome.bind_eq_ub.mp e with e | ⟨⟨_, _⟩, _, e⟩
  · exact absurd e (decodeUint_safe _ _)
  rcases Outcome.bind_eq_ub.mp e with e | ⟨⟨_, _⟩, _, e⟩
  · exact absurd e (decodeUint_safe _ _)
  rcases Outcome.bind_eq_ub.mp e with e | ⟨⟨_, _⟩, _, e⟩
  · exact absurd e (decodeUint_safe _ _)
  cases e

theorem decodeMaxFee_safe (ty : TxType) (p : Nat) (v : Bytes) : decodeMaxFee ty p v ≠ .ub := by
  unfold decodeMaxFee
  split
  · simp
  · exact decodeUint_safe _ _

theorem eip2718Decode_ub {t0 : Transaction} (h0 : t0.type ≠ .legacy) {v : Bytes} (e : eip2718Decode t0 v = .ub) :
    ∃ h fields, v = encodeHeader h ++ rlpItems fields ∧ h.list = true ∧
      ((t0.type = .eip2930 ∧ ∃ chain nonce fee gas, fields = [num chain, num nonce, num fee, num gas]) ∨
       (t0.type = .eip1559 ∧ ∃ chain nonce prio fee gas, fields = [num chain, num nonce, num prio, num fee, num gas])) := by
  unfold eip2718Decode at e
  rcases Outcome.bind_eq_ub.mp e with e | ⟨⟨h, r⟩, eh, e⟩
  · exact absurd e (decodeHeader_ne_ub _)
  simp only at e
  split at e
  · cases e
  rename_i hl
  have hl : h.list = true := by simpa using hl
  rcases Outcome.bind_eq_ub.mp e with e | ⟨⟨chain, r0⟩, e0, e⟩
  · exact absurd e (decodeUint_safe _ _)
  rcases Outcome.bind_eq_ub.mp e with e | ⟨⟨nonce, r1⟩, e1, e⟩
  · exact absurd e (decodeUint_safe _ _)
  rcases Outcome.bind_eq_ub.mp e with e | ⟨⟨prio, r2⟩, e2, e⟩
  · exact absurd e (decodeUint_safe _ _)
  rcases Outcome.bind_eq_ub.mp e with e | ⟨⟨fee, r3⟩, e3, e⟩
  · exact absurd e (decodeMaxFee_safe _ _ _)
  rcases Outcome.bind_eq_ub.mp e with e | ⟨⟨gas, r4⟩, e4, e⟩
  · exact absurd e (decodeUint_safe _ _)
  rcases Outcome.bind_eq_ub.mp e with e | ⟨⟨to, r5⟩, e5, e⟩
  · have h5 := decodeTo_ub e
    dsimp only at h5 e1 e2 e3 e4
    have c0 := (decU32_inv e0).2
    have c1 := (decU8_inv e1).2
    have c2 := (decU32_inv e2).2
    have c4 := (decU8_inv e4).2
    obtain ⟨_, _, g3⟩ := decodeHeader_inv eh
    have hm : v = encodeHeader h ++ r := by
      rcases g3 with ⟨g3, _⟩ | ⟨g3, _⟩
      · rw [g3] at hl; cases hl
      · exact g3
    unfold decodeMaxFee at e3
    cases hty : t0.type with
    | legacy => exact absurd hty h0
    | eip2930 =>
      rw [hty, if_pos rfl] at e3
      simp only [Outcome.ok.injEq, Prod.mk.injEq] at e3
      refine ⟨h, [num chain, num nonce, num prio, num gas], ?_, hl, .inl ⟨rfl, _, _, _, _, rfl⟩⟩
      simp only [rlpItems, List.append_nil]
      rw [hm, c0, c1, c2, e3.2, c4, h5, List.append_nil]
    | eip1559 =>
      rw [hty, if_neg (by decide)] at e3
      have c3 := (decU32_inv e3).2
      refine ⟨h, [num chain, num nonce, num prio, num fee, num gas], ?_, hl, .inr ⟨rfl, _, _, _, _, _, rfl⟩⟩
      simp only [rlpItems, List.append_nil]
      rw [hm, c0, c1, c2, c3, c4, h5, List.append_nil]
  exfalso
  rcases Outcome.bind_eq_ub.mp e with e | ⟨⟨_, _⟩, _, e⟩
  · exact absurd e (decodeUint_safe _ _)
  rcases Outcome.bind_eq_ub.mp e with e | ⟨⟨_, _⟩, _, e⟩
  · exact absurd e (decodeBytes_safe _)
  rcases Outcome.bind_eq_ub.mp e with e | ⟨⟨_, _⟩, _, e⟩
  · exact absurd e (decodeVector_safe decodeAccessListEntry_safe decodeAccessListEntry_consumes _)
  rcases Outcome.bind_eq_ub.mp e with e | ⟨⟨_, _⟩, _, e⟩
  · exact absurd e (decodeBool_safe _)
  rcases Outcome.bind_eq_ub.mp e with e | ⟨⟨_, _⟩, _, e⟩
  · exact absurd e (decodeUint_safe _ _)
  rcases Outcome.bind_eq_ub.mp e with e | ⟨⟨_, _⟩, _, e⟩
  · exact absurd e (decodeUint_safe _ _)
  cases e

/-! ### Injectivity of the item trees -/

theorem typeByte_eq (ty : TxType) : typeByte ty = Spec.typeNumber ty := by cases ty <;> rfl

theorem legacyUnsigned_eq (t : Transaction) : Spec.legacyUnsigned t = .list (legacyItems t true) := by
  unfold Spec.legacyUnsigned legacyItems
  cases t.chainId <;> rfl

theorem list_head_ge {l : List Spec.Item} (h64 : (Spec.rlpItems l).length < 2 ^ 64) :
    ∃ b bs, Spec.rlp (.list l) = b :: bs ∧ b ≠ 1 ∧ b ≠ 2 := by
  by_cases h : (Spec.rlpItems l).length < 56
  · refine ⟨UInt8.ofNat (192 + (Spec.rlpItems l).length), Spec.rlpItems l, by simp [Spec.rlp, Spec.lenPrefix, h], ?_, ?_⟩ <;>
    · intro e
      have := congrArg UInt8.toNat e
      simp at this
      omega
  · refine ⟨UInt8.ofNat (247 + (Spec.be (Spec.rlpItems l).length).length), Spec.be (Spec.rlpItems l).length ++ Spec.rlpItems l, ?_, ?_, ?_⟩
    · simp [Spec.rlp, Spec.lenPrefix, h]
    all_goals
      intro e
      have := congrArg UInt8.toNat e
      have hl : (Spec.be (Spec.rlpItems l).length).length ≤ 8 := by
        rw [spec_be_length]; exact byteLen_le (k := 8) (by rw [← pow64]; exact h64)
      simp at this
      omega

theorem toItem_inj {a b : Option Bytes} (ha : ∀ x, a = some x → x.length = 20) (hb : ∀ x, b = some x → x.length = 20)
    (e : Spec.toItem a = Spec.toItem b) : a = b := by
  cases a with
  | none => cases b with
    | none => rfl
    | some y => have := hb y rfl; simp [Spec.toItem] at e; subst e; simp at this
  | some x => cases b with
    | none => have := ha x rfl; simp [Spec.toItem] at e; subst e; simp at this
    | some y => simpa [Spec.toItem] using e

theorem map_inj {α β : Type} {f : α → β} (hf : ∀ a b, f a = f b → a = b) : ∀ l m : List α, l.map f = m.map f → l = m
  | [], [], _ => rfl
  | [], _ :: _, h => by simp at h
  | _ :: _, [], h => by simp at h
  | x :: xs, y :: ys, h => by
    simp at h
    rw [hf _ _ h.1, map_inj hf xs ys h.2]

theorem accessItem_inj (a b : AccessListEntry) (e : Spec.accessItem a = Spec.accessItem b) : a = b := by
  simp [Spec.accessItem] at e
  obtain ⟨e1, e2⟩ := e
  have := map_inj (f := Spec.Item.str) (fun a b h => by simpa using h) _ _ e2
  cases a; cases b
  simp_all

end Silkworm
