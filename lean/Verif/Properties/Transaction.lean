import Verif.Types.TransactionDecode

/-!
# Properties C05 (transactions), C09–C15, C20, C65: transactions and signatures
-/

namespace Silkworm.Properties

open Silkworm Silkworm.Rlp

/-- A legacy transaction used in the examples: EIP-155 chain 1, value transfer. -/
def exLegacy : Transaction :=
  { nonce := 9, maxPriorityFeePerGas := 20000000000, maxFeePerGas := 20000000000, gasLimit := 21000,
    to := some (List.replicate 20 0x35), value := 1000000000000000000, data := [1, 2, 3], oddYParity := true,
    chainId := some 1, r := 2 ^ 255 + 7, s := 12345 }

/-- A type-2 transaction with a non-trivial access list. -/
def exTyped : Transaction :=
  { type := .eip1559, nonce := 7, maxPriorityFeePerGas := 10, maxFeePerGas := 30000000000, gasLimit := 5748100,
    to := none, value := 2, data := [0x60], oddYParity := true, chainId := some 5, r := 11, s := 22,
    accessList := [⟨List.replicate 20 0xde, [List.replicate 32 3, List.replicate 32 7]⟩, ⟨List.replicate 20 0xbb, []⟩] }

theorem exLegacy_wf : exLegacy.WF :=
  ⟨by decide, by decide, by decide, by decide, by intro a h; cases h; rfl, by decide, by intro c h; cases h; decide,
   by decide, by decide, by intro e h; cases h⟩

theorem exTyped_wf : exTyped.WF :=
  ⟨by decide, by decide, by decide, by decide, by (intro a h; cases h), by decide, by intro c h; cases h; decide,
   by decide, by decide, by
    intro e h
    simp only [exTyped, List.mem_cons, List.not_mem_nil, or_false] at h
    rcases h with h | h <;> subst h
    · refine ⟨rfl, ?_⟩
      intro k hk
      simp only [List.mem_cons, List.not_mem_nil, or_false] at hk
      rcases hk with hk | hk <;> subst hk <;> rfl
    · exact ⟨rfl, by simp⟩⟩

theorem exTyped_sized : exTyped.Sized := ⟨by decide, by decide⟩

/-! ## C05: lengths of access list entries and transactions -/

/-- C05: `length(AccessListEntry)` is the size of the encoding, for entries of fewer than `2^57` keys. -/
theorem c05_length_access_list_entry (e : AccessListEntry) (hw : e.WF) (hk : e.storageKeys.length < 2 ^ 57) :
    lengthAccessListEntry e = (encodeAccessListEntry e).length := by
  have hb := access_bound hw (by omega)
  obtain ⟨h1, h2⟩ := access_spec hw (by omega)
  rw [h1, h2]

/-- C05: `length(Transaction)` is the size of the encoding that goes into a block body. -/
theorem c05_length_transaction (t : Transaction) (hw : t.WF) (hs : t.Sized) :
    lengthTransaction t = (encodeTransactionInBlock t).length := by
  have hd := hs.data
  unfold lengthTransaction encodeTransactionInBlock encodeTransaction
  by_cases ht : t.type = .legacy
  · obtain ⟨p1, p2, p3⟩ := legacy_header ht hw (by omega) false
    simp only [ht, ne_eq, not_true_eq_false, if_false, if_true]
    rw [p2, List.length_append, ← p1, lengthOfLength_spec (by omega)]
  · obtain ⟨p0, p3⟩ := typed_bound hw hs false
    obtain ⟨p1, p2⟩ := typed_header ht hw (by omega) (by omega) false
    have hlb : lengthOfLength (txHeader t false).payloadLength ≤ 9 := by unfold lengthOfLength; split <;> omega
    simp only [ht, ne_eq, not_false_eq_true, if_false, if_true]
    rw [p2, if_pos rfl, List.length_append, List.length_cons, List.length_append, ← p1]
    rw [lengthOfLength_spec (h := ⟨false, _⟩) (by simp only; omega)]
    have := lengthOfLength_spec (h := txHeader t false) (by omega)
    omega

example : lengthTransaction exTyped = 140 ∧ (encodeTransactionInBlock exTyped).length = 140 := by decide +kernel
example : lengthTransaction exLegacy = (encodeTransactionInBlock exLegacy).length :=
  c05_length_transaction _ exLegacy_wf ⟨by decide, by decide⟩

/-! ## C09: legacy transactions -/

/-- C09: a legacy transaction is read back from its encoding, whatever bytes follow; the fields compared by
`operator==` are equal and the sender is not set. -/
theorem c09_legacy_roundtrip (t : Transaction) (ht : t.type = .legacy) (hw : t.WF) (hd : t.data.length < 2 ^ 62)
    (hp : t.maxPriorityFeePerGas = t.maxFeePerGas) (ha : t.accessList = [])
    (hv : ∀ c, t.chainId = some c → 2 * c + 36 < 2 ^ 256) (rest : Bytes) :
    ∃ t', decodeTransaction (encodeTransactionInBlock t ++ rest) = .ok (t', rest) ∧ t'.same t ∧ t'.sender = none := by
  refine ⟨_, decodeTransaction_legacy ht hw hd hv rest, ?_, rfl⟩
  simp [Transaction.same, ht, hp, ha]

/-- C09: the encoding is the one of the Yellow Paper and EIP-155. -/
theorem c09_legacy_spec (t : Transaction) (ht : t.type = .legacy) (hw : t.WF) (hd : t.data.length < 2 ^ 62)
    (hv : ∀ c, t.chainId = some c → 2 * c + 36 < 2 ^ 256) (wrap : Bool) :
    encodeTransaction t false wrap = Spec.txEnvelope t := by
  obtain ⟨p1, p2, p3⟩ := legacy_header ht hw (by omega) false
  unfold encodeTransaction Spec.txEnvelope
  rw [if_pos ht, p2, ht]
  have : txHeader t false = ⟨true, (txHeader t false).payloadLength⟩ := rfl
  rw [this, encList p1 (by omega)]
  simp only [legacyItems, Bool.false_eq_true, if_false, v_spec hv]
  rfl

example : ∃ t', decodeTransaction (encodeTransactionInBlock exLegacy ++ [0xff]) = .ok (t', [0xff]) ∧
    t'.same exLegacy ∧ t'.sender = none :=
  c09_legacy_roundtrip exLegacy rfl exLegacy_wf (by decide) rfl rfl (by intro c h; cases h; decide) _

/-- C09: the bound on the chain id is needed: at `2^255 - 4` the combined `v` wraps to 27 and the chain id is lost. -/
theorem c09_chain_id_bound_needed :
    Ecdsa.vToYParityAndChainId (Ecdsa.yParityAndChainIdToV false (some (2 ^ 255 - 4))) = (false, none) := by decide +kernel

/-! ## C10: typed transactions -/

/-- C10: a typed transaction is read back from its encoding in a block body, whatever bytes follow. -/
theorem c10_typed_roundtrip (t : Transaction) (ht : t.type ≠ .legacy) (hw : t.WF) (hs : t.Sized)
    (hp : t.type = .eip2930 → t.maxPriorityFeePerGas = t.maxFeePerGas) (hc : t.chainId.isSome) (rest : Bytes) :
    ∃ t', decodeTransaction (encodeTransactionInBlock t ++ rest) = .ok (t', rest) ∧ t'.same t ∧ t'.sender = none := by
  refine ⟨_, decodeTransaction_typed ht hw hs rest, ?_, rfl⟩
  obtain ⟨c, hc⟩ := Option.isSome_iff_exists.mp hc
  simp only [Transaction.same, hc, Option.getD_some, true_and, and_true]
  split
  · rename_i h; exact (hp h).symm
  · rfl

/-- C10: the encodings are those of EIP-2718, EIP-2930 and EIP-1559. -/
theorem c10_typed_spec (t : Transaction) (ht : t.type ≠ .legacy) (hw : t.WF) (hs : t.Sized) :
    encodeTransaction t false false = Spec.txEnvelope t ∧ encodeTransactionInBlock t = Spec.txInBlock t := by
  obtain ⟨p0, p3⟩ := typed_bound hw hs false
  obtain ⟨p1, p2⟩ := typed_header ht hw (by have := hs.data; omega) (by omega) false
  have hh : txHeader t false = ⟨true, (txHeader t false).payloadLength⟩ := rfl
  have hty : typeByte t.type = Spec.typeNumber t.type := by cases t.type <;> rfl
  have he : Spec.txEnvelope t = Spec.typeNumber t.type :: Spec.rlp (Spec.typedSigned t) := by
    unfold Spec.txEnvelope
    cases h : t.type with
    | legacy => exact absurd h ht
    | eip2930 => rfl
    | eip1559 => rfl
  have hb : Spec.txInBlock t = Spec.rlp (.str (Spec.txEnvelope t)) := by
    unfold Spec.txInBlock
    cases h : t.type with
    | legacy => exact absurd h ht
    | eip2930 => rfl
    | eip1559 => rfl
  have hl : encodeHeader (txHeader t false) ++ Spec.rlpItems (typedItems t false) = Spec.rlp (Spec.typedSigned t) := by
    rw [hh, encList p1 (by omega)]
    rfl
  constructor
  · unfold encodeTransaction
    rw [if_neg ht, p2, hl, he, hty]
    rfl
  · unfold encodeTransactionInBlock encodeTransaction
    rw [if_neg ht, p2, hl, if_pos rfl, hb, he, hty]
    have hlen : lengthOfLength (txHeader t false).payloadLength + (txHeader t false).payloadLength + 1 =
        (Spec.typeNumber t.type :: Spec.rlp (Spec.typedSigned t)).length := by
      rw [List.length_cons, p1, ← hl, List.length_append, hh, p1,
        lengthOfLength_spec (h := ⟨true, (Spec.rlpItems (typedItems t false)).length⟩) (by simp only; omega)]
    have h9 : lengthOfLength (txHeader t false).payloadLength ≤ 9 := by unfold lengthOfLength; split <;> omega
    have h1 := List.length_pos_iff.mpr (Spec.rlp_ne_nil (Spec.typedSigned t))
    rw [hlen, ← encStr (by rw [← hlen]; omega), encodeBytes_header (by rw [List.length_cons]; omega)]

example : ∃ t', decodeTransaction (encodeTransactionInBlock exTyped ++ [0xff]) = .ok (t', [0xff]) ∧
    t'.same exTyped ∧ t'.sender = none :=
  c10_typed_roundtrip exTyped (by decide) exTyped_wf exTyped_sized (by intro h; cases h) rfl _

/-! ## C11: canonicity -/

/-- C11 (full statement, false): every accepted transaction re-encodes to the bytes consumed. -/
def C11_statement : Prop :=
  ∀ from_ rest t, decodeTransaction from_ = .ok (t, rest) → from_ = encodeTransactionInBlock t ++ rest

/-- C11 is violated: `eip2718_decode` ignores the payload length of the inner list, so a type-1 transaction with inner
header `C0` (or any other length) instead of `CB` is accepted. -/
theorem c11_canonical_violated : ¬ C11_statement := by
  intro h
  have e : decodeTransaction [0x8d, 1, 0xc0, 0x80, 0x80, 0x80, 0x80, 0x80, 0x80, 0x80, 0xc0, 0x80, 0x80, 0x80] =
      .ok ({ type := .eip2930, chainId := some 0 }, []) := by decide +kernel
  have := h _ _ _ e
  revert this
  decide +kernel

/-- C11, legacy part: the consumed bytes are exactly the encoding of the result. -/
theorem c11_legacy_canonical_partial (from_ rest : Bytes) (t : Transaction) (e : decodeTransaction from_ = .ok (t, rest))
    (ht : t.type = .legacy) : from_ = encodeTransactionInBlock t ++ rest := by
  unfold decodeTransaction decodeTransactionInto at e
  obtain ⟨⟨h, r⟩, e1, e⟩ := Outcome.bind_eq_ok.mp e
  dsimp only at e
  split at e
  · rename_i hl
    obtain ⟨⟨t', r'⟩, e2, e⟩ := Outcome.bind_eq_ok.mp e
    dsimp only at e
    split at e
    · rename_i hlen
      cases e
      obtain ⟨hw, _, hd, _, _, _, hv⟩ := legacyDecode_inv rfl rfl e2
      obtain ⟨h1, h2⟩ := decList_inv e1 hl hv hlen
      obtain ⟨p1, p2, p3⟩ := legacy_header ht hw hd false
      have hh : txHeader t false = ⟨true, (txHeader t false).payloadLength⟩ := rfl
      unfold encodeTransactionInBlock encodeTransaction
      rw [if_pos ht, p2, hh, encList p1 (by omega)]
      exact h1
    · cases e
  · exfalso
    split at e
    · cases e
    obtain ⟨b, e2, e⟩ := Outcome.bind_eq_ok.mp e
    obtain ⟨r', e3, e⟩ := Outcome.bind_eq_ok.mp e
    obtain ⟨ty, e4, e⟩ := Outcome.bind_eq_ok.mp e
    obtain ⟨⟨t', r''⟩, e5, e⟩ := Outcome.bind_eq_ok.mp e
    have hty : ty ≠ .legacy := by
      unfold txTypeOfByte at e4
      split at e4
      · cases e4; decide
      · split at e4
        · cases e4; decide
        · cases e4
    obtain ⟨_, h2, _⟩ := eip2718Decode_inv (t0 := { type := ty }) hty e5
    dsimp only at e
    split at e
    · cases e
    · obtain ⟨_, _, e⟩ := Outcome.bind_eq_ok.mp e
      cases e
      exact hty (h2.symm.trans ht)

/-- C11, typed part: the consumed bytes are the wrapped encoding of the result except for the length `m` announced by
the inner list header; if `m` is the true length, they are exactly the encoding. Missing from the full statement: that
`m` is the true length (it need not be, see `c11_canonical_violated`). -/
theorem c11_typed_canonical_partial (from_ rest : Bytes) (t : Transaction) (e : decodeTransaction from_ = .ok (t, rest))
    (ht : t.type ≠ .legacy) :
    ∃ n m, from_ = encodeHeader ⟨false, n⟩ ++ (Spec.typeNumber t.type ::
        (encodeHeader ⟨true, m⟩ ++ Spec.rlpItems (Spec.typedCore t ++ [Spec.num t.oddYParity.toNat, Spec.num t.r, Spec.num t.s]))) ++ rest ∧
      (m = (Spec.rlpItems (Spec.typedCore t ++ [Spec.num t.oddYParity.toNat, Spec.num t.r, Spec.num t.s])).length →
        from_ = encodeTransactionInBlock t ++ rest) := by
  unfold decodeTransaction decodeTransactionInto at e
  obtain ⟨⟨h, r⟩, e1, e⟩ := Outcome.bind_eq_ok.mp e
  dsimp only at e
  split at e
  · exfalso
    obtain ⟨⟨t', r'⟩, e2, e⟩ := Outcome.bind_eq_ok.mp e
    dsimp only at e
    split at e
    · cases e
      exact ht (legacyDecode_inv rfl rfl e2).2.1
    · cases e
  rename_i hl
  have hl : h.list = false := by simpa using hl
  split at e
  · cases e
  rename_i hn0
  obtain ⟨b, e2, e⟩ := Outcome.bind_eq_ok.mp e
  obtain ⟨r', e3, e⟩ := Outcome.bind_eq_ok.mp e
  obtain ⟨ty, e4, e⟩ := Outcome.bind_eq_ok.mp e
  obtain ⟨⟨t', r''⟩, e5, e⟩ := Outcome.bind_eq_ok.mp e
  dsimp only at e
  split at e
  · cases e
  rename_i hnil
  have hnil : r'' = [] := by simpa using hnil
  obtain ⟨r3, e6, e⟩ := Outcome.bind_eq_ok.mp e
  cases e
  have hty : ty ≠ .legacy ∧ b = Spec.typeNumber ty := by
    unfold txTypeOfByte at e4
    split at e4
    · rename_i hb; cases e4; exact ⟨by decide, hb⟩
    · split at e4
      · rename_i hb; cases e4; exact ⟨by decide, hb⟩
      · cases e4
  obtain ⟨hw, htt, hd, _, _, _, ha, m, hv, hm1, hm2⟩ := eip2718Decode_inv (t0 := { type := ty }) hty.1 e5
  dsimp only at htt
  subst hnil
  rw [List.append_nil] at hv
  obtain ⟨g1, g2, g3⟩ := decodeHeader_inv e1
  -- the view after the header starts with the type byte
  have hb : r = b :: r' := by
    unfold byteAt at e2
    cases r with
    | nil => simp at e2
    | cons x xs =>
      rw [List.getElem?_cons_zero] at e2
      rw [removePrefix_ok (by simp)] at e3
      cases e2; cases e3
      rfl
  have hr' : h.payloadLength - 1 ≤ r'.length := by
    rw [hb, List.length_cons] at g1; omega
  rw [removePrefix_ok hr'] at e6
  cases e6
  have hsplit : r' = (encodeHeader ⟨true, m⟩ ++ Spec.rlpItems (typedItems t false)) ++ r'.drop (h.payloadLength - 1) := by
    rw [← hv, List.take_append_drop]
  have hfrom : from_ = encodeHeader ⟨false, h.payloadLength⟩ ++ r := by
    rcases g3 with ⟨g3, g4, b', bs, g5, g6⟩ | ⟨g3, _⟩
    · exfalso
      have h1 : h.payloadLength = 1 := by rw [g3]
      rw [h1] at hv
      simp only [Nat.sub_self, List.take_zero] at hv
      exact encodeHeader_ne_nil ⟨true, m⟩ (List.append_eq_nil_iff.mp hv.symm).1
    · rw [g3, ← hl]
  have hpay : h.payloadLength = 1 + (encodeHeader ⟨true, m⟩ ++ Spec.rlpItems (typedItems t false)).length := by
    rw [← hv, List.length_take, Nat.min_eq_left hr']
    omega
  refine ⟨h.payloadLength, m, ?_, ?_⟩
  · rw [hfrom, hb, hty.2, htt]
    conv => lhs; rw [hsplit]
    simp only [typedItems, Bool.false_eq_true, if_false, List.cons_append, List.append_assoc]
  · intro hm
    change m = (Spec.rlpItems (typedItems t false)).length at hm
    obtain ⟨p1, p2⟩ := typed_header ht hw hd ha false
    have hh : txHeader t false = ⟨true, m⟩ := by rw [hm, ← p1]; rfl
    unfold encodeTransactionInBlock encodeTransaction
    rw [if_neg ht, p2, if_pos rfl, lengthOfLength_spec (by rw [p1, ← hm]; exact hm1), hh]
    have : (encodeHeader ⟨true, m⟩).length + m + 1 = h.payloadLength := by
      rw [hpay, List.length_append, ← hm]; omega
    simp only
    rw [this, hfrom, hb, hty.2, htt]
    conv => lhs; rw [hsplit]
    have htb : typeByte ty = Spec.typeNumber ty := by cases ty <;> rfl
    rw [htb]
    simp only [List.cons_append, List.append_assoc]

example : decodeTransaction (encodeTransactionInBlock exLegacy) = .ok (exLegacy, []) := by decide +kernel
example : decodeTransaction (encodeTransactionInBlock exTyped) = .ok (exTyped, []) := by decide +kernel

/-! ## C12: memory safety of the transaction decoder -/

/-- C12 (full statement for transactions, false): no input makes the transaction decoder read outside its view. -/
def C12_transaction_statement : Prop := ∀ from_, decodeTransaction from_ ≠ .ub

/-- C12 is violated: after nonce, price and gas limit `legacy_decode` reads `from[0]` without checking for the end. -/
theorem c12_transaction_violated : ¬ C12_transaction_statement :=
  fun h => h [0xc3, 0x80, 0x80, 0x80] (by decide +kernel)

/-- C12 is violated by typed transactions too. -/
theorem c12_typed_transaction_violated : ¬ C12_transaction_statement :=
  fun h => h [0x86, 1, 0xc4, 0x80, 0x80, 0x80, 0x80] (by decide +kernel)

/-- C12, partial: the read of `from[0]` is the only one out of bounds. If the decoder misbehaves, the input after the header
consists exactly of the fields before the recipient. Missing: safety for those truncated inputs. -/
theorem c12_transaction_safe_partial (from_ : Bytes) (e : decodeTransaction from_ = .ub) :
    (∃ n nonce fee gas, from_ = encodeHeader ⟨true, n⟩ ++ Spec.rlpItems [Spec.num nonce, Spec.num fee, Spec.num gas]) ∨
    (∃ h r ty h' fields, decodeHeader from_ = .ok (h, r) ∧ h.list = false ∧ h'.list = true ∧
      r.take h.payloadLength = ty :: (encodeHeader h' ++ Spec.rlpItems fields) ∧
      ((ty = 1 ∧ ∃ chain nonce fee gas, fields = [Spec.num chain, Spec.num nonce, Spec.num fee, Spec.num gas]) ∨
       (ty = 2 ∧ ∃ chain nonce prio fee gas,
          fields = [Spec.num chain, Spec.num nonce, Spec.num prio, Spec.num fee, Spec.num gas]))) := by
  unfold decodeTransaction decodeTransactionInto at e
  rcases Outcome.bind_eq_ub.mp e with e | ⟨⟨h, r⟩, e1, e⟩
  · exact absurd e (decodeHeader_ne_ub _)
  dsimp only at e
  split at e
  · rename_i hl
    left
    rcases Outcome.bind_eq_ub.mp e with e | ⟨⟨t', r'⟩, e2, e⟩
    · obtain ⟨nonce, fee, gas, hv⟩ := legacyDecode_ub e
      refine ⟨h.payloadLength, nonce, fee, gas, ?_⟩
      obtain ⟨_, _, g3⟩ := decodeHeader_inv e1
      rcases g3 with ⟨g3, _⟩ | ⟨g3, _⟩
      · rw [g3] at hl; cases hl
      · rw [← hv, g3, ← hl]
    · dsimp only at e
      split at e <;> cases e
  · rename_i hl
    have hl : h.list = false := by simpa using hl
    right
    have hle := (decodeHeader_length e1).2.2
    split at e
    · cases e
    rename_i hn0
    cases r with
    | nil => simp at hle; exact absurd hle hn0
    | cons x xs =>
      unfold byteAt at e
      rw [List.getElem?_cons_zero, removePrefix_ok (by simp)] at e
      simp only [Outcome.ok_bind, List.drop_succ_cons, List.drop_zero] at e
      rcases Outcome.bind_eq_ub.mp e with e | ⟨ty, e4, e⟩
      · unfold txTypeOfByte at e
        split at e
        · cases e
        · split at e <;> cases e
      have htake : (x :: xs).take h.payloadLength = x :: xs.take (h.payloadLength - 1) := by
        obtain ⟨k, hk⟩ := Nat.exists_eq_succ_of_ne_zero hn0
        rw [hk]; rfl
      have hty : ty ≠ .legacy ∧ ((x = 1 ∧ ty = .eip2930) ∨ (x = 2 ∧ ty = .eip1559)) := by
        unfold txTypeOfByte at e4
        split at e4
        · rename_i hb; cases e4; exact ⟨by decide, .inl ⟨hb, rfl⟩⟩
        · split at e4
          · rename_i hb; cases e4; exact ⟨by decide, .inr ⟨hb, rfl⟩⟩
          · cases e4
      rcases Outcome.bind_eq_ub.mp e with e | ⟨⟨t', r''⟩, e5, e⟩
      · obtain ⟨h', fields, hv, hl', hf⟩ := eip2718Decode_ub (t0 := { type := ty }) hty.1 e
        refine ⟨h, x :: xs, x, h', fields, e1, hl, hl', ?_, ?_⟩
        · rw [htake, hv]
        · dsimp only at hf
          rcases hf with ⟨hf, hf'⟩ | ⟨hf, hf'⟩ <;> rcases hty.2 with ⟨hx, hy⟩ | ⟨hx, hy⟩
          · exact .inl ⟨hx, hf'⟩
          · rw [hf] at hy; cases hy
          · rw [hf] at hy; cases hy
          · exact .inr ⟨hx, hf'⟩
      · dsimp only at e
        split at e
        · cases e
        · rcases Outcome.bind_eq_ub.mp e with e | ⟨_, _, e⟩
          · unfold removePrefix at e
            rw [if_pos] at e
            · cases e
            · simp at hle; omega
          · cases e

/-- C12: access list entries are decoded safely. -/
theorem c12_access_list_safe (from_ : Bytes) :
    decodeAccessListEntry from_ ≠ .ub ∧ decodeVector decodeAccessListEntry from_ ≠ .ub :=
  ⟨decodeAccessListEntry_safe from_, decodeVector_safe decodeAccessListEntry_safe decodeAccessListEntry_consumes from_⟩

example : decodeTransaction [0xc4, 0x80, 0x80, 0x80, 0x80] = .err .inputTooShort := by decide +kernel

/-! ## C13: the signed payload -/

/-- C13: the bytes hashed for signing are those of EIP-155, EIP-2930 and EIP-1559. -/
theorem c13_signing_payload_spec (t : Transaction) (hw : t.WF) (hs : t.Sized) :
    encodeTransaction t true false = Spec.txSigningPayload t := by
  have hd := hs.data
  unfold encodeTransaction Spec.txSigningPayload
  have hh : txHeader t true = ⟨true, (txHeader t true).payloadLength⟩ := rfl
  by_cases ht : t.type = .legacy
  · obtain ⟨p1, p2, p3⟩ := legacy_header ht hw (by omega) true
    rw [if_pos ht, p2, hh, encList p1 (by omega), ht]
    rw [legacyUnsigned_eq]
  · obtain ⟨p0, p3⟩ := typed_bound hw hs true
    obtain ⟨p1, p2⟩ := typed_header ht hw (by omega) (by omega) true
    rw [if_neg ht, p2, hh, encList p1 (by omega), typeByte_eq]
    have : Spec.rlp (.list (typedItems t true)) = Spec.rlp (.list (Spec.typedCore t)) := by simp [typedItems]
    rw [this]
    cases h : t.type with
    | legacy => exact absurd h ht
    | eip2930 => simp
    | eip1559 => simp

/-- C13: the signed payload determines type, nonce, fees, gas limit, recipient, value, data, chain id and access list.
(The priority fee is part of the payload for type 2 only; an absent chain id is written as zero in typed payloads.) -/
theorem c13_signing_payload_injective (a b : Transaction) (ha : a.WF) (hb : b.WF) (sa : a.Sized) (sb : b.Sized)
    (e : encodeTransaction a true false = encodeTransaction b true false) :
    a.type = b.type ∧ a.nonce = b.nonce ∧ a.maxFeePerGas = b.maxFeePerGas ∧
    (a.type = .eip1559 → a.maxPriorityFeePerGas = b.maxPriorityFeePerGas) ∧
    a.gasLimit = b.gasLimit ∧ a.to = b.to ∧ a.value = b.value ∧ a.data = b.data ∧
    (a.type = .legacy → a.chainId = b.chainId) ∧
    (a.type ≠ .legacy → a.chainId.getD 0 = b.chainId.getD 0 ∧ a.accessList = b.accessList) := by
  have hda := sa.data
  have hdb := sb.data
  by_cases hta : a.type = .legacy <;> by_cases htb : b.type = .legacy
  · obtain ⟨p1, p2, p3⟩ := legacy_header hta ha (by omega) true
    obtain ⟨q1, q2, q3⟩ := legacy_header htb hb (by omega) true
    have hfa : Spec.fits (.list (legacyItems a true)) := by
      apply fits_of_length
      have := list_length_le (l := legacyItems a true) (by omega)
      omega
    have hfb : Spec.fits (.list (legacyItems b true)) := by
      apply fits_of_length
      have := list_length_le (l := legacyItems b true) (by omega)
      omega
    have ha' : txHeader a true = ⟨true, (txHeader a true).payloadLength⟩ := rfl
    have hb' : txHeader b true = ⟨true, (txHeader b true).payloadLength⟩ := rfl
    unfold encodeTransaction at e
    rw [if_pos hta, if_pos htb, p2, q2, ha', hb', encList p1 (by omega), encList q1 (by omega)] at e
    have h := Spec.rlp_inj hfa hfb e
    simp only [legacyItems, Spec.legacyCore, if_true, List.cons_append, List.nil_append, Spec.Item.list.injEq,
      List.cons.injEq, Spec.Item.str.injEq] at h
    obtain ⟨h1, h2, h3, h4, h5, h6, h7⟩ := h
    have hc : a.chainId = b.chainId := by
      cases hca : a.chainId <;> cases hcb : b.chainId <;> rw [hca, hcb] at h7
      · simp at h7
      · simp at h7
      · simp at h7
        rw [Spec.num_inj h7]
    exact ⟨by rw [hta, htb], Spec.num_inj h1, Spec.num_inj h2, fun h => absurd (hta.symm.trans h) (by decide), Spec.num_inj h3,
      toItem_inj ha.to hb.to h4, Spec.num_inj h5, h6, fun _ => hc, fun h => absurd hta h⟩
  · exfalso
    rw [c13_signing_payload_spec a ha sa, c13_signing_payload_spec b hb sb] at e
    unfold Spec.txSigningPayload at e
    rw [hta] at e
    obtain ⟨_, _, p3⟩ := legacy_header hta ha (by omega) true
    obtain ⟨x, xs, hx, hx1, hx2⟩ := list_head_ge (l := legacyItems a true) (by omega)
    cases h : b.type with
    | legacy => exact htb h
    | eip2930 => rw [h] at e; simp only [legacyUnsigned_eq, hx, Spec.typeNumber, List.cons.injEq] at e; exact hx1 e.1
    | eip1559 => rw [h] at e; simp only [legacyUnsigned_eq, hx, Spec.typeNumber, List.cons.injEq] at e; exact hx2 e.1
  · exfalso
    rw [c13_signing_payload_spec a ha sa, c13_signing_payload_spec b hb sb] at e
    unfold Spec.txSigningPayload at e
    rw [htb] at e
    obtain ⟨_, _, p3⟩ := legacy_header htb hb (by omega) true
    obtain ⟨x, xs, hx, hx1, hx2⟩ := list_head_ge (l := legacyItems b true) (by omega)
    cases h : a.type with
    | legacy => exact hta h
    | eip2930 => rw [h] at e; simp only [legacyUnsigned_eq, hx, Spec.typeNumber, List.cons.injEq] at e; exact hx1 e.1.symm
    | eip1559 => rw [h] at e; simp only [legacyUnsigned_eq, hx, Spec.typeNumber, List.cons.injEq] at e; exact hx2 e.1.symm
  · obtain ⟨p0, p3⟩ := typed_bound ha sa true
    obtain ⟨q0, q3⟩ := typed_bound hb sb true
    obtain ⟨p1, p2⟩ := typed_header hta ha (by omega) (by omega) true
    obtain ⟨q1, q2⟩ := typed_header htb hb (by omega) (by omega) true
    have hfa : Spec.fits (.list (typedItems a true)) := by
      apply fits_of_length
      have := list_length_le (l := typedItems a true) (by omega)
      omega
    have hfb : Spec.fits (.list (typedItems b true)) := by
      apply fits_of_length
      have := list_length_le (l := typedItems b true) (by omega)
      omega
    have ha' : txHeader a true = ⟨true, (txHeader a true).payloadLength⟩ := rfl
    have hb' : txHeader b true = ⟨true, (txHeader b true).payloadLength⟩ := rfl
    unfold encodeTransaction at e
    rw [if_neg hta, if_neg htb, p2, q2, ha', hb', encList p1 (by omega), encList q1 (by omega)] at e
    simp only [Bool.false_eq_true, if_false, List.nil_append, List.cons.injEq] at e
    obtain ⟨e0, e⟩ := e
    have hty : a.type = b.type := by
      revert e0; cases a.type <;> cases b.type <;> decide
    have h := Spec.rlp_inj hfa hfb e
    have hin : ∀ x y, Spec.accessItem x = Spec.accessItem y → x = y := accessItem_inj
    by_cases h59 : a.type = .eip1559
    · have h59' : b.type = .eip1559 := by rw [← hty]; exact h59
      simp only [typedItems, Spec.typedCore, h59, h59', if_true, List.append_nil, List.cons_append, List.nil_append,
        Spec.Item.list.injEq, List.cons.injEq, Spec.Item.str.injEq, and_true] at h
      obtain ⟨h0, h1, h1', h2, h3, h4, h5, h6, h7⟩ := h
      exact ⟨hty, Spec.num_inj h1, Spec.num_inj h2, fun _ => Spec.num_inj h1', Spec.num_inj h3,
        toItem_inj ha.to hb.to h4, Spec.num_inj h5, h6, fun h => absurd h hta,
        fun _ => ⟨Spec.num_inj h0, map_inj hin _ _ h7⟩⟩
    · have h59' : ¬ b.type = .eip1559 := by rw [← hty]; exact h59
      simp only [typedItems, Spec.typedCore, h59, h59', if_true, if_false, List.append_nil, List.cons_append, List.nil_append,
        Spec.Item.list.injEq, List.cons.injEq, Spec.Item.str.injEq, and_true] at h
      obtain ⟨h0, h1, h2, h3, h4, h5, h6, h7⟩ := h
      exact ⟨hty, Spec.num_inj h1, Spec.num_inj h2, fun h => absurd h h59, Spec.num_inj h3,
        toItem_inj ha.to hb.to h4, Spec.num_inj h5, h6, fun h => absurd h hta,
        fun _ => ⟨Spec.num_inj h0, map_inj hin _ _ h7⟩⟩

/-- C13: the sender is the last 20 bytes of the hash of the public key (without its prefix byte) that is recovered from
the hash of the signing payload and the 64-byte signature. -/
theorem c13_sender_spec (keccak : Bytes → Bytes) (recover : Bytes → Bytes → Bool → Option Bytes) (t : Transaction)
    (hw : t.WF) (hs : t.Sized) (hk : ∀ b, (keccak b).length = 32) (sig : Bytes) (hsig : sig.length = 64)
    (hr : beToNat (sig.take 32) = t.r) (hs' : beToNat (sig.drop 32) = t.s) :
    (∀ pre pub, recover (keccak (Spec.txSigningPayload t)) sig t.oddYParity = some (pre :: pub) →
      ∃ addr junk, (t.recoverSender keccak recover).sender = some addr ∧ addr.length = 20 ∧
        keccak pub = junk ++ addr) ∧
    (recover (keccak (Spec.txSigningPayload t)) sig t.oddYParity = none →
      (t.recoverSender keccak recover).sender = none) := by
  have e1 : beFixed 32 t.r ++ beFixed 32 t.s = sig := by
    have h1 : sig.take 32 = beFixed 32 t.r := by
      rw [← hr]
      have h := beFixed_beToNat (sig.take 32)
      rw [List.length_take, hsig] at h
      exact h.symm
    have h2 : sig.drop 32 = beFixed 32 t.s := by
      rw [← hs']
      have h := beFixed_beToNat (sig.drop 32)
      rw [List.length_drop, hsig] at h
      exact h.symm
    rw [← h1, ← h2, List.take_append_drop]
  unfold Transaction.recoverSender
  simp only
  rw [c13_signing_payload_spec t hw hs, e1]
  constructor
  · intro pre pub e
    rw [e]
    refine ⟨((keccak pub).drop 12), (keccak pub).take 12, ?_, ?_, ?_⟩
    · simp only [List.drop_succ_cons, List.drop_zero, Option.some.injEq]
      apply List.take_of_length_le
      rw [List.length_drop, hk]
      decide
    · rw [List.length_drop, hk]
    · rw [List.take_append_drop]
  · intro e
    rw [e]

example : (Transaction.recoverSender (fun b => List.replicate 12 0 ++ (b ++ List.replicate 20 7).take 20)
    (fun _ sig odd => if odd then none else some (4 :: (sig.drop 24).take 32)) { r := 5, s := 2 ^ 255 }).sender =
    some ([0, 0, 0, 0, 0, 0, 0, 5, 128] ++ List.replicate 11 0) := by decide +kernel

/-- C13: the recovered sender depends on nothing but the signed payload and the signature: two transactions with the
same payload and signature get the same sender, and `recover_sender` changes no other field. -/
theorem c13_recover_sender (keccak : Bytes → Bytes) (recover : Bytes → Bytes → Bool → Option Bytes) (a b : Transaction)
    (e : encodeTransaction a true false = encodeTransaction b true false) (hr : a.r = b.r) (hs : a.s = b.s)
    (hy : a.oddYParity = b.oddYParity) :
    (a.recoverSender keccak recover).sender = (b.recoverSender keccak recover).sender ∧
    (a.recoverSender keccak recover).same a := by
  constructor
  · simp only [Transaction.recoverSender, e, hr, hs, hy]
    split <;> rfl
  · simp only [Transaction.recoverSender]
    split <;> simp [Transaction.same]

example : exLegacy.WF ∧ exTyped.WF ∧ exTyped.Sized ∧
    encodeTransaction exLegacy true false ≠ encodeTransaction { exLegacy with chainId := some 2 } true false :=
  ⟨exLegacy_wf, exTyped_wf, exTyped_sized, by decide +kernel⟩

/-! ## C14: v -/

/-- C14: splitting any 256-bit `v` and recombining gives `v` back. -/
theorem c14_split_join (v : Nat) (h : v < 2 ^ 256) :
    Ecdsa.yParityAndChainIdToV (Ecdsa.vToYParityAndChainId v).1 (Ecdsa.vToYParityAndChainId v).2 = v :=
  v_join h

/-- C14: combining parity and chain id and splitting gives them back. -/
theorem c14_join_split (odd : Bool) (c : Option Nat) (h : ∀ n, c = some n → 2 * n + 36 < 2 ^ 256) :
    Ecdsa.vToYParityAndChainId (Ecdsa.yParityAndChainIdToV odd c) = (odd, c) :=
  v_split h

/-- C14: the combined value is the one of EIP-155. -/
theorem c14_join_spec (odd : Bool) (c : Option Nat) (h : ∀ n, c = some n → 2 * n + 36 < 2 ^ 256) :
    Ecdsa.yParityAndChainIdToV odd c = Spec.vValue odd c :=
  v_spec (t := { oddYParity := odd, chainId := c }) h

example : Ecdsa.yParityAndChainIdToV true (some 1) = 38 ∧ Ecdsa.vToYParityAndChainId 38 = (true, some 1) ∧
    Ecdsa.vToYParityAndChainId 0 = (true, some (2 ^ 255 - 18)) := by decide +kernel

/-! ## C15: signature range -/

/-- The condition of the Yellow Paper (equations 313-315) and EIP-2, with `n` the secp256k1 group order. -/
def SignatureInRange (n r s : Nat) (homestead : Bool) : Prop :=
  0 < r ∧ r < n ∧ 0 < s ∧ s < n ∧ (homestead = true → s ≤ n / 2)

/-- The order of the secp256k1 group (SEC 2). -/
def secp256k1Order : Nat := 115792089237316195423570985008687907852837564279074904382605163141518161494337

/-- C15 (full statement, false). -/
def C15_statement : Prop :=
  ∀ r s homestead, r < 2 ^ 256 → s < 2 ^ 256 →
    (Ecdsa.isValidSignature r s homestead = true ↔ SignatureInRange secp256k1Order r s homestead)

/-- C15 is violated: `r = n` is accepted when `s` is in range (the code tests `r >= n && s >= n`). -/
theorem c15_signature_range_violated : ¬ C15_statement := by
  intro h
  have := (h secp256k1Order 1 true (by decide) (by decide)).mp (by decide +kernel)
  exact absurd this.2.1 (by decide)

/-- C15, partial: valid signatures are accepted, zero components and high `s` (homestead) are rejected, and whatever is
accepted has at least one component below `n`, and `s` below `n` under homestead rules. Missing: `r < n`, and `s < n`
under frontier rules. -/
theorem c15_signature_range_partial (r s : Nat) (homestead : Bool) :
    (SignatureInRange secp256k1Order r s homestead → Ecdsa.isValidSignature r s homestead = true) ∧
    (Ecdsa.isValidSignature r s homestead = true →
      0 < r ∧ 0 < s ∧ (r < secp256k1Order ∨ s < secp256k1Order) ∧
      (homestead = true → s ≤ secp256k1Order / 2 ∧ s < secp256k1Order)) := by
  have hn : Ecdsa.secp256k1n = secp256k1Order := by decide
  unfold SignatureInRange Ecdsa.isValidSignature Ecdsa.secp256k1Halfn
  rw [hn]
  have : secp256k1Order = 115792089237316195423570985008687907852837564279074904382605163141518161494337 := rfl
  constructor
  · intro ⟨h1, h2, h3, h4, h5⟩
    rw [if_neg (by omega), if_neg (by omega), if_neg]
    intro ⟨h6, h7⟩
    have := h5 h6
    omega
  · intro h
    split at h
    · cases h
    · split at h
      · cases h
      · split at h
        · cases h
        · rename_i h1 h2 h3
          refine ⟨by omega, by omega, by omega, ?_⟩
          intro h4
          have h3 : ¬ s > secp256k1Order / 2 := fun h => h3 ⟨h4, h⟩
          omega

example : SignatureInRange secp256k1Order 5 7 true := ⟨by decide, by decide, by decide, by decide, fun _ => by decide⟩

/-! ## C20: effective gas price -/

/-- C20: with `max_fee >= base_fee` both functions are defined, nothing wraps, and the caps hold. -/
theorem c20_effective_gas_price (t : Transaction) (baseFee : Nat) (hw : t.WF) (hb : baseFee ≤ t.maxFeePerGas) :
    ∃ prio price, t.priorityFeePerGas baseFee = .ok prio ∧ t.effectiveGasPrice baseFee = .ok price ∧
      baseFee ≤ price ∧ price ≤ t.maxFeePerGas ∧ prio ≤ t.maxPriorityFeePerGas ∧ price - baseFee = prio ∧
      price < 2 ^ 256 ∧ (price = t.maxFeePerGas ∨ prio = t.maxPriorityFeePerGas) := by
  have := hw.fee
  have e : t.priorityFeePerGas baseFee = .ok (min t.maxPriorityFeePerGas (t.maxFeePerGas - baseFee)) := by
    unfold Transaction.priorityFeePerGas; rw [if_pos hb]
  refine ⟨_, _, e, by unfold Transaction.effectiveGasPrice; rw [e]; rfl, ?_⟩
  rw [Nat.mod_eq_of_lt (by omega)]
  omega

/-- C20: below the base fee the functions violate their assertion, so callers must check first (see C24). -/
theorem c20_precondition (t : Transaction) (baseFee : Nat) (hb : t.maxFeePerGas < baseFee) :
    t.effectiveGasPrice baseFee = .ub := by
  unfold Transaction.effectiveGasPrice Transaction.priorityFeePerGas
  rw [if_neg (by omega)]
  rfl

example : exTyped.effectiveGasPrice 1000 = .ok 1010 ∧ exTyped.effectiveGasPrice 29999999995 = .ok 30000000000 := by decide

/-! ## C65: decoding into a reused object -/

/-- C65 (full statement, false): decoding overwrites the target completely, up to the derived sender. -/
def C65_statement : Prop :=
  ∀ (t0 t t' : Transaction) (from_ rest : Bytes), decodeTransactionInto t0 from_ = .ok (t, rest) →
    decodeTransaction from_ = .ok (t', rest) → t.same t'

/-- C65 is violated: a legacy transaction decoded into an object that held an access list keeps that list. -/
theorem c65_reused_target_violated : ¬ C65_statement := by
  intro h
  have h1 : decodeTransactionInto exTyped [0xc9, 0x80, 0x80, 0x80, 0x80, 0x80, 0x80, 0x1b, 0x80, 0x80] =
      .ok ({ accessList := exTyped.accessList }, []) := by decide +kernel
  have h2 : decodeTransaction [0xc9, 0x80, 0x80, 0x80, 0x80, 0x80, 0x80, 0x1b, 0x80, 0x80] = .ok ({}, []) := by
    decide +kernel
  have := (h _ _ _ _ _ h1 h2).2.2.2.2.2.2.2.2.2.2.2.2
  revert this
  decide

/-- C65, partial: typed transactions overwrite every compared field, and legacy ones do if the target's access list was
empty. Missing: legacy transactions over a target with an access list. -/
theorem c65_reused_target_partial (t0 t : Transaction) (hw : t.WF) (hs : t.Sized) (rest : Bytes)
    (hv : ∀ c, t.chainId = some c → 2 * c + 36 < 2 ^ 256) (h0 : t.type = .legacy → t0.accessList = []) :
    ∃ t1 t2, decodeTransactionInto t0 (encodeTransactionInBlock t ++ rest) = .ok (t1, rest) ∧
      decodeTransaction (encodeTransactionInBlock t ++ rest) = .ok (t2, rest) ∧ t1.same t2 := by
  by_cases ht : t.type = .legacy
  · refine ⟨_, _, decodeTransaction_legacy ht hw hs.data hv rest, decodeTransaction_legacy ht hw hs.data hv rest, ?_⟩
    simp [Transaction.same, h0 ht]
  · refine ⟨_, _, decodeTransaction_typed ht hw hs rest, decodeTransaction_typed ht hw hs rest, ?_⟩
    simp [Transaction.same]

end Silkworm.Properties
