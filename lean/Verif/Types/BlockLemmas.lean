import Verif.Types.TransactionDecode
import Verif.Spec.Block

/-! Helper lemmas for headers, bodies and blocks. -/

namespace Silkworm

open Rlp Spec

set_option maxHeartbeats 1000000 in
theorem header_spec_aux {h : BlockHeader} (hw : h.WF) (forSealing : Bool) :
    (blockHeaderHeader h forSealing).payloadLength = (rlpItems (headerItems h forSealing)).length ∧
    encodeBlockHeader h forSealing =
      encodeHeader (blockHeaderHeader h forSealing) ++ rlpItems (headerItems h forSealing) ∧
    (rlpItems (headerItems h forSealing)).length ≤ h.extraData.length + 1000 := by
  have hx := hw.extraData
  have w1 := hw.parentHash
  have w2 := hw.ommersHash
  have w3 := hw.beneficiary
  have w4 := hw.stateRoot
  have w5 := hw.transactionsRoot
  have w6 := hw.receiptsRoot
  have w7 := hw.logsBloom
  have w8 := hw.mixHash
  have w9 := hw.nonce
  have e1 := encArr (s := h.parentHash) (by omega) (by omega)
  have e2 := encArr (s := h.ommersHash) (by omega) (by omega)
  have e3 := encArr (s := h.beneficiary) (by omega) (by omega)
  have e4 := encArr (s := h.stateRoot) (by omega) (by omega)
  have e5 := encArr (s := h.transactionsRoot) (by omega) (by omega)
  have e6 := encArr (s := h.receiptsRoot) (by omega) (by omega)
  have e7 := encStr (s := h.logsBloom) (by omega)
  have e8 := encU32 hw.difficulty
  have e9 := encU8 hw.number
  have e10 := encU8 hw.gasLimit
  have e11 := encU8 hw.gasUsed
  have e12 := encU8 hw.timestamp
  have e13 := encStr (s := h.extraData) (by omega)
  have e14 := encArr (s := h.mixHash) (by omega) (by omega)
  have e15 := encArr (s := h.nonce) (by omega) (by omega)
  have l1 := lenArr (s := h.parentHash) (by omega) (by omega)
  have l2 := lenArr (s := h.ommersHash) (by omega) (by omega)
  have l3 := lenArr (s := h.beneficiary) (by omega) (by omega)
  have l4 := lenArr (s := h.stateRoot) (by omega) (by omega)
  have l5 := lenArr (s := h.transactionsRoot) (by omega) (by omega)
  have l6 := lenArr (s := h.receiptsRoot) (by omega) (by omega)
  have l7 : 256 + lengthOfLength 256 = (rlp (.str h.logsBloom)).length := by
    rw [← e7, encodeBytes_header (by omega), List.length_append, w7,
      ← lengthOfLength_spec (h := ⟨false, 256⟩) (by decide)]
    simp only
    omega
  have l8 := lenU32 hw.difficulty
  have l9 := lenU8 hw.number
  have l10 := lenU8 hw.gasLimit
  have l11 := lenU8 hw.gasUsed
  have l12 := lenU8 hw.timestamp
  have l13 := lenStr (s := h.extraData) (by omega)
  have l14 := lenArr (s := h.mixHash) (by omega) (by omega)
  have l15 := lenArr (s := h.nonce) (by omega) (by omega)
  have b8 := num_length_le hw.difficulty
  have b9 := num_length_le (n := h.number) (by have := hw.number; omega)
  have b10 := num_length_le (n := h.gasLimit) (by have := hw.gasLimit; omega)
  have b11 := num_length_le (n := h.gasUsed) (by have := hw.gasUsed; omega)
  have b12 := num_length_le (n := h.timestamp) (by have := hw.timestamp; omega)
  have b13 := rlp_str_length_le (s := h.extraData) (by omega)
  have hlol : lengthOfLength 256 = 3 := by decide
  cases hf : h.baseFeePerGas with
  | none =>
    cases forSealing <;>
    · simp only [headerItems, feeItems, blockHeaderHeader, encodeBlockHeader, hf, if_true, if_false, Bool.not_false, Bool.not_true,
        Bool.false_eq_true, List.append_nil, List.cons_append, List.nil_append, rlpItems, List.length_append,
        e1, e2, e3, e4, e5, e6, e7, e8, e9, e10, e11, e12, e13, e14, e15, l8, l9, l10, l11, l12, l13,
        List.append_assoc]
      exact ⟨by omega, trivial, by omega⟩
  | some f =>
    have e16 := encU32 (hw.baseFee f hf)
    have l16 := lenU32 (hw.baseFee f hf)
    have b16 := num_length_le (hw.baseFee f hf)
    cases forSealing <;>
    · simp only [headerItems, feeItems, blockHeaderHeader, encodeBlockHeader, hf, if_true, if_false, Bool.not_false, Bool.not_true,
        Bool.false_eq_true, List.append_nil, List.cons_append, List.nil_append, rlpItems, List.length_append,
        e1, e2, e3, e4, e5, e6, e7, e8, e9, e10, e11, e12, e13, e14, e15, e16, l8, l9, l10, l11, l12, l13, l16,
        List.append_assoc]
      exact ⟨by omega, trivial, by omega⟩

theorem header_spec {h : BlockHeader} (hw : h.WF) (forSealing : Bool) :
    encodeBlockHeader h forSealing = rlp (.list (headerItems h forSealing)) := by
  obtain ⟨p1, p2, p3⟩ := header_spec_aux hw forSealing
  have := hw.extraData
  rw [p2, show blockHeaderHeader h forSealing = ⟨true, (blockHeaderHeader h forSealing).payloadLength⟩ from rfl,
    encList p1 (by omega)]

theorem header_length {h : BlockHeader} (hw : h.WF) : lengthBlockHeader h = (rlp (headerItem h)).length := by
  obtain ⟨p1, p2, p3⟩ := header_spec_aux hw false
  have := hw.extraData
  unfold lengthBlockHeader headerItem
  simp only
  rw [p1, lenList (by omega)]

theorem decHeader {h : BlockHeader} (hw : h.WF) (rest : Bytes) :
    decodeBlockHeader (rlp (headerItem h) ++ rest) = .ok (h, rest) := by
  obtain ⟨p1, p2, p3⟩ := header_spec_aux hw false
  have hx := hw.extraData
  unfold decodeBlockHeader headerItem
  rw [decodeHeader_rlp_list (by omega)]
  simp only [Outcome.ok_bind, Bool.not_true, Bool.false_eq_true, if_false]
  have hlen : (rlpItems (headerItems h false) ++ rest).length - (rlpItems (headerItems h false)).length = rest.length := by
    rw [List.length_append]; omega
  rw [hlen]
  simp only [headerItems, Bool.false_eq_true, if_false, List.cons_append, List.nil_append, rlpItems, List.append_assoc]
  simp only [decArr hw.parentHash (by decide) (by decide), decArr hw.ommersHash (by decide) (by decide),
    decArr hw.beneficiary (by decide) (by decide), decArr hw.stateRoot (by decide) (by decide),
    decArr hw.transactionsRoot (by decide) (by decide), decArr hw.receiptsRoot (by decide) (by decide),
    decArr hw.logsBloom (by decide) (by decide), decArr hw.mixHash (by decide) (by decide),
    decArr hw.nonce (by decide) (by decide), decU32 hw.difficulty, decU8 hw.number, decU8 hw.gasLimit,
    decU8 hw.gasUsed, decU8 hw.timestamp, decStr (s := h.extraData) (by omega), Outcome.ok_bind]
  unfold decodeBaseFee
  cases hf : h.baseFeePerGas with
  | none =>
    simp only [feeItems, rlpItems, List.nil_append, gt_iff_lt, Nat.lt_irrefl, if_false, Outcome.ok_bind, if_true]
    cases h
    simp only at hf
    rw [hf]
  | some f =>
    have := List.length_pos_iff.mpr (rlp_ne_nil (num f))
    simp only [feeItems, rlpItems, List.append_nil]
    rw [if_pos (by rw [List.length_append]; omega), decU32 (hw.baseFee f hf)]
    simp only [Outcome.ok_bind, if_true]
    cases h
    simp only at hf
    rw [hf]

theorem decHeader_inv {h : BlockHeader} {v rest : Bytes} (e : decodeBlockHeader v = .ok (h, rest)) :
    v = rlp (headerItem h) ++ rest ∧ (h.extraData.length < 2 ^ 63 → h.WF) ∧
      h.extraData.length ≤ (rlp (headerItem h)).length := by
  unfold decodeBlockHeader at e
  obtain ⟨⟨hd, r⟩, eh, e⟩ := Outcome.bind_eq_ok.mp e
  dsimp only at e
  split at e
  · cases e
  rename_i hl
  have hl : hd.list = true := by simpa using hl
  obtain ⟨⟨x1, r1⟩, e1, e⟩ := Outcome.bind_eq_ok.mp e
  obtain ⟨⟨x2, r2⟩, e2, e⟩ := Outcome.bind_eq_ok.mp e
  obtain ⟨⟨x3, r3⟩, e3, e⟩ := Outcome.bind_eq_ok.mp e
  obtain ⟨⟨x4, r4⟩, e4, e⟩ := Outcome.bind_eq_ok.mp e
  obtain ⟨⟨x5, r5⟩, e5, e⟩ := Outcome.bind_eq_ok.mp e
  obtain ⟨⟨x6, r6⟩, e6, e⟩ := Outcome.bind_eq_ok.mp e
  obtain ⟨⟨x7, r7⟩, e7, e⟩ := Outcome.bind_eq_ok.mp e
  obtain ⟨⟨x8, r8⟩, e8, e⟩ := Outcome.bind_eq_ok.mp e
  obtain ⟨⟨x9, r9⟩, e9, e⟩ := Outcome.bind_eq_ok.mp e
  obtain ⟨⟨x10, r10⟩, e10, e⟩ := Outcome.bind_eq_ok.mp e
  obtain ⟨⟨x11, r11⟩, e11, e⟩ := Outcome.bind_eq_ok.mp e
  obtain ⟨⟨x12, r12⟩, e12, e⟩ := Outcome.bind_eq_ok.mp e
  obtain ⟨⟨x13, r13⟩, e13, e⟩ := Outcome.bind_eq_ok.mp e
  obtain ⟨⟨x14, r14⟩, e14, e⟩ := Outcome.bind_eq_ok.mp e
  obtain ⟨⟨x15, r15⟩, e15, e⟩ := Outcome.bind_eq_ok.mp e
  obtain ⟨⟨x16, r16⟩, e16, e⟩ := Outcome.bind_eq_ok.mp e
  dsimp only at e e1 e2 e3 e4 e5 e6 e7 e8 e9 e10 e11 e12 e13 e14 e15 e16
  split at e
  · rename_i hlen
    obtain ⟨b1, c1⟩ := decArr_inv (by decide) e1
    obtain ⟨b2, c2⟩ := decArr_inv (by decide) e2
    obtain ⟨b3, c3⟩ := decArr_inv (by decide) e3
    obtain ⟨b4, c4⟩ := decArr_inv (by decide) e4
    obtain ⟨b5, c5⟩ := decArr_inv (by decide) e5
    obtain ⟨b6, c6⟩ := decArr_inv (by decide) e6
    obtain ⟨b7, c7⟩ := decArr_inv (by decide) e7
    obtain ⟨b8, c8⟩ := decU32_inv e8
    obtain ⟨b9, c9⟩ := decU8_inv e9
    obtain ⟨b10, c10⟩ := decU8_inv e10
    obtain ⟨b11, c11⟩ := decU8_inv e11
    obtain ⟨b12, c12⟩ := decU8_inv e12
    obtain ⟨b13, c13⟩ := decStr_inv e13
    obtain ⟨b14, c14⟩ := decArr_inv (by decide) e14
    obtain ⟨b15, c15⟩ := decArr_inv (by decide) e15
    have h16 : (∀ f, x16 = some f → f < 2 ^ 256) ∧
        r15 = rlpItems (feeItems x16) ++ r16 := by
      unfold decodeBaseFee at e16
      split at e16
      · obtain ⟨⟨f, r'⟩, e17, e16⟩ := Outcome.bind_eq_ok.mp e16
        cases e16
        obtain ⟨b, c⟩ := decU32_inv e17
        refine ⟨?_, by simpa [rlpItems, feeItems] using c⟩
        intro g hg
        cases hg
        exact b
      · cases e16
        refine ⟨?_, rfl⟩
        intro g hg
        cases hg
    obtain ⟨b16, c16⟩ := h16
    cases e
    refine ⟨?_, ?_, ?_⟩
    · apply (decList_inv eh hl _ hlen).1
      simp only [headerItems, Bool.false_eq_true, if_false, List.cons_append, List.nil_append, rlpItems, List.append_assoc]
      rw [c1, c2, c3, c4, c5, c6, c7, c8, c9, c10, c11, c12, c13, c14, c15, c16]
    · intro hx
      exact ⟨b1, b2, b3, b4, b5, b6, b7, b8, b9, b10, b11, b12, hx, b14, b15, b16⟩
    · have g := rlp_list_length_ge (headerItems
        { parentHash := x1, ommersHash := x2, beneficiary := x3, stateRoot := x4, transactionsRoot := x5,
          receiptsRoot := x6, logsBloom := x7, difficulty := x8, number := x9, gasLimit := x10, gasUsed := x11,
          timestamp := x12, extraData := x13, mixHash := x14, nonce := x15, baseFeePerGas := x16 } false)
      have g2 := rlpStr_length_ge x13
      unfold headerItem
      simp only [headerItems, Bool.false_eq_true, if_false, List.cons_append, List.nil_append, rlpItems,
        List.length_append] at g ⊢
      have g3 : rlp (.str x13) = rlpStr x13 := by rw [rlp]
      rw [g3] at g
      omega
  · cases e

theorem decodeBlockHeader_safe : Safe decodeBlockHeader := by
  intro v
  unfold decodeBlockHeader
  apply Outcome.bind_ne_ub (decodeHeader_ne_ub _)
  intro ⟨h, r⟩ _
  dsimp only
  split
  · simp
  iterate 7
    apply Outcome.bind_ne_ub (decodeArray_safe _ _)
    intro ⟨_, _⟩ _
  iterate 5
    apply Outcome.bind_ne_ub (decodeUint_safe _ _)
    intro ⟨_, _⟩ _
  apply Outcome.bind_ne_ub (decodeBytes_safe _)
  intro ⟨_, _⟩ _
  iterate 2
    apply Outcome.bind_ne_ub (decodeArray_safe _ _)
    intro ⟨_, _⟩ _
  apply Outcome.bind_ne_ub
  · unfold decodeBaseFee
    split
    · apply Outcome.bind_ne_ub (decodeUint_safe _ _)
      intro ⟨_, _⟩ _
      simp
    · simp
  intro ⟨_, _⟩ _
  dsimp only
  split <;> simp

theorem decodeBlockHeader_consumes : Consumes decodeBlockHeader := by
  intro v x rest e
  have h := congrArg List.length (decHeader_inv e).1
  have := List.length_pos_iff.mpr (rlp_ne_nil (headerItem x))
  rw [List.length_append] at h
  omega

/-! ### Transactions inside bodies -/

theorem txInBlock_spec {t : Transaction} (hc : t.Codable) :
    encodeTransactionInBlock t = rlp (txItem t) ∧ lengthTransaction t = (rlp (txItem t)).length := by
  have hw := hc.wf
  have hs := hc.sized
  have hd := hs.data
  by_cases ht : t.type = .legacy
  · obtain ⟨p1, p2, p3⟩ := legacy_header ht hw (by omega) false
    have hi : txItem t = .list (legacyItems t false) := by
      unfold txItem
      rw [ht]
      simp only [legacySigned, legacyItems, Bool.false_eq_true, if_false, v_spec (hc.v ht)]
    have hh : txHeader t false = ⟨true, (txHeader t false).payloadLength⟩ := rfl
    constructor
    · unfold encodeTransactionInBlock encodeTransaction
      rw [if_pos ht, p2, hh, encList p1 (by omega), hi]
    · unfold lengthTransaction
      simp only [ht, ne_eq, not_true_eq_false, if_false]
      rw [p1, lenList (by omega), hi]
  · obtain ⟨p0, p3⟩ := typed_bound hw hs false
    obtain ⟨p1, p2⟩ := typed_header ht hw (by omega) (by omega) false
    have hh : txHeader t false = ⟨true, (txHeader t false).payloadLength⟩ := rfl
    have hl : encodeHeader (txHeader t false) ++ rlpItems (typedItems t false) = rlp (typedSigned t) := by
      rw [hh, encList p1 (by omega)]
      rfl
    have hi : txItem t = .str (typeNumber t.type :: rlp (typedSigned t)) := by
      unfold txItem txEnvelope
      cases h : t.type with
      | legacy => exact absurd h ht
      | eip2930 => rfl
      | eip1559 => rfl
    have h9 : lengthOfLength (txHeader t false).payloadLength ≤ 9 := by unfold lengthOfLength; split <;> omega
    have hlen : lengthOfLength (txHeader t false).payloadLength + (txHeader t false).payloadLength + 1 =
        (typeNumber t.type :: rlp (typedSigned t)).length := by
      rw [List.length_cons, p1, ← hl, List.length_append, hh, p1,
        lengthOfLength_spec (h := ⟨true, (rlpItems (typedItems t false)).length⟩) (by simp only; omega)]
    have h1 := List.length_pos_iff.mpr (rlp_ne_nil (typedSigned t))
    have henc : rlp (.str (typeNumber t.type :: rlp (typedSigned t))) =
        encodeHeader ⟨false, (typeNumber t.type :: rlp (typedSigned t)).length⟩ ++
          (typeNumber t.type :: rlp (typedSigned t)) := by
      rw [← encStr (by rw [← hlen]; omega), encodeBytes_header (by rw [List.length_cons]; omega)]
    constructor
    · unfold encodeTransactionInBlock encodeTransaction
      rw [if_neg ht, p2, if_pos rfl, hl, hi, typeByte_eq, hlen, henc]
    · unfold lengthTransaction
      simp only [ht, ne_eq, not_false_eq_true, if_true]
      rw [hi, henc, List.length_append, ← hlen, lengthOfLength_spec (h := ⟨false, _⟩) (by simp only; omega)]
      omega

theorem decTx {t : Transaction} (hc : t.Codable) (rest : Bytes) :
    decodeTransaction (rlp (txItem t) ++ rest) = .ok ({ t with sender := none }, rest) := by
  rw [← (txInBlock_spec hc).1]
  unfold decodeTransaction
  by_cases ht : t.type = .legacy
  · rw [decodeTransaction_legacy ht hc.wf hc.sized.data (hc.v ht)]
    have h1 := hc.prio (by rw [ht]; decide)
    have h2 := hc.access ht
    rw [h1, ← h2]
  · rw [decodeTransaction_typed ht hc.wf hc.sized]
    obtain ⟨c, hcc⟩ := Option.isSome_iff_exists.mp (hc.chain ht)
    have : (if t.type = .eip2930 then t.maxFeePerGas else t.maxPriorityFeePerGas) = t.maxPriorityFeePerGas := by
      split
      · rename_i h; exact (hc.prio (by rw [h]; decide)).symm
      · rfl
    rw [this, hcc]
    rfl

/-- `decodeVector` when the decoder returns a normalised element. -/
theorem decVec_norm {α : Type} {f : α → Item} {g : α → α} {dec : Bytes → Dec (α × Bytes)} {v : List α}
    (hg : ∀ x ∈ v, f (g x) = f x)
    (hrt : ∀ x ∈ v, ∀ rest, dec (rlp (f x) ++ rest) = .ok (g x, rest)) (h64 : (rlpItems (v.map f)).length < 2 ^ 64)
    (rest : Bytes) : decodeVector dec (rlp (.list (v.map f)) ++ rest) = .ok (v.map g, rest) := by
  have h : v.map f = (v.map g).map f := by
    rw [List.map_map]
    exact List.map_congr_left (fun x hx => (hg x hx).symm)
  rw [h] at h64 ⊢
  apply decVec _ h64
  intro x hx rest
  obtain ⟨y, hy, rfl⟩ := List.mem_map.mp hx
  rw [hg y hy]
  exact hrt y hy rest

theorem txItem_sender (t : Transaction) : txItem { t with sender := none } = txItem t := rfl

theorem decTxs {ts : List Transaction} (hc : ∀ t ∈ ts, t.Codable) (h64 : (rlpItems (ts.map txItem)).length < 2 ^ 64)
    (rest : Bytes) : decodeVector decodeTransaction (rlp (.list (ts.map txItem)) ++ rest) =
      .ok (ts.map (fun t => { t with sender := none }), rest) :=
  decVec_norm (fun t _ => txItem_sender t) (fun t ht rest => decTx (hc t ht) rest) h64 rest

theorem decHeaders {hs : List BlockHeader} (hw : ∀ h ∈ hs, h.WF) (h64 : (rlpItems (hs.map headerItem)).length < 2 ^ 64)
    (rest : Bytes) : decodeVector decodeBlockHeader (rlp (.list (hs.map headerItem)) ++ rest) = .ok (hs, rest) :=
  decVec (fun h hh rest => decHeader (hw h hh) rest) h64 rest

theorem body_spec {b : BlockBody} (ht : ∀ t ∈ b.transactions, t.Codable) (ho : ∀ h ∈ b.ommers, h.WF)
    (h64 : (rlp (bodyItem b)).length < 2 ^ 64) : encodeBlockBody b = rlp (bodyItem b) := by
  have g := rlp_list_length_ge [.list (b.transactions.map txItem), .list (b.ommers.map headerItem)]
  have g1 := rlp_list_length_ge (b.transactions.map txItem)
  have g2 := rlp_list_length_ge (b.ommers.map headerItem)
  unfold bodyItem at h64 ⊢
  have g' : (rlpItems [.list (b.transactions.map txItem), .list (b.ommers.map headerItem)]).length =
      (rlp (.list (b.transactions.map txItem))).length + (rlp (.list (b.ommers.map headerItem))).length := by
    simp only [rlpItems, List.append_nil, List.length_append]
  obtain ⟨v1, v2⟩ := encVec (f := txItem) (enc := encodeTransactionInBlock) (len := lengthTransaction)
    (fun t h => (txInBlock_spec (ht t h)).1) (fun t h => (txInBlock_spec (ht t h)).2) (by omega)
  obtain ⟨w1, w2⟩ := encVec (f := headerItem) (enc := (encodeBlockHeader · false)) (len := lengthBlockHeader)
    (fun h hh => header_spec (ho h hh) false) (fun h hh => header_length (ho h hh)) (by omega)
  unfold encodeBlockBody
  rw [v1, v2, w1, w2, List.append_assoc]
  conv => rhs; rw [rlp_list_eq (by omega), g']
  simp only [rlpItems, List.append_nil]

/-! ### Safety of bodies -/

/-- If decoding a list of items misbehaves, it does so at some item. -/
theorem decodeItems_ub {α : Type} {dec : Bytes → Dec (α × Bytes)}
    (hcon : ∀ v x rest, dec v = .ok (x, rest) → ∃ c, c ≠ [] ∧ v = c ++ rest)
    {fuel : Nat} {v : Bytes} (hf : v.length ≤ fuel) (e : decodeItems dec fuel v = .ub) :
    ∃ pre w, v = pre ++ w ∧ dec w = .ub := by
  induction fuel generalizing v with
  | zero =>
    match v with
    | [] => simp [decodeItems] at e
    | _ :: _ => simp at hf
  | succ fuel ih =>
    match v with
    | [] => simp [decodeItems] at e
    | b :: bs =>
      simp only [decodeItems] at e
      rcases Outcome.bind_eq_ub.mp e with e | ⟨⟨x, r⟩, e1, e⟩
      · exact ⟨[], _, rfl, e⟩
      · obtain ⟨c, hc, hv⟩ := hcon _ _ _ e1
        rcases Outcome.bind_eq_ub.mp e with e | ⟨_, _, e⟩
        · have h1 := congrArg List.length hv
          have h2 := List.length_pos_iff.mpr hc
          rw [List.length_append, List.length_cons] at h1
          simp only [List.length_cons] at hf
          obtain ⟨pre, w, h3, h4⟩ := ih (v := r) (by omega) e
          exact ⟨c ++ pre, w, by rw [hv, h3, List.append_assoc], h4⟩
        · cases e

theorem decodeVector_ub {α : Type} {dec : Bytes → Dec (α × Bytes)}
    (hcon : ∀ v x rest, dec v = .ok (x, rest) → ∃ c, c ≠ [] ∧ v = c ++ rest)
    {v : Bytes} (e : decodeVector dec v = .ub) : ∃ pre w post, v = pre ++ w ++ post ∧ dec w = .ub := by
  unfold decodeVector at e
  rcases Outcome.bind_eq_ub.mp e with e | ⟨⟨h, r⟩, e1, e⟩
  · exact absurd e (decodeHeader_ne_ub _)
  dsimp only at e
  split at e
  · cases e
  rcases Outcome.bind_eq_ub.mp e with e | ⟨_, _, e⟩
  · obtain ⟨pre, w, h1, h2⟩ := decodeItems_ub hcon (Nat.le_refl _) e
    obtain ⟨_, _, h3⟩ := decodeHeader_inv e1
    have hv : ∃ c, v = c ++ r := by
      rcases h3 with ⟨_, h3, _⟩ | ⟨h3, _⟩
      · exact ⟨[], by simp [h3]⟩
      · exact ⟨_, h3⟩
    obtain ⟨c, hv⟩ := hv
    refine ⟨c ++ pre, w, r.drop h.payloadLength, ?_, h2⟩
    rw [hv]
    conv => lhs; rw [← List.take_append_drop h.payloadLength r, h1]
    simp
  · rw [removePrefix_ok (decodeHeader_length e1).2.2] at e
    cases e

theorem decodeHeader_suffix {v r : Bytes} {h : Header} (e : decodeHeader v = .ok (h, r)) : ∃ c, v = c ++ r := by
  obtain ⟨_, _, h3⟩ := decodeHeader_inv e
  rcases h3 with ⟨_, h3, _⟩ | ⟨h3, _⟩
  · exact ⟨[], by simp [h3]⟩
  · exact ⟨_, h3⟩

theorem decodeTransaction_suffix {v rest : Bytes} {t : Transaction} (e : decodeTransaction v = .ok (t, rest)) :
    ∃ c, c ≠ [] ∧ v = c ++ rest := by
  unfold decodeTransaction decodeTransactionInto at e
  obtain ⟨⟨h, r⟩, e1, e⟩ := Outcome.bind_eq_ok.mp e
  dsimp only at e
  split at e
  · rename_i hl
    obtain ⟨⟨t', r'⟩, e2, e⟩ := Outcome.bind_eq_ok.mp e
    dsimp only at e
    split at e
    · rename_i hlen
      cases e
      obtain ⟨_, _, _, _, _, _, hv⟩ := legacyDecode_inv rfl rfl e2
      exact ⟨_, rlp_ne_nil _, (decList_inv e1 hl hv hlen).1⟩
    · cases e
  · split at e
    · cases e
    obtain ⟨b, e2, e⟩ := Outcome.bind_eq_ok.mp e
    obtain ⟨r', e3, e⟩ := Outcome.bind_eq_ok.mp e
    obtain ⟨ty, e4, e⟩ := Outcome.bind_eq_ok.mp e
    obtain ⟨⟨t', r''⟩, e5, e⟩ := Outcome.bind_eq_ok.mp e
    dsimp only at e
    split at e
    · cases e
    obtain ⟨r3, e6, e⟩ := Outcome.bind_eq_ok.mp e
    cases e
    obtain ⟨c, hc⟩ := decodeHeader_suffix e1
    unfold removePrefix at e3 e6
    split at e3
    · rename_i h1
      cases e3
      split at e6
      · cases e6
        refine ⟨c ++ r.take 1 ++ (r.drop 1).take (h.payloadLength - 1), ?_, ?_⟩
        · intro h0
          have := congrArg List.length h0
          simp only [List.length_append, List.length_take, List.length_nil] at this
          omega
        · rw [List.append_assoc, List.take_append_drop, List.append_assoc, List.take_append_drop]
          exact hc
      · cases e6
    · cases e3

end Silkworm
