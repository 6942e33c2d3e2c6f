import Verif.Types.BlockLemmas
import Verif.Properties.Transaction

/-!
# Properties C05 (headers), C07, C08, C12 (headers, bodies, blocks), C62
-/

namespace Silkworm.Properties

open Silkworm Silkworm.Rlp

/-- A London header used in the examples. -/
def exHeader : BlockHeader :=
  { parentHash := List.replicate 32 1, ommersHash := List.replicate 32 2, beneficiary := List.replicate 20 3,
    stateRoot := List.replicate 32 4, transactionsRoot := List.replicate 32 5, receiptsRoot := List.replicate 32 6,
    logsBloom := List.replicate 256 7, difficulty := 2 ^ 255, number := 12965000, gasLimit := 30000000, gasUsed := 0,
    timestamp := 1628166822, extraData := [0xff, 0], mixHash := List.replicate 32 8, nonce := List.replicate 8 9,
    baseFeePerGas := some 1000000000 }

theorem exHeader_wf : exHeader.WF :=
  ⟨List.length_replicate, List.length_replicate, List.length_replicate, List.length_replicate, List.length_replicate,
    List.length_replicate, List.length_replicate, by decide +kernel, by decide +kernel, by decide +kernel,
    by decide +kernel, by decide +kernel, by decide +kernel, List.length_replicate, List.length_replicate,
    by intro f h; cases h; decide +kernel⟩

theorem exLegacy_codable : exLegacy.Codable :=
  ⟨exLegacy_wf, ⟨by decide, by decide⟩, by intro; rfl, by intro; rfl, by (intro h; exact absurd rfl h),
    by intro _ c h; cases h; decide⟩

theorem exTyped_codable : exTyped.Codable :=
  ⟨exTyped_wf, exTyped_sized, by (intro h; exact absurd rfl h), by (intro h; cases h), by intro; rfl, by (intro h; cases h)⟩

/-! ## C05, C07: headers -/

/-- C05: `length(BlockHeader)` is the size of the encoding. -/
theorem c05_length_block_header (h : BlockHeader) (hw : h.WF) :
    lengthBlockHeader h = (encodeBlockHeader h false).length := by
  rw [header_length hw, header_spec hw]
  rfl

/-- C07: decoding the encoding of a header returns it and consumes exactly the encoding. -/
theorem c07_header_roundtrip (h : BlockHeader) (hw : h.WF) (rest : Bytes) :
    decodeBlockHeader (encodeBlockHeader h false ++ rest) = .ok (h, rest) := by
  rw [header_spec hw]
  exact decHeader hw rest

/-- C07: the encoding is the Yellow Paper's. -/
theorem c07_header_spec (h : BlockHeader) (hw : h.WF) : encodeBlockHeader h false = Spec.rlp (Spec.headerItem h) :=
  header_spec hw false

/-- C07: conversely, only the encoding of a header decodes to it. -/
theorem c07_header_canonical (v : Bytes) (hv : v.length < 2 ^ 63) (h : BlockHeader) (rest : Bytes)
    (e : decodeBlockHeader v = .ok (h, rest)) : h.WF ∧ v = encodeBlockHeader h false ++ rest := by
  obtain ⟨h1, h2, h3⟩ := decHeader_inv e
  have h4 := congrArg List.length h1
  rw [List.length_append] at h4
  have hw := h2 (by omega)
  exact ⟨hw, by rw [header_spec hw]; exact h1⟩

example : decodeBlockHeader (encodeBlockHeader exHeader false ++ [1, 2]) = .ok (exHeader, [1, 2]) :=
  c07_header_roundtrip _ exHeader_wf _

example : decodeBlockHeader (encodeBlockHeader { exHeader with baseFeePerGas := none } false ++ [1, 2]) =
    .ok ({ exHeader with baseFeePerGas := none }, [1, 2]) := by
  apply c07_header_roundtrip
  exact { exHeader_wf with baseFee := by intro f h; cases h }

/-! ## C08: bodies and blocks -/

/-- C08: decoding the encoding of a body returns it (up to the recovered senders, which are not transmitted) and
consumes exactly the encoding. -/
theorem c08_body_roundtrip (b : BlockBody) (ht : ∀ t ∈ b.transactions, t.Codable) (ho : ∀ h ∈ b.ommers, h.WF)
    (h64 : (Spec.rlp (Spec.bodyItem b)).length < 2 ^ 64) (rest : Bytes) :
    decodeBlockBody (encodeBlockBody b ++ rest) =
      .ok ({ b with transactions := b.transactions.map (fun t => { t with sender := none }) }, rest) := by
  have g := rlp_list_length_ge [.list (b.transactions.map Spec.txItem), .list (b.ommers.map Spec.headerItem)]
  have g1 := rlp_list_length_ge (b.transactions.map Spec.txItem)
  have g2 := rlp_list_length_ge (b.ommers.map Spec.headerItem)
  rw [body_spec ht ho h64]
  unfold Spec.bodyItem at h64 ⊢
  have g' : (Spec.rlpItems [.list (b.transactions.map Spec.txItem), .list (b.ommers.map Spec.headerItem)]).length =
      (Spec.rlp (.list (b.transactions.map Spec.txItem))).length +
      (Spec.rlp (.list (b.ommers.map Spec.headerItem))).length := by
    simp only [Spec.rlpItems, List.append_nil, List.length_append]
  unfold decodeBlockBody
  rw [Spec.decodeHeader_rlp_list (by omega)]
  simp only [Outcome.ok_bind, Bool.not_true, Bool.false_eq_true, if_false]
  rw [List.length_append, Nat.add_sub_cancel_left]
  simp only [Spec.rlpItems, List.append_nil, List.append_assoc]
  rw [decTxs ht (by omega)]
  simp only [Outcome.ok_bind]
  rw [decHeaders ho (by omega)]
  simp only [Outcome.ok_bind, if_true]

/-- C08: the encoding of a body is the Yellow Paper's. -/
theorem c08_body_spec (b : BlockBody) (ht : ∀ t ∈ b.transactions, t.Codable) (ho : ∀ h ∈ b.ommers, h.WF)
    (h64 : (Spec.rlp (Spec.bodyItem b)).length < 2 ^ 64) : encodeBlockBody b = Spec.rlp (Spec.bodyItem b) :=
  body_spec ht ho h64

/-- C08: a block in wire form decodes to the block. (There is no block encoder in the code; the wire form is the
specification's.) -/
theorem c08_block_decode (b : Block) (hh : b.header.WF) (ht : ∀ t ∈ b.transactions, t.Codable)
    (ho : ∀ h ∈ b.ommers, h.WF) (h64 : (Spec.rlp (Spec.blockItem b)).length < 2 ^ 64) (rest : Bytes) :
    decodeBlock (Spec.rlp (Spec.blockItem b) ++ rest) =
      .ok ({ b with transactions := b.transactions.map (fun t => { t with sender := none }) }, rest) := by
  unfold Spec.blockItem at h64 ⊢
  have g := rlp_list_length_ge
    [Spec.headerItem b.header, .list (b.transactions.map Spec.txItem), .list (b.ommers.map Spec.headerItem)]
  have g1 := rlp_list_length_ge (b.transactions.map Spec.txItem)
  have g2 := rlp_list_length_ge (b.ommers.map Spec.headerItem)
  have g' : (Spec.rlpItems [Spec.headerItem b.header, .list (b.transactions.map Spec.txItem),
        .list (b.ommers.map Spec.headerItem)]).length =
      (Spec.rlp (Spec.headerItem b.header)).length + ((Spec.rlp (.list (b.transactions.map Spec.txItem))).length +
      (Spec.rlp (.list (b.ommers.map Spec.headerItem))).length) := by
    simp only [Spec.rlpItems, List.append_nil, List.length_append]
  unfold decodeBlock
  rw [Spec.decodeHeader_rlp_list (by omega)]
  simp only [Outcome.ok_bind, Bool.not_true, Bool.false_eq_true, if_false]
  rw [List.length_append, Nat.add_sub_cancel_left]
  simp only [Spec.rlpItems, List.append_nil, List.append_assoc]
  rw [decHeader hh]
  simp only [Outcome.ok_bind]
  rw [decTxs ht (by omega)]
  simp only [Outcome.ok_bind]
  rw [decHeaders ho (by omega)]
  simp only [Outcome.ok_bind, if_true]

/-- A body with a legacy and a typed transaction and an ommer. -/
def exBody : BlockBody := ⟨[exLegacy, exTyped], [exHeader]⟩

theorem exBody_txs : ∀ t ∈ exBody.transactions, t.Codable := by
  intro t h
  simp only [exBody, List.mem_cons, List.not_mem_nil, or_false] at h
  rcases h with h | h <;> subst h
  · exact exLegacy_codable
  · exact exTyped_codable

theorem exBody_ommers : ∀ h ∈ exBody.ommers, h.WF := by
  intro h hh
  simp only [exBody, List.mem_cons, List.not_mem_nil, or_false] at hh
  subst hh
  exact exHeader_wf

example : decodeBlockBody (encodeBlockBody exBody ++ [7]) = .ok (exBody, [7]) := by decide +kernel

/-! ## C12: safety of header, body and block decoders -/

/-- C12: header decoding never misbehaves. -/
theorem c12_header_safe (v : Bytes) : decodeBlockHeader v ≠ .ub := decodeBlockHeader_safe v

/-- C12 for bodies, in full. -/
def C12_body_statement : Prop := ∀ v : Bytes, decodeBlockBody v ≠ .ub

/-- C12 is violated for bodies: the unchecked `from[0]` of `decode<Transaction>` is reachable. -/
theorem c12_body_violated : ¬ C12_body_statement :=
  fun h => h [0xc5, 0xc4, 0xc3, 0x80, 0x80, 0x80] (by decide +kernel)

/-- C12, partial: a body or block decoder misbehaves only if the transaction decoder does, on a part of the input.
Missing: safety for inputs with truncated transactions. -/
theorem c12_body_safe_partial (v : Bytes) (e : decodeBlockBody v = .ub ∨ decodeBlock v = .ub) :
    ∃ pre w post, v = pre ++ w ++ post ∧ decodeTransaction w = .ub := by
  have htx : ∀ r, decodeVector decodeTransaction r = .ub →
      ∃ pre w post, r = pre ++ w ++ post ∧ decodeTransaction w = .ub := fun r e =>
    decodeVector_ub (fun _ _ _ h => decodeTransaction_suffix h) e
  have hsafe := decodeVector_safe decodeBlockHeader_safe decodeBlockHeader_consumes
  rcases e with e | e
  · unfold decodeBlockBody at e
    rcases Outcome.bind_eq_ub.mp e with e | ⟨⟨h, r⟩, e1, e⟩
    · exact absurd e (decodeHeader_ne_ub _)
    dsimp only at e
    split at e
    · cases e
    rcases Outcome.bind_eq_ub.mp e with e | ⟨⟨txs, r2⟩, e2, e⟩
    · obtain ⟨c, hc⟩ := decodeHeader_suffix e1
      obtain ⟨pre, w, post, h1, h2⟩ := htx _ e
      exact ⟨c ++ pre, w, post, by rw [hc, h1]; simp, h2⟩
    rcases Outcome.bind_eq_ub.mp e with e | ⟨⟨oms, r3⟩, e3, e⟩
    · exact absurd e (hsafe _)
    dsimp only at e
    split at e <;> cases e
  · unfold decodeBlock at e
    rcases Outcome.bind_eq_ub.mp e with e | ⟨⟨h, r⟩, e1, e⟩
    · exact absurd e (decodeHeader_ne_ub _)
    dsimp only at e
    split at e
    · cases e
    rcases Outcome.bind_eq_ub.mp e with e | ⟨⟨hd, r1⟩, e0, e⟩
    · exact absurd e (decodeBlockHeader_safe _)
    rcases Outcome.bind_eq_ub.mp e with e | ⟨⟨txs, r2⟩, e2, e⟩
    · obtain ⟨c, hc⟩ := decodeHeader_suffix e1
      obtain ⟨hd', _, _⟩ := decHeader_inv e0
      obtain ⟨pre, w, post, h1, h2⟩ := htx _ e
      dsimp only at h1
      exact ⟨c ++ Spec.rlp (Spec.headerItem hd) ++ pre, w, post, by rw [hc, hd', h1]; simp, h2⟩
    rcases Outcome.bind_eq_ub.mp e with e | ⟨⟨oms, r3⟩, e3, e⟩
    · exact absurd e (hsafe _)
    dsimp only at e
    split at e <;> cases e

/-! ## C62: what the header hash and the seal hash commit to -/

/-- C62: headers with equal full encodings are equal. -/
theorem c62_full_injective (h₁ h₂ : BlockHeader) (hw₁ : h₁.WF) (hw₂ : h₂.WF)
    (e : encodeBlockHeader h₁ false = encodeBlockHeader h₂ false) : h₁ = h₂ := by
  have r₁ := c07_header_roundtrip h₁ hw₁ []
  rw [e, c07_header_roundtrip h₂ hw₂ []] at r₁
  cases r₁
  rfl

/-- C62: headers with equal sealing encodings agree except possibly on mix hash and nonce, and those two are not
covered. -/
theorem c62_seal_injective (h₁ h₂ : BlockHeader) (hw₁ : h₁.WF) (hw₂ : h₂.WF) :
    encodeBlockHeader h₁ true = encodeBlockHeader h₂ true ↔
      { h₁ with mixHash := h₂.mixHash, nonce := h₂.nonce } = h₂ := by
  constructor
  · intro e
    rw [header_spec hw₁, header_spec hw₂] at e
    have fit : ∀ h : BlockHeader, h.WF → Spec.fits (.list (Spec.headerItems h true)) := by
      intro h hw
      obtain ⟨_, _, p⟩ := header_spec_aux hw true
      have := hw.extraData
      simp only [Spec.fits]
      exact ⟨by omega, fitsItems_of_length _ (by omega)⟩
    have ei := Spec.rlp_inj (fit _ hw₁) (fit _ hw₂) e
    injection ei with ei
    have hfee : ∀ a b, Spec.feeItems a = Spec.feeItems b → a = b := by
      intro a b h
      cases a <;> cases b <;> simp only [Spec.feeItems, List.cons.injEq, and_true, reduceCtorEq] at h ⊢
      rw [Spec.num_inj h]
    simp only [Spec.headerItems, if_true, List.append_nil, List.cons_append, List.nil_append, List.cons.injEq,
      Spec.Item.str.injEq] at ei
    obtain ⟨a1, a2, a3, a4, a5, a6, a7, a8, a9, a10, a11, a12, a13, a14⟩ := ei
    cases h₁
    cases h₂
    simp only at *
    simp only [BlockHeader.mk.injEq]
    exact ⟨a1, a2, a3, a4, a5, a6, a7, Spec.num_inj a8, Spec.num_inj a9, Spec.num_inj a10, Spec.num_inj a11, Spec.num_inj a12, a13, trivial,
      trivial, hfee _ _ a14⟩
  · intro e
    rw [← e]
    rfl

/-- C62: equal block hashes mean equal headers, unless Keccak-256 collides. -/
theorem c62_hash_commits (keccak : Bytes → Bytes) (h₁ h₂ : BlockHeader) (hw₁ : h₁.WF) (hw₂ : h₂.WF)
    (e : h₁.hash keccak = h₂.hash keccak) : h₁ = h₂ ∨ ∃ x y, x ≠ y ∧ keccak x = keccak y := by
  by_cases he : encodeBlockHeader h₁ false = encodeBlockHeader h₂ false
  · exact .inl (c62_full_injective h₁ h₂ hw₁ hw₂ he)
  · exact .inr ⟨_, _, he, e⟩

/-- The seal really ignores the nonce. -/
example : encodeBlockHeader { exHeader with nonce := List.replicate 8 1 } true = encodeBlockHeader exHeader true ∧
    encodeBlockHeader { exHeader with nonce := List.replicate 8 1 } false ≠ encodeBlockHeader exHeader false := by
  decide +kernel

end Silkworm.Properties
