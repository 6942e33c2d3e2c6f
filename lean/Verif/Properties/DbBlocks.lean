import Verif.Db.BlockLemmas
import Verif.Properties.Block

/-!
# Properties C85, C88: blocks in the database
-/

namespace Silkworm.Properties

open Db Spec Rlp

/-! ## C85 -/

theorem readBody_stored {db : Database} {n : Nat} {hash : Bytes} {base : Nat} {b : Block} (h : BlockStored db n hash base b) :
    (∀ s, readSenders db n hash = .ok s → readBody db n hash true =
      if s.length = b.transactions.length then
        .ok (some { transactions := (withSenders b s).transactions, ommers := b.ommers })
      else .err .missingSenders) ∧
    readBody db n hash false = .ok (some { transactions := (withoutSenders b).transactions, ommers := b.ommers }) := by
  obtain ⟨_, _, o3, o4, _⟩ := h.ordered
  have hw : (⟨base, b.transactions.length, b.ommers⟩ : BlockBodyForStorage).WF :=
    ⟨by have := h.range; show base < _; omega, by have := h.range; show b.transactions.length < _; omega, h.ommersWF, h.size⟩
  have hd := decStoredBody hw []
  rw [List.append_nil] at hd
  have ht := readTransactions_spec o4 h.keys b.transactions base h.range h.transactions h.codable
  have hf : db.blockBodies.find (blockHashKey n hash) = some (beFixed 8 n ++ hash, rlp (storedBodyItem ⟨base, b.transactions.length, b.ommers⟩)) :=
    find_of_mem o3 h.body
  constructor
  · intro s hs
    unfold readBody
    rw [hf]
    dsimp only
    rw [hd]
    show ((readTransactions db.ethTx base b.transactions.length).bind fun txs => _) = _
    rw [ht]
    show ((readSenders db n hash).bind fun s => (fillSenders _ s).bind fun txs => _) = _
    rw [hs]
    show ((fillSenders _ s).bind fun txs => _) = _
    unfold fillSenders
    rw [List.length_map]
    by_cases hl : s.length = b.transactions.length
    · rw [if_neg (fun hh => hh hl), if_pos hl]
      show Outcome.ok (some (BlockBody.mk _ b.ommers)) = _
      congr 3
      unfold withSenders
      dsimp only
      rw [List.zip_eq_zipWith, List.map_zipWith, List.zipWith_map_left]
    · rw [if_pos hl, if_neg hl]
      rfl
  · unfold readBody
    rw [hf]
    dsimp only
    rw [hd]
    show ((readTransactions db.ethTx base b.transactions.length).bind fun txs => _) = _
    rw [ht]
    rfl

theorem readBlock_stored {db : Database} {n : Nat} {hash : Bytes} {base : Nat} {b : Block} (h : BlockStored db n hash base b)
    (ws : Bool) : readBlock db n ws = (readBody db n hash ws).bind fun body =>
      match body with
      | none => .ok none
      | some x => .ok (some ({ x with header := b.header }, hash)) := by
  obtain ⟨o1, o2, _, _, _⟩ := h.ordered
  have hd := decHeader h.headerWF []
  rw [List.append_nil] at hd
  have hf : db.headers.find (blockHashKey n hash) = _ := find_of_mem o2 h.header
  unfold readBlock
  rw [show db.canonicalHashes.find (blockKey n) = _ from find_of_mem o1 h.canonical]
  dsimp only
  rw [if_neg (fun hh => hh h.hashLength), hf]
  dsimp only
  rw [hd]
  rfl

/-- C85: a stored block is read back with its hash. Without senders they are absent. -/
theorem c85_read_block (db : Database) (n : Nat) (hash : Bytes) (base : Nat) (b : Block) (h : BlockStored db n hash base b) :
    readBlock db n false = .ok (some (withoutSenders b, hash)) := by
  rw [readBlock_stored h, (readBody_stored h).2]
  rfl

/-- C85: with senders, each transaction gets its own; if their number is not that of the transactions, or they were not
stored, this is reported. -/
theorem c85_read_senders (db : Database) (n : Nat) (hash : Bytes) (base : Nat) (b : Block) (h : BlockStored db n hash base b) :
    (∀ senders, SendersStored db n hash senders → senders.length = b.transactions.length →
      readBlock db n true = .ok (some (withSenders b senders, hash))) ∧
    (∀ senders, SendersStored db n hash senders → senders.length ≠ b.transactions.length →
      readBlock db n true = .err .missingSenders) ∧
    ((∀ v, (beFixed 8 n ++ hash, v) ∉ db.senders) → b.transactions ≠ [] → readBlock db n true = .err .missingSenders) ∧
    ((∀ v, (beFixed 8 n ++ hash, v) ∉ db.senders) → b.transactions = [] → readBlock db n true = .ok (some (b, hash))) := by
  obtain ⟨_, _, _, _, o5⟩ := h.ordered
  have hnone : (∀ v, (beFixed 8 n ++ hash, v) ∉ db.senders) → readSenders db n hash = .ok [] := fun hh => by
    unfold readSenders blockHashKey
    rw [find_of_absent hh]
  refine ⟨fun s hs hl => ?_, fun s hs hl => ?_, fun hh hb => ?_, fun hh hb => ?_⟩ <;> rw [readBlock_stored h]
  · rw [(readBody_stored h).1 s (readSenders_spec o5 hs), if_pos hl]
    rfl
  · rw [(readBody_stored h).1 s (readSenders_spec o5 hs), if_neg hl]
    rfl
  · rw [(readBody_stored h).1 [] (hnone hh), if_neg]
    · rfl
    · intro hl
      exact hb (List.length_eq_zero_iff.mp hl.symm)
  · rw [(readBody_stored h).1 [] (hnone hh), if_pos (by rw [hb]; rfl)]
    obtain ⟨⟨txs, om⟩, hd⟩ := b
    dsimp only at hb
    subst hb
    rfl

/-- C85: no block is returned if there is no canonical hash, no header with it or no body. -/
theorem c85_missing (db : Database) (n : Nat) (ws : Bool) :
    ((∀ v, (beFixed 8 n, v) ∉ db.canonicalHashes) → readBlock db n ws = .ok none) ∧
    (∀ hash, Ordered db.canonicalHashes → hash.length = 32 → (beFixed 8 n, hash) ∈ db.canonicalHashes →
      ((∀ v, (beFixed 8 n ++ hash, v) ∉ db.headers) → readBlock db n ws = .ok none) ∧
      (∀ h : BlockHeader, h.WF → Ordered db.headers → (beFixed 8 n ++ hash, rlp (headerItem h)) ∈ db.headers →
        (∀ v, (beFixed 8 n ++ hash, v) ∉ db.blockBodies) → readBlock db n ws = .ok none)) := by
  refine ⟨fun h => ?_, fun hash ho hl hm => ⟨fun h => ?_, fun hd hw ho' hh hb => ?_⟩⟩
  · unfold readBlock blockKey
    rw [find_of_absent h]
  · unfold readBlock blockKey blockHashKey
    rw [find_of_mem ho hm]
    dsimp only
    rw [if_neg (fun hh => hh hl), find_of_absent h]
  · have hdd := decHeader hw []
    rw [List.append_nil] at hdd
    unfold readBlock blockKey blockHashKey
    rw [find_of_mem ho hm]
    dsimp only
    rw [if_neg (fun hh => hh hl), find_of_mem ho' hh]
    dsimp only
    rw [hdd]
    show ((readBody db n hash ws).bind fun body => _) = _
    unfold readBody blockHashKey
    rw [find_of_absent hb]
    rfl

/-! ## C88 -/

/-- C88, in full: if a transaction of a stored body is missing, no block is returned. -/
def C88_statement : Prop :=
  ∀ (db : Database) (n : Nat) (hash : Bytes) (base : Nat) (b : Block) (j : Nat) (ws : Bool), BlockStored db n hash base b →
    j < b.transactions.length →
    ∀ r, readBlock { db with ethTx := db.ethTx.filter fun e => e.1 ≠ beFixed 8 (base + j) } n ws ≠ .ok (some r)

/-- A database with one block. -/
def exBlockDb : Database :=
  { canonicalHashes := [(beFixed 8 5, List.replicate 32 0xaa)]
    headers := [(beFixed 8 5 ++ List.replicate 32 0xaa, encodeBlockHeader exHeader false)]
    blockBodies := [(beFixed 8 5 ++ List.replicate 32 0xaa, (⟨7, 2, [exHeader]⟩ : BlockBodyForStorage).encode)]
    ethTx := [(beFixed 8 6, [0x80]), (beFixed 8 7, encodeTransactionInBlock exLegacy), (beFixed 8 8, encodeTransactionInBlock exTyped),
      (beFixed 8 9, encodeTransactionInBlock exLegacy)]
    senders := [(beFixed 8 5 ++ List.replicate 32 0xaa, List.replicate 20 1 ++ List.replicate 20 2)] }

def exBlockStored : Block := ⟨exBody, exHeader⟩

theorem exBlock_senders : SendersStored exBlockDb 5 (List.replicate 32 0xaa) [List.replicate 20 1, List.replicate 20 2] :=
  ⟨by decide +kernel, by decide +kernel⟩

theorem exStoredBody_wf : (⟨7, 2, [exHeader]⟩ : BlockBodyForStorage).WF := by
  refine ⟨by decide, by decide, fun h hh => ?_, by decide +kernel⟩
  rw [List.mem_singleton.mp hh]; exact exHeader_wf

theorem exBlock_stored : BlockStored exBlockDb 5 (List.replicate 32 0xaa) 7 exBlockStored := by
  refine ⟨by decide +kernel, by decide, by decide +kernel, ?_, ?_, ?_, by decide +kernel, by decide, exHeader_wf, exBody_ommers,
    exBody_txs, exStoredBody_wf.size⟩
  · rw [show rlp (headerItem exBlockStored.header) = encodeBlockHeader exHeader false from (c07_header_spec _ exHeader_wf).symm]
    exact List.mem_singleton.mpr rfl
  · show (_, rlp (storedBodyItem ⟨7, 2, [exHeader]⟩)) ∈ _
    rw [← storedBody_spec exStoredBody_wf]; exact List.mem_singleton.mpr rfl
  · intro j hj
    have hj : j < 2 := hj
    rcases (by omega : j = 0 ∨ j = 1) with h | h <;> subst h
    · show (_, rlp (txItem exLegacy)) ∈ _
      rw [← (txInBlock_spec exLegacy_codable).1]
      simp [exBlockDb]
    · show (_, rlp (txItem exTyped)) ∈ _
      rw [← (txInBlock_spec exTyped_codable).1]
      simp [exBlockDb]

/-- C85: the block of the example with senders. -/
example : readBlock exBlockDb 5 true =
    .ok (some (withSenders exBlockStored [List.replicate 20 1, List.replicate 20 2], List.replicate 32 0xaa)) :=
  (c85_read_senders _ _ _ _ _ exBlock_stored).1 _ exBlock_senders rfl
example : readBlock exBlockDb 5 false = .ok (some (withoutSenders exBlockStored, List.replicate 32 0xaa)) := by decide +kernel
example : readBlock exBlockDb 6 false = .ok none := by decide +kernel

/-- C88 does not hold: the transaction of another block takes the place of the missing one, and senders are assigned. -/
theorem c88_violated : ¬ C88_statement := by
  intro h
  have := h exBlockDb 5 _ 7 exBlockStored 1 true exBlock_stored (by decide)
    (withSenders ⟨⟨[exLegacy, exLegacy], [exHeader]⟩, exHeader⟩ [List.replicate 20 1, List.replicate 20 2], List.replicate 32 0xaa)
  exact this (by decide +kernel)

theorem decodeTransactions_length : ∀ (n : Nat) (t : Table) (l : List Transaction), decodeTransactions n t = .ok l →
    l.length = min n t.length
  | 0, t, l, h => by cases t <;> (cases h; simp)
  | n + 1, [], l, h => by cases h; simp
  | n + 1, e :: t, l, h => by
    unfold decodeTransactions at h
    obtain ⟨x, _, h⟩ := Outcome.bind_eq_ok.mp h
    obtain ⟨rest, h2, h⟩ := Outcome.bind_eq_ok.mp h
    cases Outcome.ok.inj h
    rw [List.length_cons, List.length_cons, decodeTransactions_length n t rest h2]
    omega

/-- C88, partial: if the first transaction is missing, or the table ends before the last, and as many senders are stored as
the body has transactions, no block is returned. In full this would hold for each missing transaction, and without senders. -/
theorem c88_end_partial (db : Database) (n : Nat) (hash : Bytes) (base : Nat) (b : Block) (senders : List Bytes)
    (h : BlockStored db n hash base b) (hs : SendersStored db n hash senders) (hl : senders.length = b.transactions.length)
    (hb : b.transactions ≠ []) (ethTx : Table)
    (hm : (∀ v, (beFixed 8 base, v) ∉ ethTx) ∨
      (ethTx.dropWhile fun e => e.1 != beFixed 8 base).length < b.transactions.length) (r : Block × Bytes) :
    readBlock { db with ethTx := ethTx } n true ≠ .ok (some r) := by
  intro hr
  obtain ⟨o1, o2, o3, _, o5⟩ := h.ordered
  have hw : (⟨base, b.transactions.length, b.ommers⟩ : BlockBodyForStorage).WF :=
    ⟨by have := h.range; show base < _; omega, by have := h.range; show b.transactions.length < _; omega, h.ommersWF, h.size⟩
  have hd := decStoredBody hw []
  have hd' := decHeader h.headerWF []
  rw [List.append_nil] at hd hd'
  have hlen : ∀ l, readTransactions ethTx base b.transactions.length = .ok l → l.length < b.transactions.length := by
    intro l hx
    unfold readTransactions at hx
    rw [if_neg (fun hh => hb (List.length_eq_zero_iff.mp hh))] at hx
    have := decodeTransactions_length _ _ _ hx
    rcases hm with hm | hm
    · have he : ethTx.dropWhile (fun e => e.1 != beFixed 8 base) = [] := by
        clear this hx hr
        induction ethTx with
        | nil => rfl
        | cons e t ih =>
          have hne : e.1 ≠ beFixed 8 base := fun hh => hm e.2 (hh ▸ List.mem_cons_self)
          rw [List.dropWhile_cons_of_pos (by simpa using hne)]
          exact ih fun v hv => hm v (List.mem_cons_of_mem _ hv)
      rw [he, List.length_nil, Nat.min_zero] at this
      have := List.length_pos_iff.mpr hb
      omega
    · omega
  unfold readBlock at hr
  rw [show db.canonicalHashes.find (blockKey n) = _ from find_of_mem o1 h.canonical] at hr
  dsimp only at hr
  rw [if_neg (fun hh => hh h.hashLength), show db.headers.find (blockHashKey n hash) = _ from find_of_mem o2 h.header] at hr
  dsimp only at hr
  rw [hd'] at hr
  replace hr : ((readBody { db with ethTx := ethTx } n hash true).bind fun body => _) = _ := hr
  obtain ⟨body, h1, _⟩ := Outcome.bind_eq_ok.mp hr
  cases body with
  | none => rename_i hh; cases hh
  | some body =>
    unfold readBody at h1
    rw [show db.blockBodies.find (blockHashKey n hash) = some (beFixed 8 n ++ hash,
      rlp (storedBodyItem ⟨base, b.transactions.length, b.ommers⟩)) from find_of_mem o3 h.body] at h1
    dsimp only at h1
    rw [hd] at h1
    replace h1 : ((readTransactions ethTx base b.transactions.length).bind fun txs =>
      (readSenders { db with ethTx := ethTx } n hash).bind fun s => (fillSenders txs s).bind fun txs =>
        (.ok (some { transactions := txs, ommers := b.ommers }) : Outcome DbError (Option BlockBody))) = .ok (some body) := h1
    obtain ⟨txs, h2, h1⟩ := Outcome.bind_eq_ok.mp h1
    rw [show readSenders { db with ethTx := ethTx } n hash = .ok senders from
      readSenders_spec o5 ⟨hs.length, hs.mem⟩] at h1
    replace h1 : ((fillSenders txs senders).bind fun txs => _) = _ := h1
    obtain ⟨y, h3, _⟩ := Outcome.bind_eq_ok.mp h1
    unfold fillSenders at h3
    have := hlen txs h2
    rw [if_pos (by omega)] at h3
    cases h3

/-- The example without its first transaction, and without everything from its second one on. -/
example : readBlock { exBlockDb with ethTx := exBlockDb.ethTx.drop 2 } 5 true = .err .missingSenders ∧
    readBlock { exBlockDb with ethTx := exBlockDb.ethTx.take 2 } 5 true = .err .missingSenders := by decide +kernel

/-- Without senders fewer transactions are returned. -/
example : readBlock { exBlockDb with ethTx := exBlockDb.ethTx.take 2 } 5 false =
    .ok (some (⟨⟨[exLegacy], [exHeader]⟩, exHeader⟩, List.replicate 32 0xaa)) := by decide +kernel

end Silkworm.Properties
