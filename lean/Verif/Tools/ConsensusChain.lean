import Verif.Tools.ConsensusLemmas
import Verif.Properties.StateRoot

/-!
# Lemmas about the chains of consensus tests: what every buffer satisfies is kept
-/

namespace Silkworm.Tools

open Silkworm.Spec Silkworm.Trie

/-- Execution makes calls with arguments that their types allow. -/
def ExecTyped (env : ChainEnv) : Prop := ∀ b block calls, env.execute b block = .ok calls → ∀ c ∈ calls, CallOk c

theorem bufferOk_applyAll {calls : List BufferCall} : ∀ {b : MemoryBuffer}, BufferOk b → (∀ c ∈ calls, CallOk c) → BufferOk (b.applyAll calls) := by
  induction calls with
  | nil => intro b hb _; exact hb
  | cons c l ih =>
    intro b hb hc
    exact ih (b := b.apply c) (bufferOk_apply hb (hc c (List.mem_cons_self ..))) (fun x hx => hc x (List.mem_cons_of_mem _ hx))

theorem executeBlock_ok {env : ChainEnv} (he : ExecTyped env) {b : MemoryBuffer} (hb : BufferOk b) {block : Block} {check : Bool}
    {r : MemoryBuffer × Option ValidationError} (h : Blockchain.executeBlock env b block check = .ok r) : BufferOk r.1 := by
  unfold Blockchain.executeBlock at h
  split at h
  · cases h
  · cases h; exact hb
  · rename_i calls hx
    have h1 := bufferOk_applyAll hb (he _ _ _ hx)
    split at h
    · unfold Blockchain.checkStateRoot at h
      obtain ⟨root, _, h⟩ := Trie.bind_ok.mp h
      split at h
      · cases h; exact bufferOk_unwind h1 _
      · cases h; exact h1
    · cases h; exact h1

theorem executeChain_ok {env : ChainEnv} (he : ExecTyped env) {check : Bool} :
    ∀ {l : List (Block × Bytes)} {b : MemoryBuffer} {r : MemoryBuffer × Nat × Option ValidationError}, BufferOk b →
      Blockchain.executeChain env check b l = .ok r → BufferOk r.1
  | [], b, r, hb, h => by cases h; exact hb
  | x :: l, b, r, hb, h => by
    unfold Blockchain.executeChain at h
    obtain ⟨q, h1, h⟩ := Trie.bind_ok.mp h
    have hq := executeBlock_ok he hb h1
    split at h
    · cases h; exact hq
    · obtain ⟨s, h2, h⟩ := Trie.bind_ok.mp h
      cases h
      show BufferOk s.1
      exact executeChain_ok he hq h2

theorem reExecuteBlock_ok {env : ChainEnv} (he : ExecTyped env) {b b' : MemoryBuffer} (hb : BufferOk b) {n : Nat}
    (h : Blockchain.reExecuteBlock env b n = .ok b') : BufferOk b' := by
  unfold Blockchain.reExecuteBlock at h
  split at h
  · cases h
  · obtain ⟨block, _, h⟩ := Trie.bind_ok.mp h
    obtain ⟨r, h1, h⟩ := Trie.bind_ok.mp h
    split at h
    · cases h
    · cases h; exact executeBlock_ok he hb h1

theorem reExecuteLoop_ok {env : ChainEnv} (he : ExecTyped env) : ∀ {l : List Nat} {b b' : MemoryBuffer}, BufferOk b →
    Blockchain.reExecuteLoop env b l = .ok b' → BufferOk b'
  | [], b, b', hb, h => by cases h; exact hb
  | n :: l, b, b', hb, h => by
    unfold Blockchain.reExecuteLoop at h
    obtain ⟨c, h1, h⟩ := Trie.bind_ok.mp h
    exact reExecuteLoop_ok he (reExecuteBlock_ok he hb h1) h

theorem foldl_ok {α : Type} {f : MemoryBuffer → α → MemoryBuffer} (hf : ∀ b x, BufferOk b → BufferOk (f b x)) :
    ∀ {l : List α} {b : MemoryBuffer}, BufferOk b → BufferOk (l.foldl f b)
  | [], _, hb => hb
  | x :: l, b, hb => foldl_ok hf (l := l) (hf b x hb)

theorem unwindLast_ok {b b' : MemoryBuffer} (hb : BufferOk b) {n k : Nat} (h : Blockchain.unwindLast b n k = .ok b') : BufferOk b' := by
  unfold Blockchain.unwindLast at h
  split at h
  · cases h
  · cases h
    exact foldl_ok (fun b n hb => bufferOk_unwind hb n) hb

theorem restore_chain_ok {env : ChainEnv} (he : ExecTyped env) {b b' : MemoryBuffer} (hb : BufferOk b) {a x c : Nat}
    (h : Blockchain.restore env b a x c = .ok b') : BufferOk b' := by
  unfold Blockchain.restore at h
  obtain ⟨b1, h1, h⟩ := Trie.bind_ok.mp h
  unfold Blockchain.reExecute at h
  split at h
  · cases h
  · exact reExecuteLoop_ok he (unwindLast_ok hb h1) h

theorem canonize_ok {b : MemoryBuffer} (hb : BufferOk b) (n : Nat) (x : Bytes) : BufferOk (b.canonizeBlock n x) :=
  ⟨hb.keys, hb.accounts, hb.storage, hb.accountChanges, hb.storageChanges⟩

theorem decanonize_ok {b : MemoryBuffer} (hb : BufferOk b) (n : Nat) : BufferOk (b.decanonizeBlock n) :=
  ⟨hb.keys, hb.accounts, hb.storage, hb.accountChanges, hb.storageChanges⟩

theorem insert_ok {b : MemoryBuffer} (hb : BufferOk b) (block : Block) (x : Bytes) : BufferOk (b.insertBlock block x) :=
  ⟨hb.keys, hb.accounts, hb.storage, hb.accountChanges, hb.storageChanges⟩

theorem conclude_ok {env : ChainEnv} (he : ExecTyped env) {c : Blockchain} {block : Block} {hash : Bytes} {a n : Nat}
    {chain : List (Block × Bytes)} {r : MemoryBuffer × Nat × Option ValidationError} (hb : BufferOk r.1)
    {q : Blockchain × InsertResult} (h : Blockchain.conclude env c block hash a n chain r = .ok q) : BufferOk q.1.state := by
  unfold Blockchain.conclude at h
  split at h
  · obtain ⟨b, h1, h⟩ := Trie.bind_ok.mp h
    cases h
    exact restore_chain_ok he hb h1
  · obtain ⟨d, _, h⟩ := Trie.bind_ok.mp h
    split at h
    · cases h
      exact foldl_ok (fun b x hb => canonize_ok hb _ _) (foldl_ok (fun b x hb => decanonize_ok hb x) (insert_ok hb block hash))
    · obtain ⟨b, h1, h⟩ := Trie.bind_ok.mp h
      cases h
      exact restore_chain_ok he (insert_ok hb block hash) h1

/-- Inserting a block keeps what every buffer satisfies. -/
theorem insertBlock_ok {env : ChainEnv} (he : ExecTyped env) {c : Blockchain} (hb : BufferOk c.state) {block : Block} {check : Bool}
    {q : Blockchain × InsertResult} (h : c.insertBlock env block check = .ok q) : BufferOk q.1.state := by
  unfold Blockchain.insertBlock at h
  split at h
  · cases h
  · cases h; exact hb
  · dsimp only at h
    split at h
    · cases h; exact hb
    · unfold Blockchain.process at h
      obtain ⟨a, _, h⟩ := Trie.bind_ok.mp h
      obtain ⟨b, h1, h⟩ := Trie.bind_ok.mp h
      have hb1 := unwindLast_ok hb h1
      dsimp only at h
      split at h
      · cases h; exact hb1
      · obtain ⟨i, _, h⟩ := Trie.bind_ok.mp h
        obtain ⟨r, h2, h⟩ := Trie.bind_ok.mp h
        exact conclude_ok he (executeChain_ok he hb1 h2) h

end Silkworm.Tools

namespace Silkworm.Tools

open Silkworm.Spec Silkworm.Trie Silkworm.Rlp

theorem noError_ok {α : Type} {o : Outcome Empty α} {a : α} : noError o = .ok a ↔ o = .ok a := by
  cases o with
  | ok b => exact ⟨fun h => by rw [Outcome.ok.inj h], fun h => by rw [Outcome.ok.inj h]; rfl⟩
  | err e => exact e.elim
  | ub => exact ⟨fun h => (by cases h), fun h => (by cases h)⟩

theorem verdict_passed {a b : Bool} : verdict a b = .passed ↔ a = b := by
  unfold verdict
  by_cases h : a = b
  · rw [if_pos h]; exact ⟨fun _ => h, fun _ => rfl⟩
  · rw [if_neg h]; exact ⟨fun h => (by cases h), fun e => absurd e h⟩

theorem blockOf_some {text : Bytes} {block : Block} : blockOf text = .ok (some block) ↔ ReadsBlock text block := by
  unfold blockOf ReadsBlock
  simp only [Genesis.hexBytes_iff]
  cases h : fromHex text with
  | none =>
    dsimp only
    exact ⟨fun h => (by cases h), fun ⟨_, h, _⟩ => (by cases h)⟩
  | some b =>
    dsimp only
    constructor
    · intro e
      split at e
      · cases e
      · cases e
      · rename_i x rest hd
        split at e
        · rename_i hr
          rw [Option.some.inj (Outcome.ok.inj e), hr] at hd
          exact ⟨b, rfl, hd⟩
        · cases e
    · rintro ⟨b', hb, hd⟩
      cases hb
      rw [hd]
      rfl

theorem blockOf_none {text : Bytes} : blockOf text = .ok none ↔ NoBlock text := by
  unfold blockOf NoBlock
  simp only [Genesis.hexBytes_iff]
  cases h : fromHex text with
  | none => exact ⟨fun _ => Or.inl fun b h => (by cases h), fun _ => rfl⟩
  | some b =>
    dsimp only
    constructor
    · intro e
      refine Or.inr ⟨b, rfl, ?_⟩
      split at e
      · cases e
      · rename_i x hd
        exact Or.inl ⟨x, hd⟩
      · rename_i x rest hd
        split at e
        · cases e
        · rename_i hr
          exact Or.inr ⟨x, rest, hd, hr⟩
    · rintro (h | ⟨b', hb, h⟩)
      · exact absurd rfl (h b)
      · cases hb
        rcases h with ⟨e, hd⟩ | ⟨x, rest, hd, hr⟩
        · rw [hd]
        · rw [hd]
          show Outcome.ok (if rest = [] then some x else none) = _
          rw [if_neg hr]

theorem judge_passed {expected : Bool} {c c' : Blockchain} {r : InsertResult} :
    judge expected c r = .ok (.passed, c') ↔ c' = c ∧ ((expected = false ∧ r = .ok) ∨ (expected = true ∧ ∃ e, r = .invalid e)) := by
  cases r with
  | ok =>
    constructor
    · intro h
      have h := Prod.mk.inj (Outcome.ok.inj h)
      exact ⟨h.2.symm, Or.inl ⟨verdict_passed.mp h.1, rfl⟩⟩
    · rintro ⟨rfl, ⟨h, _⟩ | ⟨_, _, h⟩⟩
      · rw [h]; rfl
      · cases h
  | invalid e =>
    constructor
    · intro h
      have h := Prod.mk.inj (Outcome.ok.inj h)
      exact ⟨h.2.symm, Or.inr ⟨verdict_passed.mp h.1, e, rfl⟩⟩
    · rintro ⟨rfl, ⟨_, h⟩ | ⟨h, _⟩⟩
      · cases h
      · rw [h]; rfl
  | lengthError =>
    constructor
    · intro h; cases h
    · rintro ⟨_, ⟨_, h⟩ | ⟨_, _, h⟩⟩ <;> cases h

theorem runBlock_passed {env : ChainEnv} {c c' : Blockchain} {t : TestBlock} :
    runBlock env c t = .ok (.passed, c') ↔ AsExpected env c t c' := by
  unfold runBlock
  constructor
  · intro h
    obtain ⟨o, h1, h⟩ := Trie.bind_ok.mp h
    rw [noError_ok] at h1
    cases o with
    | none =>
      have h := Prod.mk.inj (Outcome.ok.inj h)
      have hx := verdict_passed.mp h.1
      rw [← h.2]
      obtain ⟨x, hx⟩ := Option.isSome_iff_exists.mp hx
      exact .noBlock x hx (blockOf_none.mp h1)
    | some block =>
      obtain ⟨r, h2, h⟩ := Trie.bind_ok.mp h
      rw [noError_ok] at h2
      obtain ⟨h3, h4⟩ := judge_passed.mp h
      subst h3
      cases hx : t.expectException with
      | none =>
        rw [hx] at h2 h4
        rcases h4 with ⟨_, h5⟩ | ⟨h5, _⟩
        · exact .valid block r.1 hx (blockOf_some.mp h1) (by rw [← h5]; exact h2)
        · cases h5
      | some x =>
        rw [hx] at h2 h4
        rcases h4 with ⟨h5, _⟩ | ⟨_, e, h5⟩
        · cases h5
        · exact .invalid x block r.1 e hx (blockOf_some.mp h1) (by rw [← h5]; exact h2)
  · intro h
    cases h with
    | valid block _ hx hb hi =>
      rw [blockOf_some.mpr hb, hx]
      show (noError (c.insertBlock env block false)).bind _ = _
      rw [hi]
      rfl
    | noBlock x hx hb =>
      rw [blockOf_none.mpr hb, hx]
      rfl
    | invalid x block _ e hx hb hi =>
      rw [blockOf_some.mpr hb, hx]
      show (noError (c.insertBlock env block (x == kInvalidStateRoot))).bind _ = _
      rw [hi]
      rfl

theorem runBlocks_passed {env : ChainEnv} : ∀ {l : List TestBlock} {c c' : Blockchain},
    runBlocks env c l = .ok (.passed, c') ↔ AllAsExpected env c l c'
  | [], c, c' => by
    constructor
    · intro h
      rw [(Prod.mk.inj (Outcome.ok.inj h)).2]
      exact .nil c'
    · intro h
      cases h
      rfl
  | t :: l, c, c' => by
    constructor
    · intro h
      unfold runBlocks at h
      obtain ⟨r, h1, h⟩ := Trie.bind_ok.mp h
      by_cases hr : r.1 = .passed
      · rw [if_pos hr] at h
        have h1 : runBlock env c t = .ok (.passed, r.2) := by rw [← hr]; exact h1
        exact .cons c r.2 c' t l (runBlock_passed.mp h1) (runBlocks_passed.mp h)
      · rw [if_neg hr] at h
        exact absurd (by rw [Outcome.ok.inj h]) hr
    · intro h
      cases h with
      | cons _ c1 _ _ _ h1 h2 =>
        unfold runBlocks
        rw [runBlock_passed.mpr h1]
        rw [bindOk, if_pos rfl]
        exact runBlocks_passed.mpr h2

theorem runBlocks_not_skipped {env : ChainEnv} : ∀ {l : List TestBlock} {c : Blockchain} {r : TestStatus × Blockchain},
    runBlocks env c l = .ok r → r.1 ≠ .skipped
  | [], c, r, h => by
    rw [← Outcome.ok.inj h]
    intro h; cases h
  | t :: l, c, r, h => by
    unfold runBlocks at h
    obtain ⟨q, h1, h⟩ := Trie.bind_ok.mp h
    have hv : ∀ a b, verdict a b ≠ .skipped := by decide
    split at h
    · exact runBlocks_not_skipped h
    · rw [← Outcome.ok.inj h]
      unfold runBlock at h1
      obtain ⟨o, _, h1⟩ := Trie.bind_ok.mp h1
      cases o with
      | none => rw [← Outcome.ok.inj h1]; exact hv _ _
      | some block =>
        obtain ⟨x, _, h1⟩ := Trie.bind_ok.mp h1
        unfold judge at h1
        split at h1
        · rw [← Outcome.ok.inj h1]; exact hv _ _
        · rw [← Outcome.ok.inj h1]; exact hv _ _
        · cases h1

theorem allAsExpected_ok {env : ChainEnv} (he : ExecTyped env) {c c' : Blockchain} {l : List TestBlock} (hb : BufferOk c.state)
    (h : AllAsExpected env c l c') : BufferOk c'.state := by
  induction h with
  | nil c => exact hb
  | cons c c1 c2 t l h1 _ ih =>
    refine ih ?_
    cases h1 with
    | valid block _ _ _ hi => exact insertBlock_ok he hb hi
    | noBlock _ _ _ => exact hb
    | invalid _ block _ e _ _ hi => exact insertBlock_ok he hb hi

theorem genesisOf_ok {text : Bytes} {block : Block} :
    genesisOf text = .ok block ↔ ∃ bytes rest, HexBytes text bytes ∧ decodeBlock bytes = .ok (block, rest) := by
  unfold genesisOf hexValue
  simp only [Genesis.hexBytes_iff]
  cases h : fromHex text with
  | none => exact ⟨fun h => (by cases h), fun ⟨_, _, h, _⟩ => (by cases h)⟩
  | some b =>
    dsimp only
    rw [bindOk]
    constructor
    · intro e
      split at e
      · rename_i x rest hd
        rw [Outcome.ok.inj e] at hd
        exact ⟨b, rest, rfl, hd⟩
      · cases e
      · cases e
    · rintro ⟨b', rest, hb, hd⟩
      cases hb
      rw [hd]

/-! ## Transactions -/

theorem preValidateTransaction_ne_ub (t : Transaction) (n : Nat) (config : ChainConfig) (fee : Option Nat) :
    preValidateTransaction t n config fee ≠ .ub := by
  unfold preValidateTransaction
  dsimp only
  repeat' split
  all_goals (intro h; cases h)

/-- Two texts of small letters and digits with the same number and length are the same. -/
theorem lower_inj {a b : Bytes} : (∀ ch ∈ a, ch ∈ hexDigits) → (∀ ch ∈ b, ch ∈ hexDigits) → a.length = b.length →
    hexNumber a = hexNumber b → a = b := by
  have hd : ∀ x ∈ hexDigits, ∀ y ∈ hexDigits, hexDigit x = hexDigit y → x = y := by decide +kernel
  have hs : ∀ x ∈ hexDigits, (hexDigit x).isSome := by decide +kernel
  have hall : ∀ l : Bytes, (∀ ch ∈ l, ch ∈ hexDigits) → ∃ n, hexNumber l = some n := by
    intro l
    induction l with
    | nil => exact fun _ => ⟨0, rfl⟩
    | cons x l ih =>
      intro h
      obtain ⟨n, hn⟩ := ih (fun ch hc => h ch (List.mem_cons_of_mem _ hc))
      obtain ⟨d, hx⟩ := Option.isSome_iff_exists.mp (hs x (h x (List.mem_cons_self ..)))
      unfold hexNumber
      rw [hn, hx]
      exact ⟨_, rfl⟩
  induction a generalizing b with
  | nil =>
    intro _ _ hl _
    exact (List.eq_nil_of_length_eq_zero hl.symm).symm
  | cons x a ih =>
    intro ha hb hl hn
    cases b with
    | nil => cases hl
    | cons y b =>
      have hl : a.length = b.length := Nat.succ.inj hl
      have ha' := fun ch hc => ha ch (List.mem_cons_of_mem x hc)
      have hb' := fun ch hc => hb ch (List.mem_cons_of_mem y hc)
      obtain ⟨n, h1⟩ := hall a ha'
      obtain ⟨m, h2⟩ := hall b hb'
      obtain ⟨d, h3⟩ := Option.isSome_iff_exists.mp (hs x (ha x (List.mem_cons_self ..)))
      obtain ⟨e, h4⟩ := Option.isSome_iff_exists.mp (hs y (hb y (List.mem_cons_self ..)))
      unfold hexNumber at hn
      rw [h1, h2, h3, h4] at hn
      have hn : d * 16 ^ a.length + n = e * 16 ^ b.length + m := Option.some.inj hn
      have l1 := hexNumber_lt h1
      have l2 := hexNumber_lt h2
      rw [← hl] at hn l2
      have hde : d = e := by
        have q : ∀ (d n : Nat), n < 16 ^ a.length → (d * 16 ^ a.length + n) / 16 ^ a.length = d := by
          intro d n hn
          rw [Nat.mul_comm, Nat.mul_add_div (Nat.pow_pos (by decide)), Nat.div_eq_of_lt hn, Nat.add_zero]
        rw [← q d n l1, hn, q e m l2]
      rw [hde] at hn h3
      have hnm : n = m := by omega
      rw [hd x (ha x (List.mem_cons_self ..)) y (hb y (List.mem_cons_self ..)) (h3.trans h4.symm),
        ih ha' hb' hl (by rw [h1, h2, hnm])]

end Silkworm.Tools
