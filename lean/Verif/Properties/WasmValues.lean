import Verif.Properties.WasmState
import Verif.Properties.Common
import Verif.Properties.Block
import Verif.Properties.Transaction
import Verif.Properties.Chain
import Verif.Properties.Keccak

/-!
# C159: what the WebAssembly functions compute
-/

namespace Silkworm.Properties

open Silkworm.Wasm

theorem alloc_get (h : Heap) (o : Object) : (h.alloc o).1.objects.get? h.next = some o := by
  show (h.objects.set h.next o).get? h.next = _
  rw [AMap.get?_set, if_pos rfl]

theorem put_get (h : Heap) (i : Nat) (o : Object) : (h.put i o).objects.get? i = some o := by
  show (h.objects.set i o).get? i = _
  rw [AMap.get?_set, if_pos rfl]

theorem number_get {h : Heap} {i n : Nat} (e : h.objects.get? i = some (.number n)) : h.number (.object i) = .ok n := by
  simp [Heap.number, Pointer.object, e]

theorem bytes_get {h : Heap} {i : Nat} {b : Bytes} (e : h.objects.get? i = some (.bytes b)) : h.bytes (.object i) = .ok b := by
  simp [Heap.bytes, Heap.object, Pointer.object, e]

theorem transaction_get {h : Heap} {i : Nat} {t : Transaction} (e : h.objects.get? i = some (.transaction t)) :
    h.transaction (.object i) = .ok (i, t) := by
  simp [Heap.transaction, Pointer.object, e]

theorem leBytes_beFixed : ∀ k n, (beFixed k n).reverse = Spec.Wasm.leBytes k n
  | 0, _ => rfl
  | k + 1, n => by
    rw [beFixed, List.reverse_append, leBytes_beFixed k (n / 256)]
    rfl

theorem leBytes_add : ∀ (k j a b : Nat), a < 256 ^ k →
    Spec.Wasm.leBytes (k + j) (a + b * 256 ^ k) = Spec.Wasm.leBytes k a ++ Spec.Wasm.leBytes j b
  | 0, j, a, b, h => by
    have : a = 0 := by omega
    subst this
    simp [Spec.Wasm.leBytes]
  | k + 1, j, a, b, h => by
    have h1 : (a + b * 256 ^ (k + 1)) % 256 = a % 256 := by
      rw [show b * 256 ^ (k + 1) = 256 * (b * 256 ^ k) by ring, Nat.add_mul_mod_self_left]
    have h2 : (a + b * 256 ^ (k + 1)) / 256 = a / 256 + b * 256 ^ k := by
      rw [show b * 256 ^ (k + 1) = 256 * (b * 256 ^ k) by ring, Nat.add_mul_div_left _ _ (by decide)]
    rw [show k + 1 + j = (k + j) + 1 by omega]
    simp only [Spec.Wasm.leBytes, h1, h2]
    rw [leBytes_add k j (a / 256) b (by rw [Nat.pow_succ] at h; omega)]
    rfl

/-- C159: a text gives bytes exactly if it consists of an even number of hexadecimal digits, after an optional prefix; they are the bytes
of the number. -/
theorem c159_hex (e : Env) (h : Heap) (p : Pointer) (n : Nat) (text : Bytes) (ht : h.read p n = .ok text) :
    (∀ b digits, Spec.HexText text digits → digits.length = 2 * b.length → Spec.hexNumber digits = some (beToNat b) →
      ∃ h', step e h (.newBytesFromHex p n) = .ok (h', .pointer (.object h.next)) ∧ h'.objects.get? h.next = some (.bytes b)) ∧
    ((∀ b digits, Spec.HexText text digits → digits.length = 2 * b.length → Spec.hexNumber digits ≠ some (beToNat b)) →
      step e h (.newBytesFromHex p n) = .ok (h, .pointer .null)) := by
  constructor
  · intro b digits h1 h2 h3
    have hf : fromHex text = some b := (c58_hex_accepts text b).mpr ⟨digits, h1, h2, h3⟩
    refine ⟨(h.alloc (.bytes b)).1, ?_, alloc_get _ _⟩
    simp only [step, newBytesFromHex, ht, Outcome.ok_bind, hf, givesPointer, Heap.alloc]
  · intro hn
    have hf : fromHex text = none := by
      cases hf : fromHex text with
      | none => rfl
      | some b =>
        obtain ⟨digits, h1, h2, h3⟩ := (c58_hex_accepts text b).mp hf
        exact absurd h3 (hn b digits h1 h2)
    simp only [step, newBytesFromHex, ht, Outcome.ok_bind, hf, givesPointer]

/-- C159: a number is made of four words, the lowest first, and these are its bytes in memory. -/
theorem c159_uint256 (e : Env) (h : Heap) (a b c d : Nat) (ha : a < 2 ^ 64) (hb : b < 2 ^ 64) (hc : c < 2 ^ 64) :
    ∃ h', step e h (.newUint256 a b c d) = .ok (h', .pointer (.object h.next)) ∧
      h'.number (.object h.next) = .ok (a + 2 ^ 64 * (b + 2 ^ 64 * (c + 2 ^ 64 * d))) ∧
      step e h' (.hostRead (.object h.next) 32) = .ok (h', .bytes (Spec.Wasm.leBytes 8 a ++ Spec.Wasm.leBytes 8 b ++
        Spec.Wasm.leBytes 8 c ++ Spec.Wasm.leBytes 8 d)) := by
  have hv : uint256Le a b c d = a + 2 ^ 64 * (b + 2 ^ 64 * (c + 2 ^ 64 * d)) := by
    unfold uint256Le
    ring
  refine ⟨(h.alloc (.number (uint256Le a b c d))).1, ?_, ?_, ?_⟩
  · simp only [step, givesPointer, Outcome.ok_bind, Heap.alloc]
  · rw [number_get (alloc_get _ _), hv]
  · have hr := read_some (m := .whole) (offset := 0) (n := 32) (b := numberBytes (uint256Le a b c d))
      (alloc_get h (.number (uint256Le a b c d))) rfl (by rw [numberBytes_length])
    simp only [step, Pointer.object, hr, Outcome.ok_bind, List.drop_zero]
    rw [List.take_of_length_le (by rw [numberBytes_length]), numberBytes, leBytes_beFixed, hv,
      show a + 2 ^ 64 * (b + 2 ^ 64 * (c + 2 ^ 64 * d)) = a + (b + (c + d * 256 ^ 8) * 256 ^ 8) * 256 ^ 8 by ring,
      show 32 = 8 + (8 + (8 + 8)) from rfl, leBytes_add 8 _ _ _ (by omega), leBytes_add 8 _ _ _ (by omega),
      leBytes_add 8 _ _ _ (by omega)]
    simp only [List.append_assoc]

-- The number 2^64 + 2.
example : returned (session wasmExample {} [.newUint256 2 1 0 0, .hostRead (.object 0) 32]) =
    some [.pointer (.object 0), .bytes ([2, 0, 0, 0, 0, 0, 0, 0, 1] ++ List.replicate 23 0)] := by rfl

/-- C159: the difficulty is written in place of that of the parent, and is that of the specification. -/
theorem c159_difficulty (e : Env) (h : Heap) (i : Nat) (cfg : Pointer) (c : ChainConfig) (number p timestamp parentTimestamp : Nat)
    (uncles : Bool) (hi : h.objects.get? i = some (.number p)) (hc : h.config cfg = .ok c) (hw : Spec.ConfigWF c)
    (hp : p < 2 ^ 256) (ht : timestamp < 2 ^ 64) (hle : parentTimestamp ≤ timestamp)
    (hd : Spec.difficulty c number p (timestamp - parentTimestamp) uncles < 2 ^ 256) :
    ∃ h' d, step e h (.difficulty (.object i) number timestamp parentTimestamp uncles cfg) = .ok (h', .unit) ∧
      h'.objects.get? i = some (.number d) ∧ (d : Int) = Spec.difficulty c number p (timestamp - parentTimestamp) uncles := by
  refine ⟨h.put i (.number (canonicalDifficulty number timestamp p parentTimestamp uncles c)), _, ?_, put_get _ _ _,
    c21_difficulty_spec c hw number p timestamp parentTimestamp uncles hp ht hle hd⟩
  simp only [step, difficulty, number_get hi, hc, Outcome.ok_bind, givesNothing]
  simp only [Heap.setNumber, Pointer.object, hi, Outcome.ok_bind, Heap.put]

/-- C159: the check of the gas is whether the limit of the transaction covers what the Yellow Paper takes for it. -/
theorem c159_intrinsic_gas (e : Env) (h : Heap) (i : Nat) (t : Transaction) (homestead istanbul : Bool)
    (hi : h.objects.get? i = some (.transaction t)) (ht : Spec.TxSizes t) :
    ∃ b, step e h (.checkIntrinsicGas (.object i) homestead istanbul) = .ok (h, .flag b) ∧
      (b = true ↔ Spec.intrinsicGas t homestead istanbul ≤ t.gasLimit) := by
  refine ⟨decide (intrinsicGas t homestead istanbul ≤ t.gasLimit), ?_, ?_⟩
  · simp only [step, checkIntrinsicGas, transaction_get hi, Outcome.ok_bind]
  · rw [c19_intrinsic_gas t homestead istanbul ht, decide_eq_true_eq]

/-- C159: the encoding of a transaction gives the transaction, without a sender. -/
theorem c159_transaction (e : Env) (h : Heap) (i : Nat) (t : Transaction) (ht : t.Codable)
    (hi : h.objects.get? i = some (.bytes (Rlp.encodeTransactionInBlock t))) :
    ∃ h' t', step e h (.newTransaction (.object i)) = .ok (h', .pointer (.object h.next)) ∧
      h'.objects.get? h.next = some (.transaction t') ∧ t'.same t ∧ t'.sender = none := by
  obtain ⟨t', h1, h2, h3⟩ : ∃ t', Rlp.decodeTransaction (Rlp.encodeTransactionInBlock t ++ []) = .ok (t', []) ∧ t'.same t ∧
      t'.sender = none := by
    by_cases hl : t.type = .legacy
    · exact c09_legacy_roundtrip t hl ht.wf (by have := ht.sized.data; omega) (ht.prio (by rw [hl]; decide)) (ht.access hl) (ht.v hl) []
    · exact c10_typed_roundtrip t hl ht.wf ht.sized (fun h => ht.prio (by rw [h]; decide)) (ht.chain hl) []
  rw [List.append_nil] at h1
  refine ⟨(h.alloc (.transaction t')).1, t', ?_, alloc_get _ _, h2, h3⟩
  simp only [step, newTransaction, bytes_get hi, Outcome.ok_bind, h1, if_true, givesPointer, Heap.alloc]

/-- C159: what is given for a transaction is one that was decoded from all the bytes; a legacy transaction has these bytes only. -/
theorem c159_transaction_legacy (e : Env) (h h' : Heap) (i j : Nat) (b : Bytes) (t : Transaction)
    (hi : h.objects.get? i = some (.bytes b)) (st : step e h (.newTransaction (.object i)) = .ok (h', .pointer (.object j)))
    (ht : h'.objects.get? j = some (.transaction t)) (hl : t.type = .legacy) : b = Rlp.encodeTransactionInBlock t := by
  simp only [step, newTransaction, bytes_get hi, Outcome.ok_bind] at st
  cases hd : Rlp.decodeTransaction b with
  | ub => rw [hd] at st; cases st
  | err x => rw [hd] at st; cases st
  | ok q =>
    obtain ⟨x, rest⟩ := q
    rw [hd] at st
    dsimp only at st
    split at st
    · rename_i hr
      cases st
      rw [alloc_get] at ht
      cases ht
      have := c11_legacy_canonical_partial b rest t hd hl
      rw [hr, List.append_nil] at this
      exact this
    · cases st

/-- C159: the encoding of a block gives the block, its transactions without senders. -/
theorem c159_block (e : Env) (h : Heap) (i : Nat) (b : Block) (hh : b.header.WF) (ht : ∀ t ∈ b.transactions, t.Codable)
    (ho : ∀ x ∈ b.ommers, x.WF) (h64 : (Spec.rlp (Spec.blockItem b)).length < 2 ^ 64)
    (hi : h.objects.get? i = some (.bytes (Spec.rlp (Spec.blockItem b)))) :
    ∃ h', step e h (.newBlock (.object i)) = .ok (h', .pointer (.object h.next)) ∧ h'.objects.get? h.next =
      some (.block { b with transactions := b.transactions.map (fun t => { t with sender := none }) }) := by
  have h1 := c08_block_decode b hh ht ho h64 []
  rw [List.append_nil] at h1
  refine ⟨(h.alloc (.block { b with transactions := b.transactions.map (fun t => { t with sender := none }) })).1, ?_, alloc_get _ _⟩
  simp only [step, newBlock, bytes_get hi, Outcome.ok_bind, h1, if_true, givesPointer, Heap.alloc]

/-- C159: the hash of bytes is that of Keccak, and is written to the buffer. -/
theorem c159_keccak (e : Env) (he : e.keccak = Keccak.keccak256) (h : Heap) (i j : Nat) (b : Bytes) (cells : List (Option UInt8))
    (hi : h.objects.get? i = some (.bytes b)) (hj : h.objects.get? j = some (.buffer cells)) (hl : cells.length = 32) :
    ∃ h', step e h (.keccak256 (.object j) (.object i)) = .ok (h', .unit) ∧
      step e h' (.hostRead (.object j) 32) = .ok (h', .bytes (Spec.Keccak.keccak256 b)) := by
  have hk : e.keccak b = Spec.Keccak.keccak256 b := by rw [he]; exact c142_keccak256 b
  have h32 : (Spec.Keccak.keccak256 b).length = 32 := by rw [← c142_keccak256 b]; exact c142_constants.1 b
  generalize Spec.Keccak.keccak256 b = w at *
  have hw : h.write (.object j) w = .ok (h.put j (.buffer (w.map some))) := by
    unfold Heap.write Pointer.object
    simp only [hj, Object.store, hl, h32, Nat.zero_add, Nat.le_refl, if_true, overwrite, List.take_zero, List.nil_append, Heap.put]
    rw [List.drop_of_length_le (by rw [List.length_map]; omega), List.append_nil]
  refine ⟨h.put j (.buffer (w.map some)), ?_, ?_⟩
  · simp only [step, Wasm.keccak256, bytes_get hi, Outcome.ok_bind, hk, fixed_eq h32, hw, givesNothing]
  · have := read_some (m := .whole) (offset := 0) (n := 32) (b := w) (put_get h j (.buffer (w.map some))) rfl (by omega)
    simp only [step, Pointer.object, this, Outcome.ok_bind]
    rw [List.drop_zero, List.take_of_length_le (by omega)]

/-- C159: the sender is the last 20 bytes of the hash of the public key that the signature gives, and can be read at the pointer that is
returned; without a key null is returned. -/
theorem c159_sender (e : Env) (hk : ∀ b, (e.keccak b).length = 32) (h : Heap) (i : Nat) (t : Transaction) (hw : t.WF) (hs : t.Sized)
    (hi : h.objects.get? i = some (.transaction t)) (sig : Bytes) (hsig : sig.length = 64) (hr : beToNat (sig.take 32) = t.r)
    (hs' : beToNat (sig.drop 32) = t.s) :
    (∀ pre pub, e.recover (e.keccak (Spec.txSigningPayload t)) sig t.oddYParity = some (pre :: pub) →
      ∃ h' addr junk, step e h (.recoverSender (.object i)) = .ok (h', .pointer (.to i .sender 0)) ∧ addr.length = 20 ∧
        e.keccak pub = junk ++ addr ∧ step e h' (.hostRead (.to i .sender 0) 20) = .ok (h', .bytes addr)) ∧
    (e.recover (e.keccak (Spec.txSigningPayload t)) sig t.oddYParity = none →
      ∃ h', step e h (.recoverSender (.object i)) = .ok (h', .pointer .null)) := by
  obtain ⟨c1, c2⟩ := c13_sender_spec e.keccak e.recover t hw hs hk sig hsig hr hs'
  constructor
  · intro pre pub hp
    obtain ⟨addr, junk, g1, g2, g3⟩ := c1 pre pub hp
    refine ⟨h.put i (.transaction (t.recoverSender e.keccak e.recover)), addr, junk, ?_, g2, g3, ?_⟩
    · simp only [step, recoverSender, transaction_get hi, Outcome.ok_bind, givesPointer, g1, Option.isSome_some, if_true]
    · have := read_some (m := .sender) (offset := 0) (n := 20) (b := addr)
        (put_get h i (.transaction (t.recoverSender e.keccak e.recover))) (by simp only [Object.cells, g1, fixed_eq g2]) (by omega)
      simp only [step, this, Outcome.ok_bind]
      rw [List.drop_zero, List.take_of_length_le (by omega)]
  · intro hp
    refine ⟨h.put i (.transaction (t.recoverSender e.keccak e.recover)), ?_⟩
    simp only [step, recoverSender, transaction_get hi, Outcome.ok_bind, givesPointer, c2 hp]
    rfl

/-- C159: the block of a fork is set as it is given, and nothing else of the configuration changes. Frontier has no block to set. -/
theorem c159_fork_block (e : Env) (h : Heap) (i fork block : Nat) (c : ChainConfig) (hi : h.objects.get? i = some (.config c))
    (hc : c.forkBlocks.length = 10) (h1 : 1 ≤ fork) (h2 : fork ≤ 10) :
    ∃ h' c', step e h (.setForkBlock (.object i) fork block) = .ok (h', .unit) ∧ h'.objects.get? i = some (.config c') ∧
      c'.revisionBlock fork = some block ∧ (∀ x, x ≠ fork → c'.revisionBlock x = c.revisionBlock x) ∧ c'.chainId = c.chainId ∧
      c'.muirGlacierBlock = c.muirGlacierBlock ∧ c'.daoBlock = c.daoBlock := by
  obtain ⟨g1, g2, g3, _, g4, g5⟩ := c26_set_revision_block c hc fork h1 h2 (some block)
  refine ⟨h.put i (.config (c.setRevisionBlock fork (some block))), _, ?_, put_get _ _ _, g1, g2, g3, g4, g5⟩
  simp only [step, setForkBlock, if_pos h2, Heap.setConfig, Pointer.object, hi, givesNothing, Outcome.ok_bind, Heap.put]

-- A configuration of the host: Byzantium from block 7 on; the difficulty of block 10 with its rules.
example : returned (session wasmExample {} [.newConfig 5, .setForkBlock (.object 0) 1 0, .setForkBlock (.object 0) 4 7,
      .newUint256 200000 0 0 0, .difficulty (.object 1) 10 130 100 false (.object 0), .hostRead (.object 1) 3]) =
    some [.pointer (.object 0), .unit, .unit, .pointer (.object 1), .unit, .bytes [0x7e, 0x0c, 0x03]] := by decide +kernel

/-- C159: an account has the nonce and the balance that it was made with, and no code. -/
theorem c159_account (e : Env) (h : Heap) (i nonce balance : Nat) (hf : h.objects.get? h.next = none)
    (hi : h.objects.get? i = some (.number balance)) :
    ∃ h', step e h (.newAccount nonce (.object i)) = .ok (h', .pointer (.object h.next)) ∧
      step e h' (.accountNonce (.object h.next)) = .ok (h', .number nonce) ∧
      step e h' (.accountBalance (.object h.next)) = .ok (h', .pointer (.to h.next .balance 0)) ∧
      h'.number (.to h.next .balance 0) = .ok balance ∧
      step e h' (.accountCodeHash (.object h.next)) = .ok (h', .pointer (.to h.next .codeHash 0)) ∧
      step e h' (.hostRead (.to h.next .codeHash 0) 32) = .ok (h', .bytes (Keccak.keccak256 [])) ∧
      h'.objects.get? i = some (.number balance) := by
  have ha : (h.alloc (.account { nonce := nonce, balance := balance })).1.account (.object h.next) =
      .ok (h.next, { nonce := nonce, balance := balance }) := by
    simp only [Heap.account, Pointer.object, alloc_get]
  have hn : i ≠ h.next := by rintro rfl; rw [hi] at hf; cases hf
  refine ⟨(h.alloc (.account { nonce := nonce, balance := balance })).1, ?_, ?_, ?_, ?_, ?_, ?_, ?_⟩
  · have : h.numberOrNull (.object i) = .ok (some balance) := by
      simp only [Heap.numberOrNull, Pointer.object]
      rw [show Pointer.to i .whole 0 = .object i from rfl, number_get hi]
      rfl
    simp only [step, newAccount, this, Outcome.ok_bind, givesPointer, Option.getD_some, Heap.alloc]
  · simp only [step, ha, Outcome.ok_bind]
  · simp only [step, ha, Outcome.ok_bind]
  · simp only [Heap.number, alloc_get]
  · simp only [step, ha, Outcome.ok_bind]
  · have hk : (kEmptyHash).length = 32 := by decide
    have := read_some (m := .codeHash) (offset := 0) (n := 32) (b := kEmptyHash)
      (alloc_get h (.account { nonce := nonce, balance := balance })) (by simp only [Object.cells, fixed_eq hk]) (by omega)
    simp only [step, this, Outcome.ok_bind]
    rw [c142_constants.2.1, List.drop_zero, List.take_of_length_le (by omega)]
  · show (h.objects.set h.next _).get? i = _
    rw [AMap.get?_set, if_neg hn]
    exact hi

/-- C159: the number and the root of a block are those of its header. -/
theorem c159_header (e : Env) (h : Heap) (i : Nat) (b : Block) (hi : h.objects.get? i = some (.block b))
    (hl : b.header.stateRoot.length = 32) :
    step e h (.blockHeader (.object i)) = .ok (h, .pointer (.to i .header 0)) ∧
    step e h (.headerNumber (.to i .header 0)) = .ok (h, .number b.header.number) ∧
    step e h (.headerStateRoot (.to i .header 0)) = .ok (h, .pointer (.to i .stateRoot 0)) ∧
    step e h (.hostRead (.to i .stateRoot 0) 32) = .ok (h, .bytes b.header.stateRoot) := by
  have hb : h.block (.object i) = .ok (i, b) := by simp only [Heap.block, Pointer.object, hi]
  have hh : h.header (.to i .header 0) = .ok (i, b.header) := by simp only [Heap.header, hi]
  refine ⟨?_, ?_, ?_, ?_⟩
  · simp only [step, hb, Outcome.ok_bind]
  · simp only [step, hh, Outcome.ok_bind]
  · simp only [step, hh, Outcome.ok_bind]
  · have := read_some (m := .stateRoot) (offset := 0) (n := 32) (b := b.header.stateRoot) hi
      (by simp only [Object.cells, fixed_eq hl]) (by omega)
    simp only [step, this, Outcome.ok_bind]
    rw [List.drop_zero, List.take_of_length_le (by omega)]

-- A text becomes bytes, these a transaction, whose gas is not enough; without the last two digits it is none.
example : returned (session wasmExample {} [.newBuffer 20, .hostWrite (.object 0) (wasmText "c9808080808080808080"),
      .newBytesFromHex (.object 0) 20, .newTransaction (.object 1), .checkIntrinsicGas (.object 2) true true,
      .newBytesFromHex (.object 0) 18, .newTransaction (.object 3), .newBytesFromHex (.object 0) 3]) =
    some [.pointer (.object 0), .unit, .pointer (.object 1), .pointer (.object 2), .flag false, .pointer (.object 3), .pointer .null,
      .pointer .null] := by decide +kernel

end Silkworm.Properties
