import Verif.Tools.ConsensusChain
import Verif.Properties.Blockchain

/-!
# C128, C129, C130, C131: the program that runs the consensus tests
-/

namespace Silkworm.Properties

open Silkworm.Spec Silkworm.Tools

/-! ## C128: states -/

/-- C128 as stated: the check of the state at the end of a test succeeds exactly if the state is the expected one. -/
def C128_statement : Prop :=
  ∀ (b : MemoryBuffer) (ts : List TestAccount) (ps : List Preset), Reachable b → List.Forall₂ Describes ts ps →
    ∃ r, postCheck b ts = .ok r ∧ (r = true ↔ SameAs b ps)

/-- C128 for texts that mention no account and no slot twice and no value zero. Missing: zero values, and addresses or keys in two
spellings. -/
theorem c128_check_partial (b : MemoryBuffer) (ts : List TestAccount) (ps : List Preset) (hb : Reachable b)
    (h : List.Forall₂ Describes ts ps) (hn : (ps.map Preset.address).Nodup) (hk : ∀ p ∈ ps, (p.storage.map Prod.fst).Nodup)
    (hz : ∀ p ∈ ps, ∀ e ∈ p.storage, e.2 ≠ List.replicate 32 0) : ∃ r, postCheck b ts = .ok r ∧ (r = true ↔ SameAs b ps) :=
  postCheck_spec (reachable_ok hb) h hn hk hz

/-- What is assumed of the hash: the size, the hash of no bytes, and no collisions among the codes. -/
structure CodeHash (keccak : Bytes → Bytes) (ps : List Preset) : Prop where
  length : ∀ x, (keccak x).length = 32
  empty : keccak [] = kEmptyHash
  codes : ∀ x y, (x = [] ∨ ∃ p ∈ ps, p.code = x) → (y = [] ∨ ∃ p ∈ ps, p.code = y) → keccak x = keccak y → x = y

/-- C128: the state before a test is the one the test describes; zero values are allowed here. -/
theorem c128_init (keccak : Bytes → Bytes) (ts : List TestAccount) (ps : List Preset) (hc : CodeHash keccak ps)
    (h : List.Forall₂ Describes ts ps) (hn : (ps.map Preset.address).Nodup) (hk : ∀ p ∈ ps, (p.storage.map Prod.fst).Nodup) :
    ∃ b, initPreState keccak ts {} = .ok b ∧ Trie.BufferOk b ∧ SameAs b ps := by
  obtain ⟨b, h1, h2⟩ := initPreState_inv hc.length (fun x => x = [] ∨ ∃ p ∈ ps, p.code = x) hc.codes {} [] h hk hn
    (fun p _ q hq => (by cases hq)) (fun p hp => Or.inr ⟨p, hp, rfl⟩) (fun p hp => (by cases hp))
    ⟨Trie.bufferOk_empty, (fun p hp => by cases hp), (fun p hp => by cases hp), fun x _ => ⟨rfl, fun _ _ => rfl⟩,
      (fun p hp => by cases hp), (fun x c hx => by cases hx)⟩
  refine ⟨b, h1, h2.ok, sameAs_of_inv hc.empty h2 (fun p => by simp) ?_⟩
  exact fun p hp => hc.codes _ _ (Or.inr ⟨p, hp, rfl⟩) (Or.inl rfl)

/-- C128: a state passes the check against the texts it was made of. -/
theorem c128_init_check (keccak : Bytes → Bytes) (ts : List TestAccount) (ps : List Preset) (hc : CodeHash keccak ps)
    (h : List.Forall₂ Describes ts ps) (hn : (ps.map Preset.address).Nodup) (hk : ∀ p ∈ ps, (p.storage.map Prod.fst).Nodup)
    (hz : ∀ p ∈ ps, ∀ e ∈ p.storage, e.2 ≠ List.replicate 32 0) :
    ∃ b, initPreState keccak ts {} = .ok b ∧ postCheck b ts = .ok true := by
  obtain ⟨b, h1, h2, h3⟩ := c128_init keccak ts ps hc h hn hk
  obtain ⟨r, r1, r2⟩ := postCheck_spec h2 h hn hk hz
  rw [r2.mpr h3] at r1
  exact ⟨b, h1, r1⟩

/-- The bytes of a text. -/
def exText (s : String) : Bytes := s.toList.map fun c => UInt8.ofNat c.toNat

/-- A word for examples. -/
def exSlot (n : Nat) : Bytes := beFixed 32 n

theorem exSlot_length (n : Nat) : (exSlot n).length = 32 := beFixed_length ..

/-- An account with some slots. -/
def exSlots (l : List (Nat × Nat)) : MemoryBuffer :=
  ({} : MemoryBuffer).applyAll (.updateAccount (beFixed 20 1) none (some {}) ::
    l.map fun s => .updateStorage (beFixed 20 1) 0 (exSlot s.1) zero32 (exSlot s.2))

theorem reachable_applyAll : ∀ (calls : List BufferCall) (b : MemoryBuffer), Reachable b → (∀ c ∈ calls, Trie.CallOk c) →
    Reachable (b.applyAll calls)
  | [], _, hb, _ => hb
  | c :: l, b, hb, hc => by
    have := reachable_applyAll l (b.apply c) (.call b c hb (hc c (List.mem_cons_self ..))) (fun x hx => hc x (List.mem_cons_of_mem _ hx))
    exact this

theorem emptyAccount_wf : ({} : Account).WF :=
  ⟨(by decide : 0 < 2 ^ 64), (by decide : 0 < 2 ^ 256), (by decide : kEmptyHash.length = 32), (by decide : 0 < 2 ^ 64)⟩

theorem exSlots_reachable (l : List (Nat × Nat)) : Reachable (exSlots l) := by
  refine reachable_applyAll _ _ .empty ?_
  intro c hc
  rcases List.mem_cons.mp hc with rfl | hc
  · exact ⟨(fun x hx => by cases hx), fun x hx => by cases hx; exact emptyAccount_wf⟩
  · obtain ⟨s, _, rfl⟩ := List.mem_map.mp hc
    exact ⟨(by decide : zero32.length = 32), exSlot_length _⟩

/-- Texts for that account, which say that slot 1 is 5 and slot 2 is 0. -/
def exZeroText : TestAccount :=
  { address := exText "0x0000000000000000000000000000000000000001", balance := exText "0x00", nonce := exText "0x", code := exText "0x"
    storage := [(exText "0x01", exText "0x05"), (exText "0x02", exText "0x00")] }

/-- What they stand for. -/
def exZeroPreset : Preset :=
  { address := beFixed 20 1, balance := 0, nonce := 0, code := [], storage := [(exSlot 1, exSlot 5), (exSlot 2, exSlot 0)] }

/-- By the code that reads hexadecimal texts. -/
theorem hexWord_of {k : Nat} {text b w : Bytes} (h : fromHex text = some b) (hl : b.length ≤ k) (hw : w = List.replicate (k - b.length) 0 ++ b) :
    HexWord k text w := ⟨b, (Genesis.hexBytes_iff _ _).mpr h, hl, hw⟩

theorem exZero_describes : Describes exZeroText exZeroPreset := by
  refine ⟨hexWord_of (b := beFixed 20 1) (by decide +kernel) (by decide) (by decide +kernel),
    ⟨[0], (Genesis.hexBytes_iff _ _).mpr (by decide +kernel), by decide, by decide⟩,
    ⟨[], (Genesis.hexBytes_iff _ _).mpr (by decide +kernel), by decide, by decide⟩, (Genesis.hexBytes_iff _ _).mpr (by decide +kernel), ?_⟩
  refine .cons ⟨?_, ?_⟩ (.cons ⟨?_, ?_⟩ .nil)
  · exact hexWord_of (b := [1]) (by decide +kernel) (by decide) (by decide +kernel)
  · exact hexWord_of (b := [5]) (by decide +kernel) (by decide) (by decide +kernel)
  · exact hexWord_of (b := [2]) (by decide +kernel) (by decide) (by decide +kernel)
  · exact hexWord_of (b := [0]) (by decide +kernel) (by decide) (by decide +kernel)

/-- C128 is violated where a value is zero: slots 1 and 3 are 5 and 7, slots 1 and 2 should be 5 and 0. The check counts two and finds
the values right. -/
theorem c128_zero_violated : postCheck (exSlots [(1, 5), (3, 7)]) [exZeroText] = .ok true ∧ ¬ SameAs (exSlots [(1, 5), (3, 7)]) [exZeroPreset] := by
  refine ⟨by decide +kernel, fun h => ?_⟩
  obtain ⟨a, h1, _, _, _, h2⟩ := h.accounts _ (List.mem_cons_self ..)
  have hk : ∀ e ∈ exZeroPreset.storage, e.1 ≠ exSlot 3 := by decide +kernel
  have h3 := (h2 (exSlot 3)).2 (fun v hv => hk _ hv rfl)
  have h4 : ((exSlots [(1, 5), (3, 7)]).readAccount exZeroPreset.address).map (·.incarnation) = some 0 := by decide +kernel
  rw [h1] at h4
  have h5 : a.incarnation = 0 := Option.some.inj h4
  rw [h5] at h3
  exact absurd h3 (by decide +kernel)

/-- C128 is violated the other way round: the state that the test describes is turned down. -/
theorem c128_zero_same_violated : postCheck (exSlots [(1, 5)]) [exZeroText] = .ok false ∧ SameAs (exSlots [(1, 5)]) [exZeroPreset] := by
  refine ⟨by decide +kernel, ?_, ?_⟩
  · intro p hp
    rw [List.mem_singleton.mp hp]
    refine ⟨{}, by decide +kernel, rfl, rfl, by decide +kernel, fun k => ?_⟩
    have hr : ∀ k, (exSlots [(1, 5)]).readStorage (beFixed 20 1) 0 k = if k = exSlot 1 then exSlot 5 else zero32 := by
      intro k
      rw [show exSlots [(1, 5)] = (({} : MemoryBuffer).updateAccount (beFixed 20 1) none (some {})).updateStorage (beFixed 20 1) 0 (exSlot 1)
        zero32 (exSlot 5) from rfl, readStorage_update]
      by_cases hk : k = exSlot 1
      · rw [if_pos ⟨rfl, rfl, hk⟩, if_pos hk]
      · rw [if_neg (fun h => hk h.2.2), if_neg hk]
        rfl
    show (∀ v, _ → (exSlots [(1, 5)]).readStorage (beFixed 20 1) 0 k = v) ∧ (_ → (exSlots [(1, 5)]).readStorage (beFixed 20 1) 0 k = _)
    rw [hr]
    constructor
    · intro v hv
      rcases List.mem_cons.mp hv with e | hv
      · rw [(Prod.mk.inj e).1, (Prod.mk.inj e).2, if_pos rfl]
      · have e := List.mem_singleton.mp hv
        rw [(Prod.mk.inj e).1, (Prod.mk.inj e).2, if_neg (by decide +kernel)]
        decide +kernel
    · intro hv
      rw [if_neg]
      · rfl
      · rintro rfl
        exact hv (exSlot 5) (List.mem_cons_self ..)
  · intro x hx
    show (({} : MemoryBuffer).updateAccount (beFixed 20 1) none (some {})).readAccount x = none
    rw [MemoryBuffer.updateAccount_accounts, if_neg (fun e => hx _ (List.mem_singleton.mpr rfl) e.symm)]
    rfl

/-- C128 is violated. -/
theorem c128_violated : ¬ C128_statement := by
  intro h
  obtain ⟨r, h1, h2⟩ := h _ [exZeroText] [exZeroPreset] (exSlots_reachable [(1, 5), (3, 7)]) (.cons exZero_describes .nil)
  rw [c128_zero_violated.1] at h1
  exact c128_zero_violated.2 (h2.mp (Outcome.ok.inj h1).symm)

/-- Two accounts without anything. -/
def exTwo : MemoryBuffer := (({} : MemoryBuffer).updateAccount (beFixed 20 10) none (some {})).updateAccount (beFixed 20 2) none (some {})

/-- C128 is violated where an address occurs in two spellings: one account of the state is checked twice, the other never. -/
theorem c128_spelling_violated :
    postCheck exTwo [⟨exText "0x0a", exText "0x", exText "0x", exText "0x", []⟩, ⟨exText "0x0A", exText "0x", exText "0x", exText "0x", []⟩] =
      .ok true := by
  decide +kernel

/-- An account with code for the examples. -/
def exPreText : TestAccount :=
  { address := exText "0x00000000000000000000000000000000000000aA", balance := exText "0x0de0b6b3a7640000", nonce := exText "0x01"
    code := exText "0x6001", storage := [(exText "0x00", exText "0x0102")] }

/-- Its values. -/
def exPrePreset : Preset :=
  { address := beFixed 20 170, balance := 10 ^ 18, nonce := 1, code := [0x60, 0x01], storage := [(exSlot 0, exSlot 258)] }

theorem exPre_describes : Describes exPreText exPrePreset := by
  refine ⟨hexWord_of (b := beFixed 20 170) (by decide +kernel) (by decide) (by decide +kernel),
    ⟨beFixed 8 (10 ^ 18), (Genesis.hexBytes_iff _ _).mpr (by decide +kernel), by decide, by decide +kernel⟩,
    ⟨[1], (Genesis.hexBytes_iff _ _).mpr (by decide +kernel), by decide, by decide⟩, (Genesis.hexBytes_iff _ _).mpr (by decide +kernel), ?_⟩
  exact .cons ⟨hexWord_of (b := [0]) (by decide +kernel) (by decide) (by decide +kernel),
    hexWord_of (b := [1, 2]) (by decide +kernel) (by decide) (by decide +kernel)⟩ .nil

/-- A hash for examples. -/
def exCodeHash (b : Bytes) : Bytes := if b = [] then kEmptyHash else polyHash b

example : ∃ b, initPreState exCodeHash [exPreText] {} = .ok b ∧ postCheck b [exPreText] = .ok true := by
  refine c128_init_check exCodeHash [exPreText] [exPrePreset] ⟨?_, rfl, ?_⟩ (.cons exPre_describes .nil) (by decide +kernel)
    (by decide +kernel) (by decide +kernel)
  · intro x
    unfold exCodeHash
    split
    · decide
    · exact beFixed_length ..
  · rintro x y (rfl | ⟨p, hp, rfl⟩) (rfl | ⟨q, hq, rfl⟩) e
    · rfl
    · rw [List.mem_singleton.mp hq] at e; exact absurd e (by decide +kernel)
    · rw [List.mem_singleton.mp hp] at e; exact absurd e (by decide +kernel)
    · rw [List.mem_singleton.mp hp, List.mem_singleton.mp hq]
example : (initPreState exCodeHash [exPreText, { exPreText with address := exText "0xzz" }] {}).isOk = false := by decide +kernel
example : postCheck (exSlots []) [{ exZeroText with storage := [] }] = .ok true := by decide +kernel
example : postCheck (exSlots []) [{ exZeroText with storage := [], balance := exText "0x01" }] = .ok false := by decide +kernel

/-! ## C129: blocks -/

/-- C129: the blocks of a test pass exactly if each of them is taken in or turned down as expected. -/
theorem c129_blocks (env : ChainEnv) (c c' : Blockchain) (l : List TestBlock) :
    runBlocks env c l = .ok (.passed, c') ↔ AllAsExpected env c l c' := runBlocks_passed

/-- The parts of a test that are read first. -/
theorem blockchainTest_start {env e : ChainEnv} {t : BlockchainTest} {genesis : Block} {b : MemoryBuffer} (he : environment env t e)
    (hg : genesisOf t.genesisRlp = .ok genesis) (hb : initPreState env.keccak t.pre {} = .ok b) :
    blockchainTest env t = (runBlocks e (Blockchain.new e b genesis) t.blocks).bind fun r =>
      if r.1 = .passed then checkEnd env.keccak r.2.state t else .ok r.1 := by
  obtain ⟨config, engine, h1, h2, rfl⟩ := he
  unfold blockchainTest
  rw [hg, bindOk, h1]
  have h3 : sealEngineOf t.sealEngine = some engine := by
    unfold sealEngineOf
    rcases h2 with ⟨h, rfl⟩ | ⟨h, rfl⟩
    · rw [h]; rfl
    · rw [h]; rfl
  dsimp only
  rw [h3]
  dsimp only
  rw [hb, bindOk]

/-- What follows from the parts. -/
theorem blockchainTest_passed {env e : ChainEnv} {t : BlockchainTest} {genesis : Block} {b : MemoryBuffer} (he : environment env t e)
    (hg : genesisOf t.genesisRlp = .ok genesis) (hb : initPreState env.keccak t.pre {} = .ok b) :
    blockchainTest env t = .ok .passed ↔
      ∃ c, AllAsExpected e (Blockchain.new e b genesis) t.blocks c ∧ checkEnd env.keccak c.state t = .ok .passed := by
  rw [blockchainTest_start he hg hb]
  constructor
  · intro h
    obtain ⟨r, h1, h⟩ := Trie.bind_ok.mp h
    by_cases hr : r.1 = .passed
    · rw [if_pos hr] at h
      exact ⟨r.2, runBlocks_passed.mp (by rw [← hr]; exact h1), h⟩
    · rw [if_neg hr] at h
      exact absurd (Outcome.ok.inj h) hr
  · rintro ⟨c, h1, h2⟩
    rw [runBlocks_passed.mpr h1, bindOk, if_pos rfl]
    exact h2

theorem environment_keccak {env e : ChainEnv} {t : BlockchainTest} (he : environment env t e) :
    e.keccak = env.keccak ∧ e.execute = env.execute := by
  obtain ⟨_, _, _, _, rfl⟩ := he
  exact ⟨rfl, rfl⟩

/-- The chain of a test begins with a proper state. -/
theorem chainStart_ok {env e : ChainEnv} {t : BlockchainTest} {genesis : Block} {b : MemoryBuffer} {c : Blockchain}
    (he : environment env t e) (ht : ExecTyped env) (hb : Trie.BufferOk b)
    (h : AllAsExpected e (Blockchain.new e b genesis) t.blocks c) : Trie.BufferOk c.state := by
  refine allAsExpected_ok (env := e) ?_ (canonize_ok (insert_ok hb genesis _) _ _) h
  unfold ExecTyped
  rw [(environment_keccak he).2]
  exact ht

/-- C129: a test with a state at the end passes exactly if, from the state it describes and by the rules of its network, every block is
taken in or turned down as expected and the state at the end is the expected one. -/
theorem c129_state (env e : ChainEnv) (t : BlockchainTest) (pre post : List Preset) (bytes rest : Bytes) (genesis : Block)
    (ht : ExecTyped env) (he : environment env t e) (hg : HexBytes t.genesisRlp bytes)
    (hd : Rlp.decodeBlock bytes = .ok (genesis, rest)) (hc : CodeHash env.keccak pre) (hpre : Prescribes t.pre pre)
    (hpost : Prescribes t.postState post) (hz : ∀ p ∈ post, ∀ s ∈ p.storage, s.2 ≠ List.replicate 32 0) (hno : t.postStateHash = none) :
    ∃ b, initPreState env.keccak t.pre {} = .ok b ∧ SameAs b pre ∧
      (blockchainTest env t = .ok .passed ↔
        ∃ c, AllAsExpected e (Blockchain.new e b genesis) t.blocks c ∧ SameAs c.state post) := by
  obtain ⟨b, h1, h2, h3⟩ := c128_init env.keccak t.pre pre hc hpre.accounts hpre.addresses hpre.slots
  refine ⟨b, h1, h3, ?_⟩
  rw [blockchainTest_passed he (genesisOf_ok.mpr ⟨bytes, rest, hg, hd⟩) h1]
  refine exists_congr fun c => and_congr_right fun hall => ?_
  obtain ⟨r, r1, r2⟩ := postCheck_spec (chainStart_ok he ht h2 hall) hpost.accounts hpost.addresses hpost.slots hz
  unfold checkEnd
  rw [hno]
  dsimp only
  rw [r1, bindOk, ← r2]
  cases r with
  | true => exact ⟨fun _ => rfl, fun _ => rfl⟩
  | false => exact ⟨fun h => (by cases h), fun h => (by cases h)⟩

/-- C129: the same for a test with a root at the end. -/
theorem c129_root (env e : ChainEnv) (t : BlockchainTest) (pre : List Preset) (bytes rest : Bytes) (genesis : Block) (text root : Bytes)
    (ht : ExecTyped env) (he : environment env t e) (hg : HexBytes t.genesisRlp bytes)
    (hd : Rlp.decodeBlock bytes = .ok (genesis, rest)) (hc : CodeHash env.keccak pre) (hpre : Prescribes t.pre pre)
    (hsome : t.postStateHash = some text) (hr : HexWord 32 text root)
    (hk : ∀ b, initPreState env.keccak t.pre {} = .ok b → ∀ c, AllAsExpected e (Blockchain.new e b genesis) t.blocks c →
      HashOk env.keccak c.state) :
    ∃ b, initPreState env.keccak t.pre {} = .ok b ∧ SameAs b pre ∧
      (blockchainTest env t = .ok .passed ↔
        ∃ c, AllAsExpected e (Blockchain.new e b genesis) t.blocks c ∧
          stateRoot env.keccak (c.state.accounts.map fun a => (a.1, a.2, Trie.storageOf c.state a.1 a.2.incarnation)) = root) := by
  obtain ⟨b, h1, h2, h3⟩ := c128_init env.keccak t.pre pre hc hpre.accounts hpre.addresses hpre.slots
  refine ⟨b, h1, h3, ?_⟩
  rw [blockchainTest_passed he (genesisOf_ok.mpr ⟨bytes, rest, hg, hd⟩) h1]
  refine exists_congr fun c => and_congr_right fun hall => ?_
  have hb := chainStart_ok he ht h2 hall
  have hh := hk b h1 c hall
  obtain ⟨w, w1, w2, _⟩ := toArray_word hr
  unfold checkEnd
  rw [hsome]
  dsimp only
  rw [Trie.stateRootHash_spec hh.length hh.empty hb.keys hb.accounts (fun e _ => Trie.storageOf_ok hb.storage e.1 e.2.incarnation)
    hh.addresses hh.locations, hexValue_ok w1]
  rw [← w2]
  show (Outcome.ok (if _ ≠ toBytes32 w then TestStatus.failed else .passed) = .ok .passed) ↔ _ = toBytes32 w
  by_cases hroot : stateRoot env.keccak (c.state.accounts.map fun a => (a.1, a.2, Trie.storageOf c.state a.1 a.2.incarnation)) = toBytes32 w
  · rw [if_neg (by simpa using hroot)]
    exact ⟨fun _ => hroot, fun _ => rfl⟩
  · rw [if_pos hroot]
    exact ⟨fun h => (by cases h), fun h => absurd h hroot⟩

/-- C129: other seal engines are skipped before anything else is looked at but the genesis block and the network. -/
theorem c129_skipped (env : ChainEnv) (t : BlockchainTest) :
    blockchainTest env t = .ok .skipped ↔
      (∃ bytes genesis rest, HexBytes t.genesisRlp bytes ∧ Rlp.decodeBlock bytes = .ok (genesis, rest)) ∧
        (∃ config, kNetworkConfig.lookup t.network = some config) ∧ t.sealEngine ≠ "Ethash" ∧ t.sealEngine ≠ "NoProof" := by
  constructor
  · intro h
    unfold blockchainTest at h
    obtain ⟨g, h1, h⟩ := Trie.bind_ok.mp h
    obtain ⟨bytes, rest, h2, h3⟩ := genesisOf_ok.mp h1
    refine ⟨⟨bytes, g, rest, h2, h3⟩, ?_⟩
    split at h
    · cases h
    · rename_i config hcfg
      refine ⟨⟨config, hcfg⟩, ?_⟩
      split at h
      · rename_i hs
        unfold sealEngineOf at hs
        by_cases a : t.sealEngine = "Ethash"
        · rw [if_pos a] at hs; cases hs
        · by_cases b : t.sealEngine = "NoProof"
          · rw [if_neg a, if_pos b] at hs; cases hs
          · exact ⟨a, b⟩
      · obtain ⟨state, _, h⟩ := Trie.bind_ok.mp h
        dsimp only at h
        obtain ⟨r, h4, h⟩ := Trie.bind_ok.mp h
        split at h
        · unfold checkEnd at h
          split at h
          · obtain ⟨_, _, h⟩ := Trie.bind_ok.mp h
            obtain ⟨_, _, h⟩ := Trie.bind_ok.mp h
            split at h <;> cases h
          · obtain ⟨_, _, h⟩ := Trie.bind_ok.mp h
            split at h <;> cases h
        · exact absurd (Outcome.ok.inj h) (runBlocks_not_skipped h4)
  · rintro ⟨⟨bytes, g, rest, h2, h3⟩, ⟨config, h4⟩, h5, h6⟩
    unfold blockchainTest sealEngineOf
    rw [genesisOf_ok.mpr ⟨bytes, rest, h2, h3⟩, bindOk, h4, if_neg h5, if_neg h6]

/-- The text of a block. -/
def blockText (b : Block) : Bytes := toHex (rlp (blockItem b))

/-- Is it this exception? -/
def isLengthError {α : Type} : Outcome TestError α → Bool
  | .err .lengthError => true
  | _ => false

theorem isLengthError_iff {α : Type} {o : Outcome TestError α} (h : isLengthError o = true) : o = .err .lengthError := by
  unfold isLengthError at h
  split at h
  · rfl
  · cases h

/-- C129 is violated where a test contains a block that is canonical already: the program ends with an exception, without a verdict on
this test and without the results of others. -/
theorem c129_repeated_violated :
    runBlocks bcEnv (Blockchain.new bcEnv {} bcGenesis) [⟨blockText bcB1, none⟩, ⟨blockText bcB1, none⟩] = .err .lengthError :=
  isLengthError_iff (by decide +kernel)

/-- Only the status. -/
def statusOf {α : Type} : Outcome TestError (TestStatus × α) → Option TestStatus
  | .ok r => some r.1
  | _ => none

example : statusOf (runBlocks bcEnv (Blockchain.new bcEnv {} bcGenesis)
    [⟨blockText bcA1, none⟩, ⟨blockText bcB1, none⟩, ⟨blockText bcA2, none⟩, ⟨exText "0xzz", some (exText "x")⟩]) = some .passed := by
  decide +kernel
example : statusOf (runBlocks bcEnv (Blockchain.new bcEnv {} bcGenesis) [⟨blockText bcB2, some (exText "x")⟩]) = some .passed := by
  decide +kernel
example : statusOf (runBlocks bcEnv (Blockchain.new bcEnv {} bcGenesis) [⟨blockText bcB2, none⟩]) = some .failed := by decide +kernel
example : statusOf (runBlocks bcEnv (Blockchain.new bcEnv {} bcGenesis) [⟨blockText bcB1, some (exText "x")⟩]) = some .failed := by
  decide +kernel
example : statusOf (runBlocks bcEnv (Blockchain.new bcEnv {} bcGenesis) [⟨blockText bcB1 ++ exText "00", none⟩]) = some .failed := by
  decide +kernel
/-- The root in the block is wrong, which is noticed only if that is the expected exception. -/
example : statusOf (runBlocks bcEnv (Blockchain.new bcEnv {} bcGenesis) [⟨blockText bcB1, none⟩]) = some .passed ∧
    statusOf (runBlocks bcEnv (Blockchain.new bcEnv {} bcGenesis) [⟨blockText bcB1, some kInvalidStateRoot⟩]) = some .passed := by
  decide +kernel

/-- A test with one block, which sets the balance of an account to 5. -/
def exBlockTest : BlockchainTest :=
  { genesisRlp := blockText bcGenesis, network := "Frontier", sealEngine := "NoProof", pre := [exPreText], blocks := [⟨blockText bcB1, none⟩],
    postStateHash := none
    postState := [exPreText, ⟨exText "0x01", exText "0x05", exText "0x", exText "0x", []⟩] }

/-- With addresses of 20 bytes. -/
def exChainEnv : ChainEnv :=
  { bcEnv with
    execute := fun b x => .ok [.beginBlock x.header.number,
      .updateAccount (beFixed 20 1) (b.readAccount (beFixed 20 1)) (some { balance := x.header.timestamp % 2 ^ 64 })] }

example : blockchainTest exChainEnv exBlockTest = .ok .passed := by decide +kernel
example : blockchainTest exChainEnv { exBlockTest with postState := [exPreText] } = .ok .failed := by decide +kernel
example : blockchainTest exChainEnv { exBlockTest with sealEngine := "Clique" } = .ok .skipped := by decide +kernel
example : blockchainTest exChainEnv { exBlockTest with network := "Paris" } = .err .noNetwork := by decide +kernel

/-! ### Results -/

/-- How many tests of all files have a status; a file that cannot be read counts as one skipped test. -/
def countOf (s : TestStatus) (files : List (Option (List TestStatus))) : Nat :=
  (files.map fun f => (f.getD [.skipped]).count s).sum

/-- C129 about the exit status: the program succeeds exactly if no test failed. -/
def C129_exit_statement : Prop :=
  ∀ files : List (Option (List TestStatus)), exitStatus (runFiles files) = 0 ↔ ∀ l, some l ∈ files → .failed ∉ l

theorem runFile_counts (f : Option (List TestStatus)) :
    runFile f = { passed := (f.getD [.skipped]).count .passed % 2 ^ 64, failed := (f.getD [.skipped]).count .failed % 2 ^ 64,
                  skipped := (f.getD [.skipped]).count .skipped % 2 ^ 64 } := by
  have key : ∀ (l : List TestStatus) (r : RunResults), r.passed < 2 ^ 64 → r.failed < 2 ^ 64 → r.skipped < 2 ^ 64 →
      l.foldl RunResults.add r =
        { passed := (r.passed + l.count .passed) % 2 ^ 64, failed := (r.failed + l.count .failed) % 2 ^ 64,
          skipped := (r.skipped + l.count .skipped) % 2 ^ 64 } := by
    intro l
    induction l with
    | nil =>
      intro r h1 h2 h3
      simp only [List.foldl_nil, List.count_nil, Nat.add_zero, Nat.mod_eq_of_lt h1, Nat.mod_eq_of_lt h2, Nat.mod_eq_of_lt h3]
    | cons s l ih =>
      intro r h1 h2 h3
      rw [List.foldl_cons]
      have hm : ∀ n : Nat, n % 2 ^ 64 < 2 ^ 64 := fun n => Nat.mod_lt _ (by decide)
      cases s with
      | passed =>
        rw [RunResults.add, ih ⟨(r.passed + 1) % 2 ^ 64, r.failed, r.skipped⟩ (hm _) h2 h3]
        simp only [List.count_cons_self, List.count_cons_of_ne (show TestStatus.passed ≠ .failed from (by decide)),
          List.count_cons_of_ne (show TestStatus.passed ≠ .skipped from (by decide)), Nat.mod_add_mod]
        congr 2
        omega
      | failed =>
        rw [RunResults.add, ih ⟨r.passed, (r.failed + 1) % 2 ^ 64, r.skipped⟩ h1 (hm _) h3]
        simp only [List.count_cons_self, List.count_cons_of_ne (show TestStatus.failed ≠ .passed from (by decide)),
          List.count_cons_of_ne (show TestStatus.failed ≠ .skipped from (by decide)), Nat.mod_add_mod]
        congr 2
        omega
      | skipped =>
        rw [RunResults.add, ih ⟨r.passed, r.failed, (r.skipped + 1) % 2 ^ 64⟩ h1 h2 (hm _)]
        simp only [List.count_cons_self, List.count_cons_of_ne (show TestStatus.skipped ≠ .passed from (by decide)),
          List.count_cons_of_ne (show TestStatus.skipped ≠ .failed from (by decide)), Nat.mod_add_mod]
        congr 2
        omega
  cases f with
  | none => rfl
  | some l =>
    have := key l {} (by decide) (by decide) (by decide)
    simp only [Nat.zero_add] at this
    exact this

/-- C129: the results are the numbers of tests, as far as they fit. -/
theorem c129_counts (files : List (Option (List TestStatus))) :
    runFiles files = { passed := countOf .passed files % 2 ^ 64, failed := countOf .failed files % 2 ^ 64,
                       skipped := countOf .skipped files % 2 ^ 64 } := by
  have key : ∀ (l : List (Option (List TestStatus))) (r : RunResults), r.passed < 2 ^ 64 → r.failed < 2 ^ 64 → r.skipped < 2 ^ 64 →
      l.foldl (fun r f => r.plus (runFile f)) r =
        { passed := (r.passed + countOf .passed l) % 2 ^ 64, failed := (r.failed + countOf .failed l) % 2 ^ 64,
          skipped := (r.skipped + countOf .skipped l) % 2 ^ 64 } := by
    intro l
    induction l with
    | nil =>
      intro r h1 h2 h3
      have h0 : ∀ s, countOf s [] = 0 := fun _ => rfl
      simp only [List.foldl_nil, h0, Nat.add_zero, Nat.mod_eq_of_lt h1, Nat.mod_eq_of_lt h2, Nat.mod_eq_of_lt h3]
    | cons f l ih =>
      intro r h1 h2 h3
      have hm : ∀ n : Nat, n % 2 ^ 64 < 2 ^ 64 := fun n => Nat.mod_lt _ (by decide)
      have hc : ∀ s, countOf s (f :: l) = (f.getD [.skipped]).count s + countOf s l := fun _ => rfl
      rw [List.foldl_cons, ih _ (hm _) (hm _) (hm _), runFile_counts]
      simp only [RunResults.plus, hc, Nat.mod_add_mod, Nat.add_mod_mod, Nat.add_assoc]
  have := key files {} (by decide) (by decide) (by decide)
  simp only [Nat.zero_add] at this
  exact this

/-- C129 about the exit status, for fewer than 256 failures. -/
theorem c129_exit_partial (files : List (Option (List TestStatus))) (h : countOf .failed files < 256) :
    exitStatus (runFiles files) = 0 ↔ ∀ l, some l ∈ files → .failed ∉ l := by
  rw [c129_counts]
  show countOf .failed files % 2 ^ 64 % 256 = 0 ↔ _
  rw [Nat.mod_eq_of_lt (a := countOf .failed files) (b := 2 ^ 64) (by omega), Nat.mod_eq_of_lt h]
  unfold countOf
  rw [List.sum_eq_zero_iff_forall_eq_nat]
  constructor
  · intro h l hl
    exact List.count_eq_zero.mp (h _ (List.mem_map.mpr ⟨some l, hl, rfl⟩))
  · intro h n hn
    obtain ⟨f, hf, rfl⟩ := List.mem_map.mp hn
    cases f with
    | none => rfl
    | some l => exact List.count_eq_zero.mpr (h l hf)

/-- C129 is violated: with 256 failures the program says that it succeeded. -/
theorem c129_exit_violated : ¬ C129_exit_statement := by
  intro h
  have h1 := (h [some (List.replicate 256 .failed)]).mp (by decide +kernel)
  exact h1 _ (List.mem_singleton.mpr rfl) (by decide)

example : runFiles [some [.passed, .failed, .skipped, .passed], none, some [.failed]] = ⟨2, 2, 2⟩ := by decide
example : exitStatus (runFiles [some [.passed, .failed], none, some [.failed]]) = 2 := by decide

/-! ## C130: transactions -/

/-- What a test says about a transaction in a network holds. The text of the sender may have either spelling of the digits. -/
def Said (recover : Transaction → Transaction) (text : Bytes) (spelt : Bytes → Bytes → Prop) (e : String × Option Bytes) : Prop :=
  match e.2 with
  | some s => ∃ sender, ValidOn recover text e.1 sender ∧ spelt s sender
  | none => ∀ sender, ¬ ValidOn recover text e.1 sender

/-- C130 as stated: a test passes exactly if in every network the transaction is valid with this sender, or not valid. -/
def C130_statement : Prop :=
  ∀ (recover : Transaction → Transaction) (text : Bytes) (networks : List (String × Option Bytes)),
    (∀ e ∈ networks, ∃ config, kNetworkConfig.lookup e.1 = some config) →
    (∀ bytes, HexBytes text bytes → Rlp.decodeTransaction bytes ≠ .ub) →
    ∃ s, transactionTest recover text networks = .ok s ∧ (s = .passed ↔ ∀ e ∈ networks, Said recover text HexBytes e)

theorem lowerHex_iff {text bytes : Bytes} : LowerHex text bytes ↔ toHex bytes = text := by
  have hd : ("0123456789abcdef".toList.map fun c => UInt8.ofNat c.toNat) = hexDigits := by decide +kernel
  unfold LowerHex
  rw [hd, Trie.fromBe_eq]
  constructor
  · rintro ⟨h1, h2, h3⟩
    exact lower_inj (toHex_lower bytes) h1 (by rw [toHex_length, h2]) (by rw [toHex_number, h3])
  · rintro rfl
    exact ⟨toHex_lower bytes, toHex_length bytes, toHex_number bytes⟩

theorem transactionOf_spec {text : Bytes} (h : ∀ bytes, HexBytes text bytes → Rlp.decodeTransaction bytes ≠ .ub) :
    ∃ o, transactionOf text = .ok o ∧ ∀ t, o = some t ↔ ∃ bytes, HexBytes text bytes ∧ Rlp.decodeTransaction bytes = .ok (t, []) := by
  simp only [Genesis.hexBytes_iff] at h ⊢
  unfold transactionOf
  cases hf : fromHex text with
  | none => exact ⟨none, rfl, fun t => ⟨fun h => (by cases h), fun ⟨_, h, _⟩ => (by cases h)⟩⟩
  | some b =>
    dsimp only
    cases hd : Rlp.decodeTransaction b with
    | ub => exact absurd hd (h b hf)
    | err e =>
      refine ⟨none, rfl, fun t => ⟨fun h => (by cases h), fun ⟨b', h, h'⟩ => ?_⟩⟩
      cases h
      rw [hd] at h'
      cases h'
    | ok r =>
      refine ⟨_, rfl, fun t => ?_⟩
      by_cases hr : r.2 = []
      · rw [if_pos hr]
        constructor
        · intro e
          cases e
          exact ⟨b, rfl, by rw [hd, ← hr]⟩
        · rintro ⟨b', h, h'⟩
          cases h
          rw [hd] at h'
          rw [show r.1 = t from congrArg Prod.fst (Outcome.ok.inj h')]
      · rw [if_neg hr]
        refine ⟨fun h => (by cases h), fun ⟨b', h, h'⟩ => ?_⟩
        cases h
        rw [hd] at h'
        exact absurd (congrArg Prod.snd (Outcome.ok.inj h')) hr

/-- One network. -/
theorem checkNetwork_spec {recover : Transaction → Transaction} {text : Bytes} {o : Option Transaction}
    (ho : ∀ t, o = some t ↔ ∃ bytes, HexBytes text bytes ∧ Rlp.decodeTransaction bytes = .ok (t, [])) (e : String × Option Bytes)
    (hn : ∃ config, kNetworkConfig.lookup e.1 = some config) :
    (checkNetwork recover o e.1 e.2 = .ok none ∧ Said recover text LowerHex e) ∨
      (checkNetwork recover o e.1 e.2 = .ok (some .failed) ∧ ¬ Said recover text LowerHex e) := by
  obtain ⟨name, x⟩ := e
  obtain ⟨config, hc⟩ := hn
  have hc : kNetworkConfig.lookup name = some config := hc
  have hv : ∀ sender, ValidOn recover text name sender ↔
      ∃ t, o = some t ∧ preValidateTransaction t 0 config none = .ok () ∧ (recover t).sender = some sender := by
    intro sender
    unfold ValidOn
    constructor
    · rintro ⟨bytes, t, c, h1, h2, h3, h4, h5⟩
      rw [hc] at h3
      cases h3
      exact ⟨t, (ho t).mpr ⟨bytes, h1, h2⟩, h4, h5⟩
    · rintro ⟨t, h1, h2, h3⟩
      obtain ⟨bytes, h4, h5⟩ := (ho t).mp h1
      exact ⟨bytes, t, config, h4, h5, hc, h2, h3⟩
  unfold Said checkNetwork
  simp only [hv, lowerHex_iff]
  cases o with
  | none =>
    cases x with
    | none => exact Or.inl ⟨rfl, fun s ⟨_, h, _⟩ => (by cases h)⟩
    | some s => exact Or.inr ⟨rfl, fun ⟨_, ⟨_, h, _⟩, _⟩ => (by cases h)⟩
  | some t =>
    rw [hc]
    dsimp only
    cases hp : preValidateTransaction t 0 config none with
    | ub => exact (preValidateTransaction_ne_ub _ _ _ _ hp).elim
    | err z =>
      cases x with
      | none =>
        refine Or.inl ⟨rfl, fun s ⟨_, h, h', _⟩ => ?_⟩
        cases h
        rw [hp] at h'
        cases h'
      | some s =>
        refine Or.inr ⟨rfl, fun ⟨_, ⟨_, h, h', _⟩, _⟩ => ?_⟩
        cases h
        rw [hp] at h'
        cases h'
    | ok u =>
      dsimp only [senderOf]
      cases hs : (recover t).sender with
      | none =>
        cases x with
        | none =>
          refine Or.inl ⟨rfl, fun s ⟨_, h, _, h'⟩ => ?_⟩
          cases h
          rw [hs] at h'
          cases h'
        | some s =>
          refine Or.inr ⟨rfl, fun ⟨_, ⟨_, h, _, h'⟩, _⟩ => ?_⟩
          cases h
          rw [hs] at h'
          cases h'
      | some sender =>
        cases x with
        | none => exact Or.inr ⟨rfl, fun h => h sender ⟨t, rfl, hp, hs⟩⟩
        | some s =>
          dsimp only
          by_cases he : toHex sender = s
          · rw [if_neg (by simpa using he)]
            exact Or.inl ⟨rfl, sender, ⟨t, rfl, hp, hs⟩, he⟩
          · rw [if_pos he]
            refine Or.inr ⟨rfl, fun ⟨_, ⟨_, h, _, h'⟩, h2⟩ => ?_⟩
            cases h
            rw [hs] at h'
            cases h'
            exact he h2

/-- C130 for senders in small letters without "0x", which is how the tests spell them. Missing: other spellings. -/
theorem c130_networks_partial (recover : Transaction → Transaction) (text : Bytes) (networks : List (String × Option Bytes))
    (hn : ∀ e ∈ networks, ∃ config, kNetworkConfig.lookup e.1 = some config)
    (hu : ∀ bytes, HexBytes text bytes → Rlp.decodeTransaction bytes ≠ .ub) :
    ∃ s, transactionTest recover text networks = .ok s ∧ (s = .passed ↔ ∀ e ∈ networks, Said recover text LowerHex e) := by
  obtain ⟨o, h1, ho⟩ := transactionOf_spec hu
  unfold transactionTest
  rw [h1]
  show ∃ s, checkNetworks recover o networks = .ok s ∧ _
  induction networks with
  | nil => exact ⟨.passed, rfl, by simp⟩
  | cons e l ih =>
    obtain ⟨s, s1, s2⟩ := ih (fun e he => hn e (List.mem_cons_of_mem _ he))
    unfold checkNetworks
    rcases checkNetwork_spec (recover := recover) ho e (hn e (List.mem_cons_self ..)) with ⟨k1, k2⟩ | ⟨k1, k2⟩
    · rw [k1, bindOk]
      refine ⟨s, s1, s2.trans ⟨fun h x hx => ?_, fun h x hx => h x (List.mem_cons_of_mem _ hx)⟩⟩
      rcases List.mem_cons.mp hx with rfl | hx
      · exact k2
      · exact h x hx
    · rw [k1, bindOk]
      exact ⟨.failed, rfl, fun h => (by cases h), fun h => absurd (h e (List.mem_cons_self ..)) k2⟩

/-- C130: a transaction that can be decoded is an exception in a network that the program does not know, one that cannot is not. -/
theorem c130_unknown (recover : Transaction → Transaction) (text : Bytes) (name : String) (x : Option Bytes)
    (hn : kNetworkConfig.lookup name = none) (hu : ∀ bytes, HexBytes text bytes → Rlp.decodeTransaction bytes ≠ .ub) :
    transactionTest recover text [(name, x)] = .err .noNetwork ↔
      ∃ bytes t, HexBytes text bytes ∧ Rlp.decodeTransaction bytes = .ok (t, []) := by
  obtain ⟨o, h1, ho⟩ := transactionOf_spec hu
  unfold transactionTest
  rw [h1]
  show checkNetworks recover o [(name, x)] = _ ↔ _
  unfold checkNetworks checkNetwork
  cases o with
  | none =>
    constructor
    · intro h
      cases x <;> cases h
    · rintro ⟨b, t, h⟩
      cases (ho t).mpr ⟨b, h⟩
  | some t =>
    dsimp only
    rw [hn]
    obtain ⟨b, h⟩ := (ho t).mp rfl
    exact ⟨fun _ => ⟨b, t, h⟩, fun _ => rfl⟩

/-- A creation that costs a million units of gas at most, without a chain. -/
def exTestTx : Transaction := { gasLimit := 1000000, maxFeePerGas := 1, maxPriorityFeePerGas := 1, r := 1, s := 1 }

/-- The sender that is recovered in examples. -/
def exTestSender : Bytes := beFixed 20 0xabcdef

/-- Recovers it. -/
def exRecover (t : Transaction) : Transaction := { t with sender := some exTestSender }

/-- The text of the transaction. -/
def exTestText : Bytes := toHex (rlp (txItem exTestTx))

/-- C130 is violated for senders with "0x": the test fails. -/
theorem c130_spelling_violated : ¬ C130_statement := by
  intro h
  have hb : ∀ bytes, HexBytes exTestText bytes → bytes = rlp (txItem exTestTx) := by
    intro bytes hh
    have h1 : fromHex exTestText = some (rlp (txItem exTestTx)) := by decide +kernel
    rw [Genesis.hexBytes_iff, h1] at hh
    exact (Option.some.inj hh).symm
  have hd : Rlp.decodeTransaction (rlp (txItem exTestTx)) = .ok (exTestTx, []) := by decide +kernel
  have hc : kNetworkConfig.lookup "London" = some (network [0, 0, 0, 0, 0, 0, 0, 0, 0] (muirGlacier := some 0)) := by decide +kernel
  have hx : HexBytes exTestText (rlp (txItem exTestTx)) := (Genesis.hexBytes_iff ..).mpr (by decide +kernel)
  obtain ⟨s, s1, s2⟩ := h exRecover exTestText [("London", some (exText "0x" ++ toHex exTestSender))]
    (fun e he => by rw [List.mem_singleton.mp he]; exact ⟨_, hc⟩)
    (fun bytes hh => by rw [hb bytes hh, hd]; intro hu; cases hu)
  have h3 : transactionTest exRecover exTestText [("London", some (exText "0x" ++ toHex exTestSender))] = .ok .failed := by
    decide +kernel
  rw [h3] at s1
  cases s1
  refine absurd (s2.mpr fun e he => ?_) (by decide)
  rw [List.mem_singleton.mp he]
  exact ⟨exTestSender, ⟨_, exTestTx, _, hx, hd, hc, by decide +kernel, rfl⟩, (Genesis.hexBytes_iff ..).mpr (by decide +kernel)⟩

example : transactionTest exRecover exTestText [("Frontier", some (toHex exTestSender)), ("London", some (toHex exTestSender))] =
    .ok .passed := by decide +kernel
example : transactionTest exRecover exTestText [("Frontier", some (toHex exTestSender)), ("London", none)] = .ok .failed := by
  decide +kernel
example : transactionTest exRecover (toHex (rlp (txItem { exTestTx with chainId := some 1 }))) [("Frontier", none),
    ("London", some (toHex exTestSender))] = .ok .passed := by decide +kernel
example : transactionTest exRecover (exTestText ++ exText "00") [("Frontier", none), ("Unknown", none)] = .ok .passed := by
  decide +kernel
example : transactionTest exRecover exTestText [("Unknown", none)] = .err .noNetwork := by decide +kernel
/-- The hypothesis on the decoder (C12) is needed. -/
example : transactionTest exRecover (exText "0xc3808080") [("London", none)] = .ub := by decide +kernel

/-! ## C131: networks -/

/-- The network has these rules at this block. -/
def HasRules (name : String) (n rules : Nat) : Prop :=
  ∃ config, kNetworkConfig.lookup name = some config ∧ config.revision n = rules

/-- C131: a network with the name of a set of rules has these rules in every block. -/
theorem c131_rules : ∀ e ∈ rulesOf, ∀ n, HasRules e.1 n e.2 := by
  intro e he n
  unfold rulesOf at he
  simp only [List.mem_cons, List.not_mem_nil, or_false] at he
  rcases he with rfl | rfl | rfl | rfl | rfl | rfl | rfl | rfl | rfl | rfl | rfl <;>
    exact ⟨_, rfl, by simp [ChainConfig.revision, ChainConfig.revisionLoop, ChainConfig.forkReached, network, Revision.max,
      Revision.frontier]⟩

/-- C131: a network with the name of a transition has the rules of the first name before block 5 and those of the second from it on. -/
theorem c131_transitions : ∀ e ∈ transitions, ∀ x ∈ rulesOf, ∀ y ∈ rulesOf, x.1 = e.1 → y.1 = e.2 → ∀ n,
    HasRules (e.1 ++ "To" ++ e.2 ++ "At5") n (if n < 5 then x.2 else y.2) := by
  intro e he x hx y hy h1 h2 n
  have hn : ∀ a ∈ rulesOf, ∀ b ∈ rulesOf, a.1 = b.1 → a = b := by decide +kernel
  have key : ∀ (a b : Nat) (name : String), name = e.1 ++ "To" ++ e.2 ++ "At5" → (e.1, a) ∈ rulesOf → (e.2, b) ∈ rulesOf →
      HasRules name n (if n < 5 then a else b) → HasRules (e.1 ++ "To" ++ e.2 ++ "At5") n (if n < 5 then x.2 else y.2) := by
    intro a b name h3 h4 h5 h6
    rw [hn x hx _ h4 h1, hn y hy _ h5 h2, ← h3]
    exact h6
  unfold transitions at he
  simp only [List.mem_cons, List.not_mem_nil, or_false] at he
  rcases he with rfl | rfl | rfl | rfl | rfl
  · refine key 0 1 "FrontierToHomesteadAt5" (by decide +kernel) (by decide) (by decide) ⟨_, rfl, ?_⟩
    by_cases h5 : n < 5
    · simp [ChainConfig.revision, ChainConfig.revisionLoop, ChainConfig.forkReached, network, Revision.max, Revision.frontier, h5]
    · simp [ChainConfig.revision, ChainConfig.revisionLoop, ChainConfig.forkReached, network, Revision.max, h5, Nat.not_lt.mp h5]
  · refine key 1 2 "HomesteadToEIP150At5" (by decide +kernel) (by decide) (by decide) ⟨_, rfl, ?_⟩
    by_cases h5 : n < 5
    · simp [ChainConfig.revision, ChainConfig.revisionLoop, ChainConfig.forkReached, network, Revision.max, h5]
    · simp [ChainConfig.revision, ChainConfig.revisionLoop, ChainConfig.forkReached, network, Revision.max, h5, Nat.not_lt.mp h5]
  · refine key 3 4 "EIP158ToByzantiumAt5" (by decide +kernel) (by decide) (by decide) ⟨_, rfl, ?_⟩
    by_cases h5 : n < 5
    · simp [ChainConfig.revision, ChainConfig.revisionLoop, ChainConfig.forkReached, network, Revision.max, h5]
    · simp [ChainConfig.revision, ChainConfig.revisionLoop, ChainConfig.forkReached, network, Revision.max, h5, Nat.not_lt.mp h5]
  · refine key 4 6 "ByzantiumToConstantinopleFixAt5" (by decide +kernel) (by decide) (by decide) ⟨_, rfl, ?_⟩
    by_cases h5 : n < 5
    · simp [ChainConfig.revision, ChainConfig.revisionLoop, ChainConfig.forkReached, network, Revision.max, Nat.not_le.mpr h5]
    · simp [ChainConfig.revision, ChainConfig.revisionLoop, ChainConfig.forkReached, network, Revision.max, h5, Nat.not_lt.mp h5]
  · refine key 8 9 "BerlinToLondonAt5" (by decide +kernel) (by decide) (by decide) ⟨_, rfl, ?_⟩
    by_cases h5 : n < 5
    · simp [ChainConfig.revision, ChainConfig.revisionLoop, ChainConfig.forkReached, network, Revision.max, h5]
    · simp [ChainConfig.revision, ChainConfig.revisionLoop, ChainConfig.forkReached, network, Revision.max, h5, Nat.not_lt.mp h5]

/-- A network that is found is in the list. -/
theorem network_mem {name : String} {config : ChainConfig} (h : kNetworkConfig.lookup name = some config) :
    (name, config) ∈ kNetworkConfig := by
  obtain ⟨l, r, e, _⟩ := List.lookup_eq_some_iff.mp h
  rw [e]
  exact List.mem_append_right _ (List.mem_cons_self ..)

/-- C131: only one network has a block of the fork after the DAO, 5, and it has the rules of Homestead. -/
theorem c131_dao : (∀ n, HasRules "HomesteadToDaoAt5" n 1) ∧
    ∀ name config, kNetworkConfig.lookup name = some config → config.daoBlock = if name = "HomesteadToDaoAt5" then some 5 else none := by
  refine ⟨fun n => ⟨_, rfl, by simp [ChainConfig.revision, ChainConfig.revisionLoop, ChainConfig.forkReached, network,
    Revision.max]⟩, fun name config h => ?_⟩
  have := network_mem h
  have key : ∀ e ∈ kNetworkConfig, e.2.daoBlock = if e.1 = "HomesteadToDaoAt5" then some 5 else none := by decide +kernel
  exact key _ this

/-- C131: the delayed difficulty of Muir Glacier holds in the networks from Berlin on and in the one with the number of its proposal. -/
theorem c131_muir_glacier (name : String) (config : ChainConfig) (h : kNetworkConfig.lookup name = some config) :
    config.muirGlacierBlock = if name ∈ ["EIP2384", "Berlin", "London", "BerlinToLondonAt5"] then some 0 else none := by
  have key : ∀ e ∈ kNetworkConfig, e.2.muirGlacierBlock =
      if e.1 ∈ ["EIP2384", "Berlin", "London", "BerlinToLondonAt5"] then some 0 else none := by decide +kernel
  exact key _ (network_mem h)

/-- C131: there are no other networks, and all have the chain 1 and no proof of work unless a test says so. -/
theorem c131_names (name : String) :
    (∃ config, kNetworkConfig.lookup name = some config) ↔
      name ∈ rulesOf.map (·.1) ∨ name ∈ transitions.map (fun e => e.1 ++ "To" ++ e.2 ++ "At5") ∨ name = "HomesteadToDaoAt5" := by
  have h1 : ∀ e ∈ kNetworkConfig, e.1 ∈ rulesOf.map (·.1) ∨ e.1 ∈ transitions.map (fun e => e.1 ++ "To" ++ e.2 ++ "At5") ∨
      e.1 = "HomesteadToDaoAt5" := by decide +kernel
  have h2 : ∀ m ∈ rulesOf.map (·.1) ++ transitions.map (fun e => e.1 ++ "To" ++ e.2 ++ "At5") ++ ["HomesteadToDaoAt5"],
      (kNetworkConfig.lookup m).isSome := by decide +kernel
  constructor
  · rintro ⟨config, h⟩
    exact h1 _ (network_mem h)
  · intro h
    refine Option.isSome_iff_exists.mp (h2 name ?_)
    simp only [List.mem_append, List.mem_singleton]
    tauto

theorem c131_chain (name : String) (config : ChainConfig) (h : kNetworkConfig.lookup name = some config) :
    config.chainId = 1 ∧ config.sealEngine = .noProof ∧ ConfigWF config := by
  have key : ∀ e ∈ kNetworkConfig, e.2.chainId = 1 ∧ e.2.sealEngine = .noProof ∧ e.2.forkBlocks.length = 10 := by decide +kernel
  have k2 : ∀ e ∈ kNetworkConfig, ∀ b ∈ e.2.forkBlocks, b.getD 0 < 2 ^ 64 := by decide +kernel
  have hm := network_mem h
  obtain ⟨h1, h2, h3⟩ := key _ hm
  refine ⟨h1, h2, by rw [h1]; decide, h3, fun b hb => k2 _ hm _ hb, fun b hb => ?_, fun b hb => ?_⟩
  · rw [c131_muir_glacier _ _ h] at hb
    split at hb
    · cases hb
      decide
    · cases hb
  · rw [c131_dao.2 _ _ h] at hb
    split at hb
    · cases hb
      decide
    · cases hb

example : (kNetworkConfig.lookup "ByzantiumToConstantinopleFixAt5").map (fun c => (c.revision 4, c.revision 5, c.revision 1000000)) =
    some (4, 6, 6) := by decide +kernel

end Silkworm.Properties
