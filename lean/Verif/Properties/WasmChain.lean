import Verif.Properties.WasmState
import Verif.Properties.BlockchainState

/-!
# C158: chains of blocks through the WebAssembly functions
-/

namespace Silkworm.Properties

open Silkworm.Wasm
open Silkworm.Blockchain (ExecOk)
open Silkworm.Spec (Replay)

/-- Blocks that are put into the chain `ch`, with what is returned, among other calls. These change neither the chain, nor the state
`s`, nor the configuration that the chain refers to. -/
inductive Inserting (e : Env) (ch s : Nat) (cfg : Pointer) : Heap → List Call → List (Block × Bool) → List InsertResult → Heap → Prop
  | nil (h : Heap) : Inserting e ch s cfg h [] [] [] h
  | insert (h h' h'' : Heap) (b : Nat) (block : Block) (check : Bool) (r : InsertResult) (cs : List Call)
      (xs : List (Block × Bool)) (rs : List InsertResult) : h.objects.get? b = some (.block block) →
      step e h (.insertBlock (.object ch) (.object b) check) = .ok (h', .verdict r) → Inserting e ch s cfg h' cs xs rs h'' →
      Inserting e ch s cfg h (.insertBlock (.object ch) (.object b) check :: cs) ((block, check) :: xs) (r :: rs) h''
  | other (h h' h'' : Heap) (c : Call) (v : Value) (cs : List Call) (xs : List (Block × Bool)) (rs : List InsertResult) :
      step e h c = .ok (h', v) → h'.objects.get? ch = h.objects.get? ch → h'.objects.get? s = h.objects.get? s →
      h'.config cfg = h.config cfg → Inserting e ch s cfg h' cs xs rs h'' → Inserting e ch s cfg h (c :: cs) xs rs h''

/-- The pointer to a configuration: the beginning of an object or one of the networks. -/
theorem config_ref {h : Heap} {p : Pointer} {c : ChainConfig} (e : h.config p = .ok c) : refPointer (configRef p) = p := by
  unfold Heap.config at e
  split at e <;> first | contradiction | rfl

theorem config_put {h : Heap} {p : Pointer} {c : ChainConfig} {id : Nat} {o x : Object} (hc : h.config p = .ok c)
    (ho : h.objects.get? id = some x) (hx : ∀ c, x ≠ .config c) : (h.put id o).config p = .ok c := by
  unfold Heap.config at hc ⊢
  split at hc <;> try contradiction
  · exact hc
  · rename_i i
    have : i ≠ id := by
      rintro rfl
      rw [ho] at hc
      cases x <;> simp_all
    show (match (h.objects.set id o).get? i with
      | some (.config c) => _
      | _ => _) = _
    rw [AMap.get?_set, if_neg this]
    exact hc

theorem config_alloc {h : Heap} {p : Pointer} {c : ChainConfig} {o : Object} (hc : h.config p = .ok c)
    (hn : h.objects.get? h.next = none) : (h.alloc o).1.config p = .ok c := by
  unfold Heap.config at hc ⊢
  split at hc <;> try contradiction
  · exact hc
  · rename_i i
    have : i ≠ h.next := by
      rintro rfl
      rw [hn] at hc
      cases hc
    show (match (h.objects.set h.next o).get? i with
      | some (.config c) => _
      | _ => _) = _
    rw [AMap.get?_set, if_neg this]
    exact hc

theorem insert_step {e : Env} {h h' : Heap} {ch s b : Nat} {cfg : Pointer} {c : ChainConfig} {m : MemoryBuffer}
    {bad : AMap Bytes ValidationError} {block : Block} {check : Bool} {r : InsertResult}
    (hch : h.objects.get? ch = some (.chain s (configRef cfg) bad)) (hs : h.objects.get? s = some (.state m))
    (hc : h.config cfg = .ok c) (hb : h.objects.get? b = some (.block block))
    (st : step e h (.insertBlock (.object ch) (.object b) check) = .ok (h', .verdict r)) :
    ∃ m' bad', h'.objects.get? ch = some (.chain s (configRef cfg) bad') ∧ h'.objects.get? s = some (.state m') ∧
      h'.config cfg = .ok c ∧ Blockchain.insertBlock (e.chain c) ⟨m, bad⟩ block check = .ok (⟨m', bad'⟩, r) ∧
      h'.objects.get? b = some (.block (insertedBlock (e.chain c) ⟨m, bad⟩ block)) := by
  have h1 : h.chain (.object ch) = .ok (ch, s, configRef cfg, bad) := by simp [Heap.chain, Pointer.object, hch]
  have h2 : h.block (.object b) = .ok (b, block) := by simp [Heap.block, Pointer.object, hb]
  simp only [step, Wasm.insertBlock, h1, state_get hs, config_ref hc, hc, h2, Outcome.ok_bind] at st
  cases hi : Blockchain.insertBlock (e.chain c) ⟨m, bad⟩ block check with
  | ub => rw [hi] at st; cases st
  | err x => cases x
  | ok q =>
    rw [hi] at st
    cases st
    have n1 : ch ≠ b := by rintro rfl; rw [hch] at hb; cases hb
    have n2 : ch ≠ s := by rintro rfl; rw [hch] at hs; cases hs
    have n3 : s ≠ b := by rintro rfl; rw [hs] at hb; cases hb
    have g : ∀ (h : Heap) (i j : Nat) (o : Object), (h.put i o).objects.get? j = if j = i then some o else h.objects.get? j := by
      intro h i j o
      exact AMap.get?_set _ _ _ _
    refine ⟨q.1.state, q.1.badBlocks, ?_, ?_, ?_, rfl, ?_⟩
    · rw [g, if_pos rfl]
    · rw [g, if_neg n2.symm, g, if_pos rfl]
    · refine config_put (x := .chain s (configRef cfg) bad) (config_put (x := .state m) (config_put hc hb (by simp)) ?_ (by simp)) ?_ (by simp)
      · rw [g, if_neg n3]; exact hs
      · rw [g, if_neg n2, g, if_neg n1]; exact hch
    · rw [g, if_neg n1.symm, g, if_neg n3.symm, g, if_pos rfl]

theorem inserting_all {e : Env} {ch s : Nat} {cfg : Pointer} {h h' : Heap} {cs : List Call} {xs : List (Block × Bool)}
    {rs : List InsertResult} (hi : Inserting e ch s cfg h cs xs rs h') : ∀ {c : ChainConfig} {m : MemoryBuffer}
    {bad : AMap Bytes ValidationError}, h.objects.get? ch = some (.chain s (configRef cfg) bad) →
    h.objects.get? s = some (.state m) → h.config cfg = .ok c →
    ∃ m' bad', h'.objects.get? ch = some (.chain s (configRef cfg) bad') ∧ h'.objects.get? s = some (.state m') ∧
      Blockchain.insertAll (e.chain c) ⟨m, bad⟩ xs = .ok (⟨m', bad'⟩, rs) := by
  induction hi with
  | nil h => intro c m bad h1 h2 _; exact ⟨m, bad, h1, h2, rfl⟩
  | insert h h' h'' b block check r cs xs rs hb st _ ih =>
    intro c m bad h1 h2 h3
    obtain ⟨m1, bad1, g1, g2, g3, g4, _⟩ := insert_step h1 h2 h3 hb st
    obtain ⟨m2, bad2, k1, k2, k3⟩ := ih g1 g2 g3
    refine ⟨m2, bad2, k1, k2, ?_⟩
    simp only [Blockchain.insertAll, g4, Outcome.bind, k3]
  | other h h' h'' c v cs xs rs st e1 e2 e3 _ ih =>
    intro c m bad h1 h2 h3
    exact ih (e1.trans h1) (e2.trans h2) (e3.trans h3)

/-- The heap in which a chain begins. -/
theorem new_chain {e : Env} {h h' : Heap} {s g ch : Nat} {cfg : Pointer} {c : ChainConfig} {m : MemoryBuffer} {genesis : Block}
    (hf : h.objects.get? h.next = none) (hs : h.objects.get? s = some (.state m)) (hc : h.config cfg = .ok c)
    (hg : h.objects.get? g = some (.block genesis))
    (st : step e h (.newBlockchain (.object s) cfg (.object g)) = .ok (h', .pointer (.object ch))) :
    h'.objects.get? ch = some (.chain s (configRef cfg) []) ∧
      h'.objects.get? s = some (.state (Blockchain.new (e.chain c) m genesis).state) ∧ h'.config cfg = .ok c := by
  have h2 : h.block (.object g) = .ok (g, genesis) := by simp [Heap.block, Pointer.object, hg]
  simp only [step, Wasm.newBlockchain, state_get hs, hc, h2, Outcome.ok_bind, givesPointer] at st
  split at st <;> try contradiction
  cases st
  have n1 : s ≠ h.next := by rintro rfl; rw [hs] at hf; cases hf
  refine ⟨?_, ?_, ?_⟩
  · show ((h.objects.set s _).set h.next _).get? h.next = _
    rw [AMap.get?_set, if_pos rfl]
  · show ((h.objects.set s _).set h.next _).get? s = _
    rw [AMap.get?_set, if_neg n1, AMap.get?_set, if_pos rfl]
  · have hk := config_put (o := .state (Blockchain.new (e.chain c) m genesis).state) hc hs (by simp)
    have hn : (h.put s (.state (Blockchain.new (e.chain c) m genesis).state)).objects.get? h.next = none := by
      show (h.objects.set s _).get? h.next = none
      rw [AMap.get?_set, if_neg n1.symm]
      exact hf
    exact config_alloc hk hn

/-- C158: the chain that the host builds from a state without blocks is that of its blocks: the canonical blocks form a chain from
genesis, and it is the heaviest of those that were accepted. -/
theorem c158_heaviest (e : Env) (h0 h1 h2 : Heap) (s g ch : Nat) (cfg : Pointer) (c : ChainConfig) (m : MemoryBuffer) (genesis : Block)
    (cs : List Call) (xs : List (Block × Bool)) (rs : List InsertResult)
    (hf : h0.objects.get? h0.next = none) (hs : h0.objects.get? s = some (.state m)) (hn : NoBlocks m)
    (hc : h0.config cfg = .ok c) (hg : h0.objects.get? g = some (.block genesis))
    (st : step e h0 (.newBlockchain (.object s) cfg (.object g)) = .ok (h1, .pointer (.object ch)))
    (hi : Inserting e ch s cfg h1 cs xs rs h2) (hall : Offered e.keccak genesis.header (xs.map (·.1.header))) :
    ∃ m', h2.objects.get? s = some (.state m') ∧
      Spec.CanonicalChain (·.hash e.keccak) genesis.header (acceptedHeaders [genesis.header] xs rs) m'.canonicalHashes ∧
      ∃ head D n, m'.canonicalHashes.getLast? = some head ∧ m'.canonicalHashes.length = n + 1 ∧
        Spec.ChainTo (·.hash e.keccak) genesis.header (acceptedHeaders [genesis.header] xs rs) head D n ∧
        ∀ h d k, Spec.ChainTo (·.hash e.keccak) genesis.header (acceptedHeaders [genesis.header] xs rs) h d k → d ≤ D := by
  obtain ⟨g1, g2, g3⟩ := new_chain hf hs hc hg st
  obtain ⟨m', bad', _, k2, k3⟩ := inserting_all hi g1 g2 g3
  exact ⟨m', k2, c27_canonical_chain_heaviest (e.chain c) m genesis xs hn hall ⟨m', bad'⟩ rs k3⟩

/-- C158: and the state holds what the execution of the canonical blocks leaves of it, if no insertion failed with an exception. -/
theorem c158_state_partial (e : Env) (h0 h1 h2 : Heap) (s g ch : Nat) (cfg : Pointer) (c : ChainConfig) (m : MemoryBuffer)
    (genesis : Block) (cs : List Call) (xs : List (Block × Bool)) (rs : List InsertResult) (he : ExecOk (e.execute c))
    (hf : h0.objects.get? h0.next = none) (hs : h0.objects.get? s = some (.state m)) (hn : NoBlocks m)
    (hc : h0.config cfg = .ok c) (hg : h0.objects.get? g = some (.block genesis))
    (st : step e h0 (.newBlockchain (.object s) cfg (.object g)) = .ok (h1, .pointer (.object ch)))
    (hi : Inserting e ch s cfg h1 cs xs rs h2) (hall : Offered e.keccak genesis.header (xs.map (·.1.header)))
    (hr : .lengthError ∉ rs) :
    ∃ m' blocks b, h2.objects.get? s = some (.state m') ∧ Replay (e.execute c) m blocks b ∧
      (worldOf m').account = (worldOf b).account ∧ (worldOf m').storage = (worldOf b).storage ∧
      m'.canonicalHashes.length = blocks.length + 1 ∧
      ∀ i x, blocks[i]? = some x → ∃ h, m'.canonicalHashes[i + 1]? = some h ∧ m'.readHeader (i + 1) h = some x.header := by
  obtain ⟨g1, g2, g3⟩ := new_chain hf hs hc hg st
  obtain ⟨m', bad', _, k2, k3⟩ := inserting_all hi g1 g2 g3
  obtain ⟨blocks, b, r1, r2, r3, r4⟩ := c71_state_of_head_partial (e.chain c) he m genesis xs hn hall ⟨m', bad'⟩ rs k3 hr
  refine ⟨m', blocks, b, k2, r1, funext r2.1, ?_, r3, fun i x hx => ?_⟩
  · funext a n k
    exact r2.2 a n k
  · obtain ⟨h, _, q1, q2, _⟩ := r4 i x hx
    exact ⟨h, q1, q2⟩

/-- C158: after an insertion the block of the host has its senders, or is as before. Nothing else of it changes. -/
theorem c158_block_senders (e : Env) (h h' : Heap) (ch s b : Nat) (cfg : Pointer) (c : ChainConfig) (m : MemoryBuffer)
    (bad : AMap Bytes ValidationError) (block : Block) (check : Bool) (r : InsertResult)
    (hch : h.objects.get? ch = some (.chain s (configRef cfg) bad)) (hs : h.objects.get? s = some (.state m))
    (hc : h.config cfg = .ok c) (hb : h.objects.get? b = some (.block block))
    (st : step e h (.insertBlock (.object ch) (.object b) check) = .ok (h', .verdict r)) :
    ∃ block', h'.objects.get? b = some (.block block') ∧ block'.header = block.header ∧ block'.ommers = block.ommers ∧
      (block'.transactions = block.transactions ∨
        block'.transactions = block.transactions.map (Transaction.recoverSender e.keccak e.recover)) ∧
      (r = .ok → block'.transactions = block.transactions.map (Transaction.recoverSender e.keccak e.recover)) := by
  obtain ⟨m', bad', _, _, _, g4, g5⟩ := insert_step hch hs hc hb st
  refine ⟨_, g5, ?_⟩
  unfold Blockchain.insertBlock at g4
  unfold insertedBlock
  split
  · split
    · rename_i hv _ _ hbad
      refine ⟨rfl, rfl, .inl rfl, ?_⟩
      rintro rfl
      simp [hv, hbad] at g4
    · exact ⟨rfl, rfl, .inr rfl, fun _ => rfl⟩
  · rename_i hv
    refine ⟨rfl, rfl, .inl rfl, ?_⟩
    rintro rfl
    split at g4
    · cases g4
    · cases g4
    · rename_i hv'
      exact absurd hv' hv

/-! ## A chain of the host -/

/-- What the functions depend on, for examples of chains. -/
def wasmChainEnv : Env where
  keccak := polyHash
  listRoot := fun _ => List.replicate 32 7
  sealOk := fun _ => true
  recover := fun _ _ _ => none
  execute := fun _ => bcExecute
  memory := true

/-- A state, an address, an account of it, blocks and a configuration. -/
def wasmBlocks : Heap := ⟨[(0, .state {}), (1, .buffer (List.replicate 20 (some 1))), (2, .account { balance := 9 }),
  (3, .block bcGenesis), (4, .block bcA1), (5, .block bcB1), (6, .block bcB2), (7, .config {})], 8⟩

/-- C158 is violated if the host writes to the state after a block: an account is written as it is, and is gone after a heavier chain
takes the place of the block. Without this writing it is there. -/
theorem c158_written_between_violated :
    returned (session wasmChainEnv wasmBlocks [.updateAccount (.object 0) (.object 1) (.object 2),
      .newBlockchain (.object 0) (.object 7) (.object 3), .insertBlock (.object 8) (.object 4) false,
      .updateAccount (.object 0) (.object 1) (.object 2), .readAccount (.object 0) (.object 1),
      .insertBlock (.object 8) (.object 5) false, .insertBlock (.object 8) (.object 6) false, .readAccount (.object 0) (.object 1)]) =
      some [.unit, .pointer (.object 8), .verdict .ok, .unit, .pointer (.object 9), .verdict .ok, .verdict .ok, .pointer .null] ∧
    returned (session wasmChainEnv wasmBlocks [.updateAccount (.object 0) (.object 1) (.object 2),
      .newBlockchain (.object 0) (.object 7) (.object 3), .insertBlock (.object 8) (.object 4) false,
      .readAccount (.object 0) (.object 1),
      .insertBlock (.object 8) (.object 5) false, .insertBlock (.object 8) (.object 6) false, .readAccount (.object 0) (.object 1)]) =
      some [.unit, .pointer (.object 8), .verdict .ok, .pointer (.object 9), .verdict .ok, .verdict .ok, .pointer (.object 10)] := by
  decide +kernel

/-- The memory after a call. -/
def wasmAfter (h : Heap) (c : Call) : Heap :=
  match step wasmChainEnv h c with
  | .ok r => r.1
  | _ => h

/-- What a call returns. -/
def wasmValue (h : Heap) (c : Call) : Option Value :=
  match step wasmChainEnv h c with
  | .ok r => some r.2
  | _ => none

theorem wasmAfter_ok {h : Heap} {c : Call} {v : Value} (e : wasmValue h c = some v) :
    step wasmChainEnv h c = .ok (wasmAfter h c, v) := by
  unfold wasmValue at e
  unfold wasmAfter
  split at e
  · rename_i r hr
    cases e
    rw [hr]
  · cases e

/-- The header of the block with this number. -/
def wasmHeader (h : Heap) (b : Nat) : Option BlockHeader :=
  match h.objects.get? b with
  | some (.block x) => some x.header
  | _ => none

theorem wasmHeader_block {h : Heap} {b : Nat} {x : BlockHeader} (e : wasmHeader h b = some x) :
    ∃ block : Block, h.objects.get? b = some (.block block) ∧ block.header = x := by
  unfold wasmHeader at e
  split at e
  · rename_i y hy
    cases e
    exact ⟨y, hy, rfl⟩
  · cases e

-- Three blocks are inserted; between them the accounts are counted.
example : ∃ h1 h2 xs, step wasmChainEnv wasmBlocks (.newBlockchain (.object 0) (.object 7) (.object 3)) =
      .ok (h1, .pointer (.object 8)) ∧
    Inserting wasmChainEnv 8 0 (.object 7) h1 [.insertBlock (.object 8) (.object 4) false, .numberOfAccounts (.object 0),
      .insertBlock (.object 8) (.object 5) false, .insertBlock (.object 8) (.object 6) false] xs [.ok, .ok, .ok] h2 ∧
    xs.map (·.1.header) = [bcA1.header, bcB1.header, bcB2.header] := by
  let h1 := wasmAfter wasmBlocks (.newBlockchain (.object 0) (.object 7) (.object 3))
  let h2 := wasmAfter h1 (.insertBlock (.object 8) (.object 4) false)
  let h3 := wasmAfter h2 (.insertBlock (.object 8) (.object 5) false)
  let h4 := wasmAfter h3 (.insertBlock (.object 8) (.object 6) false)
  obtain ⟨b1, e1, f1⟩ := wasmHeader_block (h := h1) (b := 4) (x := bcA1.header) (by decide +kernel)
  obtain ⟨b2, e2, f2⟩ := wasmHeader_block (h := h2) (b := 5) (x := bcB1.header) (by decide +kernel)
  obtain ⟨b3, e3, f3⟩ := wasmHeader_block (h := h3) (b := 6) (x := bcB2.header) (by decide +kernel)
  have g : ∀ {h h' : Heap} {p : Pointer} {v : Value}, step wasmChainEnv h (.numberOfAccounts p) = .ok (h', v) → h' = h := by
    intro h h' p v e
    simp only [step] at e
    cases hp : h.state p with
    | ok x => rw [hp] at e; cases e; rfl
    | err x => cases x
    | ub => rw [hp] at e; cases e
  refine ⟨h1, h4, [(b1, false), (b2, false), (b3, false)], wasmAfter_ok (by decide +kernel), ?_, by simp [f1, f2, f3]⟩
  refine .insert h1 h2 h4 4 b1 false .ok _ _ _ e1 (wasmAfter_ok (by decide +kernel)) ?_
  refine .other h2 h2 h4 _ (.number 1) _ _ _ ?_ rfl rfl rfl ?_
  · have := wasmAfter_ok (h := h2) (c := .numberOfAccounts (.object 0)) (v := .number 1) (by decide +kernel)
    rw [g this] at this
    exact this
  refine .insert h2 h3 h4 5 b2 false .ok _ _ _ e2 (wasmAfter_ok (by decide +kernel)) ?_
  refine .insert h3 h4 h4 6 b3 false .ok _ _ _ e3 (wasmAfter_ok (by decide +kernel)) (.nil _)

end Silkworm.Properties
