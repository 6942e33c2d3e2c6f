import Verif.Chain.BlockchainTotal
import Verif.Properties.Blockchain

/-!
# Property C71: the state is that of the canonical chain
-/

namespace Silkworm.Properties

open Silkworm Silkworm.Blockchain
open Silkworm.Spec (ChainTo SameContents Replay)

/-- C71 (negation): inserting a block that is canonical already throws `std::length_error` after the changes of the later
blocks were unwound: the canonical head stays, the state is not that of the head any more. Here the block below the head is
inserted again; the account has the balance of that block, not of the head. -/
theorem c71_state_of_head_violated : ∃ c c' : Blockchain,
    Blockchain.insertAll bcEnv (Blockchain.new bcEnv {} bcGenesis) [(bcB1, false), (bcB2, false)] = .ok (c, [.ok, .ok]) ∧
    Blockchain.insertBlock bcEnv c bcB1 false = .ok (c', .lengthError) ∧
    c'.state.canonicalHashes = c.state.canonicalHashes ∧
    c.state.readAccount [1] = some ⟨0, 9, kEmptyHash, 0⟩ ∧ c'.state.readAccount [1] = some ⟨0, 5, kEmptyHash, 0⟩ := by
  have h : (Blockchain.insertAll bcEnv (Blockchain.new bcEnv {} bcGenesis) [(bcB1, false), (bcB2, false)]).bind (fun r =>
      (Blockchain.insertBlock bcEnv r.1 bcB1 false).bind (fun q =>
        .ok (r.2, q.2, decide (q.1.state.canonicalHashes = r.1.state.canonicalHashes), r.1.state.readAccount [1],
          q.1.state.readAccount [1]))) =
      .ok ([.ok, .ok], .lengthError, true, some ⟨0, 9, kEmptyHash, 0⟩, some ⟨0, 5, kEmptyHash, 0⟩) := by decide +kernel
  obtain ⟨⟨c, rs⟩, h1, h⟩ := Trie.bind_ok.mp h
  obtain ⟨⟨c', r⟩, h2, h⟩ := Trie.bind_ok.mp h
  simp only [Outcome.ok.injEq, Prod.mk.injEq, decide_eq_true_eq] at h
  obtain ⟨rfl, rfl, h3, h4, h5⟩ := h
  exact ⟨c, c', h1, h2, h3, h4, h5⟩

theorem trace_replay {execute : MemoryBuffer → Block → Outcome ValidationError (List BufferCall)} {start s : MemoryBuffer}
    {fs : List Frame} (t : Blockchain.Trace execute start fs s) : Replay execute start (fs.map (·.block)) s := by
  induction t with
  | nil => exact .nil
  | snoc fs s f t h1 h2 h3 ih =>
    rw [List.map_append]
    exact .snoc _ _ _ _ ih h2

/-- The invariants hold after each sequence of insertions that return. -/
theorem insertAll_kept {env : ChainEnv} (he : ExecOk env.execute) {g : BlockHeader} {all A : List BlockHeader}
    (hall : Offered env.keccak g all) (hA : ∀ y ∈ A, y ∈ g :: all) {xs : List (Block × Bool)}
    (hxs : ∀ x ∈ xs, x.1.header ∈ g :: all) {start : MemoryBuffer} {c c' : Blockchain} {rs : List InsertResult}
    (i : Inv (·.hash env.keccak) g A c.state) (hk : Kept env start c.state)
    (e : Blockchain.insertAll env c xs = .ok (c', rs)) (hr : .lengthError ∉ rs) : Kept env start c'.state := by
  have hnum : ∀ y ∈ g :: all, y.number < 2 ^ 64 - 1 := by
    intro y hy
    rcases List.mem_cons.mp hy with rfl | hy
    · rw [hall.genesisNumber]; decide
    · exact hall.numbers y hy
  induction xs generalizing c A rs with
  | nil =>
    injection e with e
    injection e with e1 e2
    subst e1
    exact hk
  | cons x xs ih =>
    unfold Blockchain.insertAll at e
    obtain ⟨⟨c1, r⟩, e1, e⟩ := Trie.bind_ok.mp e
    obtain ⟨⟨c2, rs'⟩, e2, e⟩ := Trie.bind_ok.mp e
    injection e with e
    injection e with e3 e4
    subst e3 e4
    have hx := hxs x List.mem_cons_self
    have st := insertBlock_step i (fun y hy => hnum y (hA y hy)) (hnum _ hx)
      (fun y hy hh => hall.noCollision y (hA y hy) x.1.header hx hh)
      (fun h d n ch => hall.difficulty h d n (ChainTo.mono (fun y hy => by
        rcases List.mem_cons.mp hy with rfl | hy
        · exact hx
        · exact hA y hy) ch)) e1
    have hk1 := insertBlock_kept he i (fun y hy => hnum y (hA y hy)) (hnum _ hx) hk e1
      (fun h => hr (by rw [show r = _ from h]; exact List.mem_cons_self))
    refine ih ?_ (fun z hz => hxs z (List.mem_cons_of_mem _ hz)) st.inv hk1 e2
      (fun h => hr (List.mem_cons_of_mem _ h))
    intro y hy
    by_cases hr : r = .ok
    · rw [if_pos hr] at hy
      rcases List.mem_cons.mp hy with rfl | hy
      · exact hx
      · exact hA y hy
    · rw [if_neg hr] at hy
      exact hA y hy

theorem new_kept (env : ChainEnv) (state : MemoryBuffer) (genesis : Block) (hs : NoBlocks state)
    (h0 : genesis.header.number = 0) : Kept env state (Blockchain.new env state genesis).state := by
  refine ⟨[], state, .nil, ⟨⟨fun _ => rfl, fun _ _ _ => rfl⟩, fun i f h => (by cases h)⟩, ⟨genesis.header.hash env.keccak, ?_⟩,
    fun i f h => (by cases h)⟩
  show (state.canonicalHashes ++ List.replicate (genesis.header.number + 1 - state.canonicalHashes.length) zero32).set
    genesis.header.number (genesis.header.hash env.keccak) = _
  rw [h0, hs.2.2.2]
  rfl

/-- C71, partial: if no insertion throws, then after every sequence of insertions the accounts and storage values are those
that execution of the stored canonical blocks, one after the other from the initial state, leads to. Assumed of execution:
it records what it changes under the number of the block, and depends on accounts and storage values only. The full
statement, with insertions that throw, is false: `c71_state_of_head_violated`. -/
theorem c71_state_of_head_partial (env : ChainEnv) (he : ExecOk env.execute) (state : MemoryBuffer) (genesis : Block)
    (xs : List (Block × Bool)) (hs : NoBlocks state)
    (hall : Offered env.keccak genesis.header (xs.map (·.1.header))) (c : Blockchain) (rs : List InsertResult)
    (e : Blockchain.insertAll env (Blockchain.new env state genesis) xs = .ok (c, rs)) (hr : .lengthError ∉ rs) :
    ∃ blocks b, Replay env.execute state blocks b ∧ SameContents c.state b ∧
      c.state.canonicalHashes.length = blocks.length + 1 ∧
      ∀ i x, blocks[i]? = some x → ∃ h body, c.state.canonicalHashes[i + 1]? = some h ∧
        c.state.readHeader (i + 1) h = some x.header ∧ c.state.readBody (i + 1) h = some body ∧
        x.transactions = body.transactions ∧ x.ommers = body.ommers := by
  have hin : ∀ x ∈ xs, x.1.header ∈ genesis.header :: xs.map (·.1.header) :=
    fun x hx => List.mem_cons_of_mem _ (List.mem_map_of_mem hx)
  have hA0 : ∀ y ∈ [genesis.header], y ∈ genesis.header :: xs.map (·.1.header) :=
    fun y hy => by rw [List.mem_singleton.mp hy]; exact List.mem_cons_self
  obtain ⟨fs, s, t, g, st⟩ := insertAll_kept he hall hA0 hin (new_inv env state genesis hs hall)
    (new_kept env state genesis hs hall.genesisNumber) e hr
  obtain ⟨h0, hcan⟩ := st.1
  refine ⟨fs.map (·.block), s, trace_replay t, g.contents, by rw [hcan]; simp, ?_⟩
  intro i x hx
  rw [List.getElem?_map] at hx
  obtain ⟨f, hf, rfl⟩ := Option.map_eq_some_iff.mp hx
  have hsb := st.2 i f hf
  unfold storedBlock at hsb
  cases h1 : c.state.readBody (i + 1) f.hash with
  | none => rw [h1] at hsb; cases hsb
  | some body =>
    cases h2 : c.state.readHeader (i + 1) f.hash with
    | none => rw [h1, h2] at hsb; cases hsb
    | some header =>
      rw [h1, h2] at hsb
      injection hsb with hsb
      refine ⟨f.hash, body, ?_, ?_, h1, by rw [← hsb], by rw [← hsb]⟩
      · rw [hcan, List.getElem?_cons_succ, List.getElem?_map, hf]; rfl
      · rw [h2, ← hsb]

/-- C71: under the same assumptions no insertion (without the check of the state root) runs into undefined behaviour: no
empty optional is dereferenced and executing the canonical blocks again never fails, as long as validation and execution
themselves are defined. -/
theorem c71_insert_total (env : ChainEnv) (he : ExecOk env.execute) (hu : ∀ b x, env.execute b x ≠ .ub)
    (state : MemoryBuffer) (genesis : Block) (xs : List (Block × Bool)) (x : Block) (hs : NoBlocks state)
    (hall : Offered env.keccak genesis.header (x.header :: xs.map (·.1.header))) (c : Blockchain) (rs : List InsertResult)
    (e : Blockchain.insertAll env (Blockchain.new env state genesis) xs = .ok (c, rs)) (hr : .lengthError ∉ rs)
    (hv : preValidateBlock env.keccak env.listRoot env.sealOk x c.state.headerStore env.config ≠ .ub) :
    ∃ c' r, Blockchain.insertBlock env c x false = .ok (c', r) := by
  have hin : ∀ y ∈ xs, y.1.header ∈ genesis.header :: x.header :: xs.map (·.1.header) :=
    fun y hy => List.mem_cons_of_mem _ (List.mem_cons_of_mem _ (List.mem_map_of_mem hy))
  have hA0 : ∀ y ∈ [genesis.header], y ∈ genesis.header :: x.header :: xs.map (·.1.header) :=
    fun y hy => by rw [List.mem_singleton.mp hy]; exact List.mem_cons_self
  have i0 := new_inv env state genesis hs hall
  have i := insertAll_inv hall hA0 hin i0 e
  have hk := insertAll_kept he hall hA0 hin i0 (new_kept env state genesis hs hall.genesisNumber) e hr
  have hsub := acceptedHeaders_sub _ _ xs rs hA0 hin
  have hnum : ∀ y ∈ genesis.header :: x.header :: xs.map (·.1.header), y.number < 2 ^ 64 - 1 := by
    intro y hy
    rcases List.mem_cons.mp hy with rfl | hy
    · rw [hall.genesisNumber]; decide
    · exact hall.numbers y hy
  have hx : x.header ∈ genesis.header :: x.header :: xs.map (·.1.header) := List.mem_cons_of_mem _ List.mem_cons_self
  obtain ⟨⟨c', r⟩, h⟩ := insertBlock_total he hu i (fun y hy => hnum y (hsub y hy))
    (acceptedHeaders_old _ xs rs _ (List.mem_singleton.mpr rfl)) hall.genesisNumber
    (fun y hy z hz hh => hall.noCollision y (hsub y hy) z (hsub z hz) hh) (hnum _ hx)
    (fun y hy hh => hall.noCollision y (hsub y hy) x.header hx hh)
    (fun h d n ch => hall.difficulty h d n (ChainTo.mono (fun y hy => by
      rcases List.mem_cons.mp hy with rfl | hy
      · exact hx
      · exact hsub y hy) ch)) hk hv
  exact ⟨c', r, h⟩

/-- The execution of the examples satisfies the assumptions. -/
theorem bcExecute_ok : ExecOk bcExecute := by
  refine ⟨fun b x calls e => ?_, fun b b' x h => ?_⟩
  · injection e with e
    subst e
    refine ⟨_, rfl, fun c hc => ?_⟩
    rw [List.mem_singleton.mp hc]
    rfl
  · unfold bcExecute
    rw [h.1]

/-- A reorganisation in which an execution fails: the block with the time stamp 35 is invalid for this execution. -/
def bcFail : ChainEnv :=
  { bcEnv with execute := fun b x => if x.header.timestamp = 35 then .err .wrongBlockGas else bcExecute b x }

example : (Blockchain.insertAll bcFail (Blockchain.new bcFail {} bcGenesis)
      [(bcA1, false), (bcB1, false), (bcA2, false), (bcA2, false)]).bind
        (fun r => .ok (r.2, r.1.state.canonicalHashes, r.1.state.readAccount [1])) =
    .ok ([.ok, .ok, .invalid .wrongBlockGas, .invalid .wrongBlockGas],
      [bcGenesis.header.hash polyHash, bcB1.header.hash polyHash], some ⟨0, 5, kEmptyHash, 0⟩) := by decide +kernel

end Silkworm.Properties
