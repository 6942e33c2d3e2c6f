import Verif.Chain.BlockchainLemmas

/-!
# Property C27: the canonical chain is the heaviest
-/

namespace Silkworm.Properties

open Silkworm Silkworm.Blockchain
open Silkworm.Spec (ChainTo CanonicalChain)

/-- The headers accepted so far, newest first: `A` and those of the blocks for which `insert_block` returned `kOk`. -/
def acceptedHeaders (A : List BlockHeader) : List (Block × Bool) → List InsertResult → List BlockHeader
  | x :: xs, r :: rs => acceptedHeaders (if r = .ok then x.1.header :: A else A) xs rs
  | _, _ => A

/-- A memory buffer without blocks. -/
def NoBlocks (b : MemoryBuffer) : Prop :=
  b.headers = [] ∧ b.bodies = [] ∧ b.difficulty = [] ∧ b.canonicalHashes = []

/-- Conditions on the blocks offered to a chain: numbers below the largest 64-bit value, no two different headers with the
same hash, and no chain with a total difficulty of 2^256 or more. -/
structure Offered (keccak : Bytes → Bytes) (genesis : BlockHeader) (headers : List BlockHeader) : Prop where
  genesisNumber : genesis.number = 0
  numbers : ∀ x ∈ headers, x.number < 2 ^ 64 - 1
  noCollision : ∀ x ∈ genesis :: headers, ∀ y ∈ genesis :: headers, x.hash keccak = y.hash keccak → x = y
  difficulty : ∀ h d n, ChainTo (·.hash keccak) genesis (genesis :: headers) h d n → d < 2 ^ 256

theorem acceptedHeaders_sub (all : List BlockHeader) (A : List BlockHeader) (xs : List (Block × Bool)) (rs : List InsertResult)
    (hA : ∀ y ∈ A, y ∈ all) (hxs : ∀ x ∈ xs, x.1.header ∈ all) : ∀ y ∈ acceptedHeaders A xs rs, y ∈ all := by
  induction xs generalizing A rs with
  | nil => unfold acceptedHeaders; exact hA
  | cons x xs ih =>
    cases rs with
    | nil => unfold acceptedHeaders; exact hA
    | cons r rs =>
      unfold acceptedHeaders
      apply ih
      · intro y hy
        by_cases hr : r = .ok
        · rw [if_pos hr] at hy
          rcases List.mem_cons.mp hy with rfl | hy
          · exact hxs x List.mem_cons_self
          · exact hA y hy
        · rw [if_neg hr] at hy; exact hA y hy
      · exact fun z hz => hxs z (List.mem_cons_of_mem _ hz)

theorem acceptedHeaders_old (A : List BlockHeader) (xs : List (Block × Bool)) (rs : List InsertResult) :
    ∀ y ∈ A, y ∈ acceptedHeaders A xs rs := by
  induction xs generalizing A rs with
  | nil => unfold acceptedHeaders; exact fun y hy => hy
  | cons x xs ih =>
    cases rs with
    | nil => unfold acceptedHeaders; exact fun y hy => hy
    | cons r rs =>
      unfold acceptedHeaders
      intro y hy
      apply ih
      by_cases hr : r = .ok
      · rw [if_pos hr]; exact List.mem_cons_of_mem _ hy
      · rw [if_neg hr]; exact hy

/-- The invariant holds after each sequence of insertions. -/
theorem insertAll_inv {env : ChainEnv} {g : BlockHeader} {all A : List BlockHeader} (hall : Offered env.keccak g all)
    (hA : ∀ y ∈ A, y ∈ g :: all) {xs : List (Block × Bool)} (hxs : ∀ x ∈ xs, x.1.header ∈ g :: all)
    {c c' : Blockchain} {rs : List InsertResult} (i : Inv (·.hash env.keccak) g A c.state)
    (e : Blockchain.insertAll env c xs = .ok (c', rs)) :
    Inv (·.hash env.keccak) g (acceptedHeaders A xs rs) c'.state := by
  have hnum : ∀ y ∈ g :: all, y.number < 2 ^ 64 - 1 := by
    intro y hy
    rcases List.mem_cons.mp hy with rfl | hy
    · rw [hall.genesisNumber]; decide
    · exact hall.numbers y hy
  induction xs generalizing c A rs with
  | nil =>
    injection e with e
    injection e with e1 e2
    subst e1 e2
    exact i
  | cons x xs ih =>
    unfold Blockchain.insertAll at e
    obtain ⟨⟨c1, r⟩, e1, e⟩ := Trie.bind_ok.mp e
    obtain ⟨⟨c2, rs'⟩, e2, e⟩ := Trie.bind_ok.mp e
    injection e with e
    injection e with e3 e4
    subst e3 e4
    unfold acceptedHeaders
    have hx := hxs x List.mem_cons_self
    have st := insertBlock_step i (fun y hy => hnum y (hA y hy)) (hnum _ hx)
      (fun y hy hh => hall.noCollision y (hA y hy) x.1.header hx hh)
      (fun h d n ch => hall.difficulty h d n (ChainTo.mono (fun y hy => by
        rcases List.mem_cons.mp hy with rfl | hy
        · exact hx
        · exact hA y hy) ch)) e1
    refine ih ?_ (fun z hz => hxs z (List.mem_cons_of_mem _ hz)) st.inv e2
    intro y hy
    by_cases hr : r = .ok
    · dsimp only at hy
      rw [if_pos hr] at hy
      rcases List.mem_cons.mp hy with rfl | hy
      · exact hx
      · exact hA y hy
    · dsimp only at hy
      rw [if_neg hr] at hy
      exact hA y hy

theorem new_inv (env : ChainEnv) (state : MemoryBuffer) (genesis : Block) (hs : NoBlocks state)
    {all : List BlockHeader} (hall : Offered env.keccak genesis.header all) :
    Inv (·.hash env.keccak) genesis.header [genesis.header] (Blockchain.new env state genesis).state :=
  Inv.init (·.hash env.keccak) genesis state hall.genesisNumber hs.1 hs.2.1 hs.2.2.1 hs.2.2.2
    (hall.difficulty _ _ _ .genesis)

/-- C27: after every sequence of insertions that does not run into undefined behaviour, whatever execution does, the
canonical hashes form one chain of accepted blocks from the genesis block on, and no chain of accepted blocks has a total
difficulty greater than that of the canonical head. -/
theorem c27_canonical_chain_heaviest (env : ChainEnv) (state : MemoryBuffer) (genesis : Block) (xs : List (Block × Bool))
    (hs : NoBlocks state) (hall : Offered env.keccak genesis.header (xs.map (·.1.header)))
    (c : Blockchain) (rs : List InsertResult)
    (e : Blockchain.insertAll env (Blockchain.new env state genesis) xs = .ok (c, rs)) :
    CanonicalChain (·.hash env.keccak) genesis.header (acceptedHeaders [genesis.header] xs rs) c.state.canonicalHashes ∧
    ∃ head D n, c.state.canonicalHashes.getLast? = some head ∧ c.state.canonicalHashes.length = n + 1 ∧
      ChainTo (·.hash env.keccak) genesis.header (acceptedHeaders [genesis.header] xs rs) head D n ∧
      ∀ h d m, ChainTo (·.hash env.keccak) genesis.header (acceptedHeaders [genesis.header] xs rs) h d m → d ≤ D := by
  have hin : ∀ x ∈ xs, x.1.header ∈ genesis.header :: xs.map (·.1.header) :=
    fun x hx => List.mem_cons_of_mem _ (List.mem_map_of_mem hx)
  have hA0 : ∀ y ∈ [genesis.header], y ∈ genesis.header :: xs.map (·.1.header) :=
    fun y hy => by rw [List.mem_singleton.mp hy]; exact List.mem_cons_self
  have i := insertAll_inv hall hA0 hin (new_inv env state genesis hs hall) e
  have hsub := acceptedHeaders_sub _ _ xs rs hA0 hin
  have hg : genesis.header ∈ acceptedHeaders [genesis.header] xs rs :=
    acceptedHeaders_old _ xs rs _ (List.mem_singleton.mpr rfl)
  generalize acceptedHeaders [genesis.header] xs rs = A at *
  refine ⟨i.canon, ?_⟩
  obtain ⟨z, hz, D, z1, z2, z3, z4⟩ := i.heavy
  obtain ⟨D', w1, w2⟩ := i.td z hz
  rw [z3] at w1
  obtain rfl := Option.some.inj w1
  refine ⟨z.hash env.keccak, D, z.number, ?_, z1, w2, ?_⟩
  · rw [List.getLast?_eq_getElem?, z1, Nat.add_sub_cancel]; exact z2
  · intro h d m ch
    obtain ⟨y, hy, rfl, rfl⟩ := ChainTo.last hg ch
    obtain ⟨d', v1, v2⟩ := i.td y hy
    have := ChainTo.unique hg hall.genesisNumber
      (fun a ha b hb hh => hall.noCollision a (hsub a ha) b (hsub b hb) hh) ch v2
    rw [this.1]
    exact z4 y hy d' v1

/-- C27: the recorded total difficulty of each accepted block is the sum of the difficulties of its chain. -/
theorem c27_total_difficulty (env : ChainEnv) (state : MemoryBuffer) (genesis : Block) (xs : List (Block × Bool))
    (hs : NoBlocks state) (hall : Offered env.keccak genesis.header (xs.map (·.1.header)))
    (c : Blockchain) (rs : List InsertResult)
    (e : Blockchain.insertAll env (Blockchain.new env state genesis) xs = .ok (c, rs))
    (x : BlockHeader) (hx : x ∈ acceptedHeaders [genesis.header] xs rs) :
    ∃ d, c.state.totalDifficulty x.number (x.hash env.keccak) = some d ∧
      ChainTo (·.hash env.keccak) genesis.header (acceptedHeaders [genesis.header] xs rs) (x.hash env.keccak) d x.number ∧
      c.state.readHeader x.number (x.hash env.keccak) = some x := by
  have hin : ∀ x ∈ xs, x.1.header ∈ genesis.header :: xs.map (·.1.header) :=
    fun x hx => List.mem_cons_of_mem _ (List.mem_map_of_mem hx)
  have hA0 : ∀ y ∈ [genesis.header], y ∈ genesis.header :: xs.map (·.1.header) :=
    fun y hy => by rw [List.mem_singleton.mp hy]; exact List.mem_cons_self
  have i := insertAll_inv hall hA0 hin (new_inv env state genesis hs hall) e
  obtain ⟨d, h1, h2⟩ := i.td x hx
  exact ⟨d, h1, h2, (i.headers _ _ _).mpr ⟨hx, rfl, rfl⟩⟩

/-- C27: the canonical hashes change only if the inserted block is accepted and its chain is strictly heavier than the chain
of the old head; it is then the new head. A block that is not accepted changes no stored block and no canonical hash. -/
theorem c27_head_changes (env : ChainEnv) (state : MemoryBuffer) (genesis : Block) (xs : List (Block × Bool)) (x : Block)
    (check : Bool) (hs : NoBlocks state) (hall : Offered env.keccak genesis.header (x.header :: xs.map (·.1.header)))
    (c c' : Blockchain) (rs : List InsertResult) (r : InsertResult)
    (e : Blockchain.insertAll env (Blockchain.new env state genesis) xs = .ok (c, rs))
    (e' : Blockchain.insertBlock env c x check = .ok (c', r)) :
    (c'.state.canonicalHashes ≠ c.state.canonicalHashes →
      r = .ok ∧ c'.state.canonicalHashes.getLast? = some (x.header.hash env.keccak) ∧
      ∃ old d D, c.state.canonicalHashes.getLast? = some old ∧
        c'.state.totalDifficulty (c.state.canonicalHashes.length - 1) old = some D ∧
        c'.state.totalDifficulty x.header.number (x.header.hash env.keccak) = some d ∧ D < d) ∧
    (r ≠ .ok → c'.state.headers = c.state.headers ∧ c'.state.bodies = c.state.bodies ∧
      c'.state.difficulty = c.state.difficulty ∧ c'.state.canonicalHashes = c.state.canonicalHashes) := by
  have hin : ∀ y ∈ xs, y.1.header ∈ genesis.header :: x.header :: xs.map (·.1.header) :=
    fun y hy => List.mem_cons_of_mem _ (List.mem_cons_of_mem _ (List.mem_map_of_mem hy))
  have hA0 : ∀ y ∈ [genesis.header], y ∈ genesis.header :: x.header :: xs.map (·.1.header) :=
    fun y hy => by rw [List.mem_singleton.mp hy]; exact List.mem_cons_self
  have i := insertAll_inv hall hA0 hin (new_inv env state genesis hs hall) e
  have hsub := acceptedHeaders_sub _ _ xs rs hA0 hin
  have hnum : ∀ y ∈ genesis.header :: x.header :: xs.map (·.1.header), y.number < 2 ^ 64 - 1 := by
    intro y hy
    rcases List.mem_cons.mp hy with rfl | hy
    · rw [hall.genesisNumber]; decide
    · exact hall.numbers y hy
  have hx : x.header ∈ genesis.header :: x.header :: xs.map (·.1.header) := List.mem_cons_of_mem _ List.mem_cons_self
  have st := insertBlock_step i (fun y hy => hnum y (hsub y hy)) (hnum _ hx)
    (fun y hy hh => hall.noCollision y (hsub y hy) x.header hx hh)
    (fun h d n ch => hall.difficulty h d n (ChainTo.mono (fun y hy => by
      rcases List.mem_cons.mp hy with rfl | hy
      · exact hx
      · exact hsub y hy) ch)) e'
  refine ⟨fun hne => ?_, fun hr => st.frame hr⟩
  obtain ⟨d, D, h, s1, s2, s3, s4, s5, s6⟩ := st.head hne
  refine ⟨?_, ?_, h, d, D, s4, s5, s3, s6⟩
  · by_cases hr : r = .ok
    · exact hr
    · exact absurd (st.frame hr).2.2.2 hne
  · rw [List.getLast?_eq_getElem?, s2, Nat.add_sub_cancel]; exact s1

/-! ### A concrete chain -/

/-- A hash function for examples: the remainder of a polynomial. -/
def polyHash (b : Bytes) : Bytes := beFixed 32 (b.foldl (fun h x => (h * 263 + x.toNat + 1) % (2 ^ 255 - 19)) 0)

/-- Execution for examples: the number of the block becomes the balance of one account. -/
def bcExecute (b : MemoryBuffer) (x : Block) : Outcome ValidationError (List BufferCall) :=
  .ok [.beginBlock x.header.number,
    .updateAccount [1] (b.readAccount [1]) (some ⟨0, x.header.timestamp, kEmptyHash, 0⟩)]

def bcEnv : ChainEnv where
  keccak := polyHash
  listRoot := fun _ => List.replicate 32 7
  sealOk := fun _ => true
  config := {}
  recoverSender := id
  execute := bcExecute

def bcHeader (parentHash : Bytes) (number difficulty timestamp : Nat) : BlockHeader :=
  { parentHash := parentHash, ommersHash := polyHash [0xc0], transactionsRoot := List.replicate 32 7, difficulty := difficulty,
    number := number, gasLimit := 5000, timestamp := timestamp }

def bcGenesis : Block := { header := bcHeader (List.replicate 32 0) 0 131072 1 }
/-- A slow block on the genesis block. -/
def bcA1 : Block := { header := bcHeader (bcGenesis.header.hash polyHash) 1 131072 30 }
/-- A fast one, with a greater difficulty. -/
def bcB1 : Block := { header := bcHeader (bcGenesis.header.hash polyHash) 1 131136 5 }
/-- Its child. -/
def bcB2 : Block := { header := bcHeader (bcB1.header.hash polyHash) 2 131200 9 }
/-- A child of the slow block: heavier than the fast one alone. -/
def bcA2 : Block := { header := bcHeader (bcA1.header.hash polyHash) 2 131136 35 }

def bcRun (xs : List Block) : Outcome Empty (List InsertResult × List Bytes × Option Account) :=
  (Blockchain.insertAll bcEnv (Blockchain.new bcEnv {} bcGenesis) (xs.map (fun x => (x, false)))).bind fun r =>
    .ok (r.2, r.1.state.canonicalHashes, r.1.state.readAccount [1])

example : bcRun [bcA1, bcB1, bcA2, bcB2] =
    .ok ([.ok, .ok, .ok, .ok], [bcGenesis.header.hash polyHash, bcB1.header.hash polyHash, bcB2.header.hash polyHash],
      some ⟨0, 9, kEmptyHash, 0⟩) := by decide +kernel

example : bcRun [bcA1, bcB1, bcA2] =
    .ok ([.ok, .ok, .ok], [bcGenesis.header.hash polyHash, bcA1.header.hash polyHash, bcA2.header.hash polyHash],
      some ⟨0, 35, kEmptyHash, 0⟩) := by decide +kernel

example : bcRun [bcB1, bcA1] =
    .ok ([.ok, .ok], [bcGenesis.header.hash polyHash, bcB1.header.hash polyHash],
      some ⟨0, 5, kEmptyHash, 0⟩) := by decide +kernel

example : bcRun [bcB2, { bcA1 with header := { bcA1.header with difficulty := 131073 } }] =
    .ok ([.invalid .unknownParent, .invalid .wrongDifficulty], [bcGenesis.header.hash polyHash], none) := by decide +kernel

/-- The conditions hold for these blocks. -/
theorem bcOffered : Offered polyHash bcGenesis.header [bcA1.header, bcB1.header, bcA2.header, bcB2.header] := by
  refine ⟨rfl, by decide +kernel, by decide +kernel, fun h d n ch => ?_⟩
  have hd : ∀ x ∈ [bcGenesis.header, bcA1.header, bcB1.header, bcA2.header, bcB2.header],
      x.difficulty ≤ 131200 ∧ x.number ≤ 2 := by decide +kernel
  have key : d ≤ 131200 * (n + 1) ∧ n ≤ 2 := by
    induction ch with
    | genesis => decide +kernel
    | step p d n x ch hx hp hn ih =>
      have := hd x hx
      omega
  omega

end Silkworm.Properties
