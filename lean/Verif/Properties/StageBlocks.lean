import Verif.Stages.BlockHashes
import Verif.Stages.TxLookupLemmas
import Verif.Spec.Stages
import Verif.Properties.DbBlocks
import Verif.Properties.DbState
import Verif.Properties.Etl

/-!
# C55, C89: the stages that index blocks and transactions
-/

namespace Silkworm.Properties

open Silkworm.Db Silkworm.Etl Silkworm.Spec Silkworm.Stages

/-! ## C55 -/

/-- C55 as stated: the stage succeeds on every chain and stores the number of every hash. -/
def C55_statement : Prop :=
  ∀ (d : Disk) (db : Database) (p last : Nat) (hash : Nat → Bytes), getStageProgress db (ascii "BlockHashes") = .ok p →
    HashesTo db (p + 1) last hash → (∀ n, (last - p) * 48 ≤ d.space n) →
    ∃ db', stageBlockHashes d db = .ok (.success, db') ∧
      ∀ n, p + 1 ≤ n → n ≤ last → db'.headerNumbers.find (hash n) = some (hash n, beFixed 8 n)

theorem collect_first (space : Nat → Nat) (k v : Bytes) (h : k.length + v.length < kFlushSize) :
    ∃ c, Collector.collect space (Collector.new kFlushSize) ⟨k, v⟩ = .ok c := by
  unfold Collector.collect Collector.new Etl.Buffer.new Etl.Buffer.put
  have hl : (List.replicate Etl.Buffer.kInitialBufferCapacity (⟨[], []⟩ : Entry)).length = Etl.Buffer.kInitialBufferCapacity :=
    List.length_replicate
  have h2 : ¬ (0 = Etl.Buffer.kInitialBufferCapacity) := by decide
  have h3 : ¬ kFlushSize ≤ 0 + Entry.size ⟨k, v⟩ := by unfold Entry.size; dsimp only; omega
  have h4 : 0 ≤ Etl.Buffer.kInitialBufferCapacity := Nat.zero_le _
  rw [hl]
  simp only [if_pos h4, if_neg h2, Outcome.ok_bind, Etl.Buffer.overflows, decide_eq_false h3]
  exact ⟨_, rfl⟩

/-- C55 fails whenever there is a block to index: the stage reports a bad chain sequence on every canonical chain and
changes nothing. -/
theorem c55_always_violated (d : Disk) (db : Database) (p last : Nat) (hash : Nat → Bytes)
    (hp : getStageProgress db (ascii "BlockHashes") = .ok p) (hc : HashesTo db (p + 1) last hash) (hl : p + 1 ≤ last) :
    stageBlockHashes d db = .ok (.badChainSequence, db) := by
  have hr := hc.range
  have h64 : (256 : Nat) ^ 8 = 2 ^ 64 := by decide
  have hmod : (p + 1) % 2 ^ 64 = p + 1 := Nat.mod_eq_of_lt (by omega)
  unfold stageBlockHashes
  simp only [hp, liftDb, Outcome.ok_bind, hmod]
  rw [show blockKey (p + 1) = beFixed 8 (p + 1) from rfl, find_of_mem hc.ordered (hc.mem (p + 1) (Nat.le_refl _) hl)]
  have hload : loadBig64 (beFixed 8 (p + 1)) = .ok (p + 1) := by
    unfold loadBig64
    rw [beFixed_length, if_pos (Nat.le_refl _), List.take_of_length_le (by rw [beFixed_length]),
      beToNat_beFixed (by omega)]
  obtain ⟨c, hcc⟩ := collect_first d.space (hash (p + 1)) (beFixed 8 (p + 1))
    (by rw [hc.length, beFixed_length]; decide)
  have hne : p + 1 ≠ (p + 1 + 1) % 2 ^ 64 := by
    by_cases h : p + 1 + 1 < 2 ^ 64
    · rw [Nat.mod_eq_of_lt h]; omega
    · have : p + 1 + 1 = 2 ^ 64 := by omega
      rw [this]; simp
  simp only [blockHashesLoop, hload, Outcome.ok_bind, ne_eq, not_true_eq_false, if_false, hc.length, hcc, liftEtl, if_pos hne]

/-- A database with one canonical block. -/
def exChainDb : Database := { canonicalHashes := [(beFixed 8 1, exWord 1)] }

/-- C55 is violated: already a chain of one block is reported as a bad sequence. -/
theorem c55_violated : ¬ C55_statement := by
  intro h
  have hc : HashesTo exChainDb (0 + 1) 1 exWord := by
    refine ⟨by decide +kernel, by decide +kernel, fun n => ?_, fun n h1 h2 => ?_, ?_, by decide⟩
    · simp [exWord, Silkworm.beFixed_length]
    · have : n = 1 := by omega
      subst this
      decide +kernel
    · intro m n h1 h2 h3 h4 _
      omega
  obtain ⟨db', h1, _⟩ := h ⟨fun _ => 48, exHeap⟩ exChainDb 0 1 exWord (by decide +kernel) hc (fun n => by simp)
  rw [c55_always_violated _ _ 0 1 exWord (by decide +kernel) hc (by decide)] at h1
  cases h1

/-- C55 where the code has it right: with nothing to index the stage succeeds and leaves the database as it is. Missing: every
chain with a block to index. -/
theorem c55_nothing_partial (d : Disk) (db : Database) (p : Nat) (hp : getStageProgress db (ascii "BlockHashes") = .ok p)
    (h : ∀ e ∈ db.canonicalHashes, e.1 ≠ beFixed 8 ((p + 1) % 2 ^ 64)) :
    stageBlockHashes d db = .ok (.success, db) := by
  unfold stageBlockHashes
  simp only [hp, liftDb, Outcome.ok_bind]
  rw [show blockKey ((p + 1) % 2 ^ 64) = beFixed 8 ((p + 1) % 2 ^ 64) from rfl, find_none_of h]

example (d : Disk) : stageBlockHashes d exChainDb = .ok (.badChainSequence, exChainDb) :=
  c55_always_violated d exChainDb 0 1 exWord (by decide +kernel)
    ⟨by decide +kernel, by decide +kernel, fun n => by simp [exWord, Silkworm.beFixed_length], fun n h1 h2 => by
      have : n = 1 := by omega
      subst this
      decide +kernel, fun m n _ _ _ _ _ => by omega, by decide⟩ (by decide)
example (d : Disk) : stageBlockHashes d { exChainDb with stageProgress := [(ascii "BlockHashes", beFixed 8 1)] } =
    .ok (.success, { exChainDb with stageProgress := [(ascii "BlockHashes", beFixed 8 1)] }) :=
  c55_nothing_partial d _ 1 (by decide +kernel) (by decide +kernel)

/-! ## C89 -/

/-- C89 as stated: after the stage the hash of every transaction of the canonical blocks beyond the progress leads to the
number of its block. -/
def C89_statement : Prop :=
  ∀ (d : Disk) (keccak : Bytes → Bytes) (db : Database) (p n base : Nat) (hash : Bytes) (b : Block),
    getStageProgress db (ascii "TxLookup") = .ok p → p < n → n < 2 ^ 64 → (∀ e ∈ db.blockBodies, e.1.length = 40) →
    BlockStored db n hash base b → (∀ x, (keccak x).length = 32) → (∀ m, db.ethTx.length * 48 ≤ d.space m) →
    ∃ db', stageTxLookup d keccak db = .ok (.success, db') ∧
      ∀ t ∈ b.transactions, ∃ v, db'.txLookup.find (keccak (rlp (txItem t))) = some (keccak (rlp (txItem t)), v) ∧
        IsShortest v n

/-- C89 fails on every database: bodies are stored under the number and the hash of their block, 40 bytes, and the stage looks
for the key of eight bytes exactly; it finds nothing, reports success and changes nothing. -/
theorem c89_always_violated (d : Disk) (keccak : Bytes → Bytes) (db : Database) (p : Nat)
    (hp : getStageProgress db (ascii "TxLookup") = .ok p) (h40 : ∀ e ∈ db.blockBodies, e.1.length = 40) :
    stageTxLookup d keccak db = .ok (.success, db) := by
  unfold stageTxLookup
  simp only [hp, liftDb, Outcome.ok_bind]
  rw [fromKey_absent fun e he hk => ?_]
  · rfl
  · have h := h40 e he
    rw [hk, beFixed_length] at h
    cases h

/-- C89 is violated: the transaction of the only block is not found. -/
theorem c89_violated : ¬ C89_statement := by
  intro h
  obtain ⟨db', h1, h2⟩ := h ⟨fun _ => 10 ^ 6, exHeap⟩ (fun _ => exWord 9) exBlockDb 0 _ _ _ exBlockStored (by decide +kernel)
    (by decide) (by decide) (by decide +kernel) exBlock_stored (fun _ => by simp [exWord, Silkworm.beFixed_length]) (fun m => (by decide +kernel : exBlockDb.ethTx.length * 48 ≤ 10 ^ 6))
  rw [c89_always_violated _ _ exBlockDb 0 (by decide +kernel) (by decide +kernel)] at h1
  have := (Prod.mk.inj (Outcome.ok.inj h1)).2
  subst this
  have hne : exBlockStored.transactions ≠ [] := by decide +kernel
  obtain ⟨t, l, ht⟩ := List.exists_cons_of_ne_nil hne
  obtain ⟨v, hv, _⟩ := h2 t (by rw [ht]; exact List.mem_cons_self)
  have : exBlockDb.txLookup = [] := by decide +kernel
  rw [this] at hv
  cases hv

/-- A table of bodies under keys of eight bytes, as the stage expects it, from block `first` on, whose transactions are
`raw base`, `raw (base + 1)`, ... -/
structure BodiesByNumber (db : Database) (first : Nat) (raw : Nat → Bytes) : Prop where
  ordered : Ordered db.blockBodies ∧ Ordered db.ethTx
  keys : (∀ e ∈ db.blockBodies, e.1.length = 8) ∧ ∀ e ∈ db.ethTx, e.1.length = 8
  present : ∃ v, (beFixed 8 first, v) ∈ db.blockBodies
  body : ∀ e ∈ db.blockBodies, first ≤ beToNat e.1 → ∃ b : BlockBodyForStorage, b.WF ∧ e.2 = rlp (storedBodyItem b) ∧
    b.baseTxnId + b.txnCount < 2 ^ 64 ∧ ∀ j, j < b.txnCount → (beFixed 8 (b.baseTxnId + j), raw (b.baseTxnId + j)) ∈ db.ethTx

/-- Transaction `i` belongs to block `n`. -/
def InBlock (db : Database) (n i : Nat) : Prop :=
  ∃ b : BlockBodyForStorage, b.WF ∧ (beFixed 8 n, rlp (storedBodyItem b)) ∈ db.blockBodies ∧ b.baseTxnId ≤ i ∧
    i < b.baseTxnId + b.txnCount

/-- C89 for bodies stored under their number alone: unless the disk is full, the hash of every transaction of the blocks
beyond the progress leads to the number of its block in its shortest representation, and all other keys keep their value; if
there is such a transaction the progress is the number of the last body. Missing: bodies stored as they are in fact, under
number and hash. -/
theorem c89_lookup_partial (d : Disk) (keccak : Bytes → Bytes) (hk : ∀ x, (keccak x).length = 32) (db : Database) (p : Nat)
    (raw : Nat → Bytes) (hp : getStageProgress db (ascii "TxLookup") = .ok p) (hr : p + 1 < 2 ^ 64)
    (hb : BodiesByNumber db (p + 1) raw) :
    stageTxLookup d keccak db = .err (.etl .insufficientDiskSpace) ∨
    ∃ db', stageTxLookup d keccak db = .ok (.success, db') ∧
      (∀ n i, p < n → n < 2 ^ 64 → InBlock db n i →
        (∀ n' i', p < n' → n' < 2 ^ 64 → InBlock db n' i' → keccak (raw i') = keccak (raw i) → n' = n) →
        (∃ v, db'.txLookup.find (keccak (raw i)) = some (keccak (raw i), v) ∧ IsShortest v n) ∧
        getStageProgress db' (ascii "TxLookup") = .ok ((db.blockBodies.getLast?.map fun e => beToNat e.1).getD 0)) ∧
      (∀ k, (∀ n i, p < n → n < 2 ^ 64 → InBlock db n i → keccak (raw i) ≠ k) → db'.txLookup.find k = db.txLookup.find k) := by
  have h64 : (256 : Nat) ^ 8 = 2 ^ 64 := by decide
  obtain ⟨v0, hv0⟩ := hb.present
  obtain ⟨d1, d2, d3, d4⟩ := dropWhile_ordered hb.ordered.1 hv0
  have hge : ∀ e ∈ fromKey db.blockBodies (beFixed 8 (p + 1)), p + 1 ≤ beToNat e.1 := by
    intro e he
    rcases d3 e he with h | h
    · rw [h, beToNat_beFixed (by omega)]
    · rw [key_lt (beFixed_length _ _) (hb.keys.1 e (d2 e he)), beToNat_beFixed (by omega)] at h
      omega
  obtain ⟨es, hes, hmem⟩ := lookupBodies_spec keccak raw hb.ordered.2 hb.keys.2 (fromKey db.blockBodies (beFixed 8 (p + 1))) 0
    fun e he => ⟨hb.keys.1 e (d2 e he), hb.body e (d2 e he) (hge e he)⟩
  have hlast : (fromKey db.blockBodies (beFixed 8 (p + 1))).getLast? = db.blockBodies.getLast? := by
    have hsuf : fromKey db.blockBodies (beFixed 8 (p + 1)) <:+ db.blockBodies := List.dropWhile_suffix _
    have hne : fromKey db.blockBodies (beFixed 8 (p + 1)) ≠ [] :=
      List.ne_nil_of_mem (d4 _ hv0 (List.le_refl _))
    obtain ⟨l, hl⟩ := hsuf
    conv => rhs; rw [← hl, List.getLast?_append]
    cases hg : (fromKey db.blockBodies (beFixed 8 (p + 1))).getLast? with
    | none => exact absurd (List.getLast?_eq_none_iff.mp hg) hne
    | some x => rfl
  rw [hlast] at hes
  -- what is collected, in terms of blocks and transactions
  have hmem' : ∀ x, x ∈ es ↔ ∃ n i, p < n ∧ n < 2 ^ 64 ∧ InBlock db n i ∧ x = ⟨keccak (raw i), compact (beFixed 8 n)⟩ := by
    intro x
    rw [hmem]
    constructor
    · rintro ⟨e, he, b, hw, hbb, j, hj, hx⟩
      have h8 := hb.keys.1 e (d2 e he)
      have hlt : beToNat e.1 < 2 ^ 64 := by have := beToNat_lt e.1; rw [h8] at this; omega
      have hek : beFixed 8 (beToNat e.1) = e.1 := beToNat_inj (by rw [beFixed_length, h8]) (beToNat_beFixed (by omega))
      refine ⟨beToNat e.1, b.baseTxnId + j, hge e he, hlt, ⟨b, hw, ?_, by omega, by omega⟩, ?_⟩
      · rw [hek, ← hbb]; exact d2 e he
      · rw [hek]; exact hx
    · rintro ⟨n, i, h1, h2, ⟨b, hw, hbm, hi1, hi2⟩, hx⟩
      refine ⟨_, d4 _ hbm ?_, b, hw, rfl, i - b.baseTxnId, by omega, ?_⟩
      · rw [← List.not_lt]
        dsimp only
        rw [key_lt (beFixed_length _ _) (beFixed_length _ _), beToNat_beFixed (by omega), beToNat_beFixed (by omega)]
        omega
      · rw [hx, show b.baseTxnId + (i - b.baseTxnId) = i by omega]
  have hstage : stageTxLookup d keccak db = (if es = [] then .ok (.success, db)
      else do
        let t ← etlLoad d kFlushSize es (putEntry db.txLookup.isEmpty) db.txLookup
        let db ← liftDb (setStageProgress { db with txLookup := t } (ascii "TxLookup")
          ((db.blockBodies.getLast?.map fun e => beToNat e.1).getD 0))
        .ok (.success, db)) := by
    unfold stageTxLookup
    simp only [hp, liftDb, Outcome.ok_bind, Nat.mod_eq_of_lt hr, hes]
  rw [hstage]
  by_cases he : es = []
  · rw [if_pos he]
    refine Or.inr ⟨db, rfl, fun n i h1 h2 h3 _ => ?_, fun _ _ => rfl⟩
    have := (hmem' ⟨keccak (raw i), compact (beFixed 8 n)⟩).mpr ⟨n, i, h1, h2, h3, rfl⟩
    rw [he] at this
    cases this
  · rw [if_neg he]
    have hcl : ∀ n, (compact (beFixed 8 n)).length ≤ 8 := by
      intro n
      unfold compact
      have h1 : ((beFixed 8 n).dropWhile (· == 0)).length ≤ (beFixed 8 n).length := (List.dropWhile_sublist _).length_le
      rw [beFixed_length] at h1
      split
      · rw [beFixed_length]
      · exact h1
    have hfit : ∀ e ∈ es, Etl.Fits e := by
      intro e hem
      obtain ⟨n, i, _, _, _, rfl⟩ := (hmem' e).mp hem
      refine ⟨?_, ?_⟩
      · show (keccak (raw i)).length < 2 ^ 32
        rw [hk]; decide
      · show (compact (beFixed 8 n)).length < 2 ^ 32
        exact Nat.lt_of_le_of_lt (hcl n) (by decide)
    have hne : ∀ e ∈ es, e.size ≠ 0 := by
      intro e hem
      obtain ⟨n, i, _, _, _, rfl⟩ := (hmem' e).mp hem
      unfold Entry.size
      rw [hk]
      omega
    rcases etlLoad_cases d kFlushSize es (putEntry db.txLookup.isEmpty) db.txLookup hfit hne with h | ⟨L, hperm, hord, hload⟩
    · exact Or.inl (by rw [h]; rfl)
    · refine Or.inr ⟨{ { db with txLookup := L.foldl (fun (t : Table) (e : Entry) => put db.txLookup.isEmpty t e.key e.value) db.txLookup } with
          stageProgress := db.stageProgress.upsert (ascii "TxLookup")
            (beFixed 8 ((db.blockBodies.getLast?.map fun e : Bytes × Bytes => beToNat e.1).getD 0)) }, ?_, ?_, ?_⟩
      · rw [hload, foldlM_putEntry]
        simp only [Outcome.ok_bind]
        rw [setStageProgress_known _ (by decide +kernel)]
        rfl
      · intro n i h1 h2 h3 huniq
        refine ⟨⟨compact (beFixed 8 n), ?_, ?_⟩, ?_⟩
        · refine find_load _ L hord _ rfl _ _ (hperm.mem_iff.mpr ((hmem' _).mpr ⟨n, i, h1, h2, h3, rfl⟩)) ?_
          intro e hem hke
          obtain ⟨n', i', g1, g2, g3, rfl⟩ := (hmem' e).mp (hperm.mem_iff.mp hem)
          rw [huniq n' i' g1 g2 g3 hke]
        · have hv : beToNat (beFixed 8 n) = n := beToNat_beFixed (by omega)
          have := compact_spec (b := beFixed 8 n) (by rw [hv]; omega)
          exact ⟨by rw [this.1, hv], this.2⟩
        · refine getStageProgress_upsert _ (name := ascii "TxLookup") (by decide +kernel) ?_
          cases hg : db.blockBodies.getLast? with
          | none => simp
          | some x =>
            have h8 := hb.keys.1 x (List.mem_of_getLast? hg)
            have := beToNat_lt x.1
            rw [h8] at this
            simp only [Option.map_some, Option.getD_some]
            omega
      · intro k hkk
        refine find_load_other _ L hord _ rfl _ ?_
        intro e hem
        obtain ⟨n, i, g1, g2, g3, rfl⟩ := (hmem' e).mp (hperm.mem_iff.mp hem)
        exact hkk n i g1 g2 g3

/-- Bodies under their numbers: blocks 1, 2 and 3 with one, none and two transactions. -/
def exBodiesDb : Database :=
  { blockBodies := [(beFixed 8 1, (⟨7, 1, []⟩ : BlockBodyForStorage).encode), (beFixed 8 2, (⟨8, 0, []⟩ : BlockBodyForStorage).encode),
      (beFixed 8 3, (⟨8, 2, []⟩ : BlockBodyForStorage).encode)]
    ethTx := [(beFixed 8 7, [7]), (beFixed 8 8, [8]), (beFixed 8 9, [9])] }

theorem exBodies_wf (base count : Nat) (h1 : base < 100) (h2 : count < 100) : (⟨base, count, []⟩ : BlockBodyForStorage).WF := by
  refine ⟨by show base < _; omega, by show count < _; omega, (by intro h hh; cases hh), ?_⟩
  have : ∀ b < 100, ∀ c < 100, (rlp (storedBodyItem ⟨b, c, []⟩)).length < 2 ^ 64 := by decide +kernel
  exact this base h1 count h2

theorem exBodies_stored : BodiesByNumber exBodiesDb 1 fun i => [UInt8.ofNat i] := by
  refine ⟨by decide +kernel, by decide +kernel, ⟨_, List.mem_cons_self⟩, fun e he _ => ?_⟩
  rcases List.mem_cons.mp he with rfl | he
  · exact ⟨⟨7, 1, []⟩, exBodies_wf _ _ (by decide) (by decide), storedBody_spec (exBodies_wf _ _ (by decide) (by decide)),
      by decide, by decide +kernel⟩
  rcases List.mem_cons.mp he with rfl | he
  · exact ⟨⟨8, 0, []⟩, exBodies_wf _ _ (by decide) (by decide), storedBody_spec (exBodies_wf _ _ (by decide) (by decide)),
      by decide, by decide +kernel⟩
  rcases List.mem_cons.mp he with rfl | he
  · exact ⟨⟨8, 2, []⟩, exBodies_wf _ _ (by decide) (by decide), storedBody_spec (exBodies_wf _ _ (by decide) (by decide)),
      by decide, by decide +kernel⟩
  · cases he

example : (lookupBodies (fun x => x ++ List.replicate 31 0) exBodiesDb.ethTx 0 (fromKey exBodiesDb.blockBodies (beFixed 8 1))) =
    .ok ([⟨7 :: List.replicate 31 0, [1]⟩, ⟨8 :: List.replicate 31 0, [3]⟩, ⟨9 :: List.replicate 31 0, [3]⟩], 3) := by
  decide +kernel
example (d : Disk) (keccak : Bytes → Bytes) (hk : ∀ x, (keccak x).length = 32) :=
  c89_lookup_partial d keccak hk exBodiesDb 0 (fun i => [UInt8.ofNat i]) (by decide +kernel) (by decide) exBodies_stored

end Silkworm.Properties
