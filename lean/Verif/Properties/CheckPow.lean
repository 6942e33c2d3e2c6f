import Verif.Tools.CheckPow
import Verif.Properties.Ethash
import Verif.Properties.ExtractHeaders
import Verif.Types.BlockLemmas

/-!
# C149: the command that checks the seals of a database
-/

namespace Silkworm.Properties

open Silkworm Silkworm.Db Silkworm.Spec Silkworm.Tools Silkworm.Rlp
open Silkworm.Ethash hiding hash
open Silkworm.Keccak (keccak256)
open Silkworm.Spec.Ethash (Pow value)

/-- The canonical header of a number, decoded. -/
def StoredHeader (db : Database) (n : Nat) (h : BlockHeader) : Prop :=
  h.WF ∧ ∃ rest, CanonicalHeader db n (rlp (headerItem h) ++ rest)

/-- There is a canonical header of this number, and its seal is right. -/
def RightlySealed (db : Database) (n : Nat) : Prop :=
  ∃ h, StoredHeader db n h ∧ Sealed n h.difficulty (h.hash keccak256 true) h.nonce h.mixHash

/-- What the command should say at its end, for blocks `first` to `last`. -/
inductive PowReport (db : Database) (first last : Nat) : PowEnd → Prop
  | complete : (∀ n, first ≤ n → n ≤ last → RightlySealed db n) → PowReport db first last .complete
  | aboveTarget (n : Nat) (h : BlockHeader) (mix result : Bytes) : first ≤ n → n ≤ last →
      (∀ m, first ≤ m → m < n → RightlySealed db m) → StoredHeader db n h → Pow n (h.hash keccak256 true) h.nonce mix result →
      2 ^ 256 ≤ value result * h.difficulty →
      PowReport db first last (.aboveTarget n (boundaryFromDifficulty h.difficulty) result mix)
  | mixMismatch (n : Nat) (h : BlockHeader) (mix result : Bytes) : first ≤ n → n ≤ last →
      (∀ m, first ≤ m → m < n → RightlySealed db m) → StoredHeader db n h → Pow n (h.hash keccak256 true) h.nonce mix result →
      value result * h.difficulty < 2 ^ 256 → mix ≠ h.mixHash → PowReport db first last (.mixMismatch n mix h.mixHash)
  | thrown (n : Nat) : first ≤ n → n ≤ last → (∀ m, first ≤ m → m < n → RightlySealed db m) → (∀ h, ¬ StoredHeader db n h) →
      PowReport db first last .thrown

/-- The tables are as the database keeps them. -/
structure PowTables (db : Database) : Prop where
  hashes : Ordered db.canonicalHashes
  headers : Ordered db.headers
  hash : ∀ e ∈ db.canonicalHashes, e.2.length = 32
  size : ∀ e ∈ db.headers, e.2.length < 2 ^ 63

theorem toBytes32_self {b : Bytes} (h : b.length = 32) : toBytes32 b = b := by
  unfold toBytes32 toArray
  dsimp only
  rw [h, Nat.min_self, Nat.sub_self, List.replicate_zero, List.nil_append, ← h, List.take_length]

/-- Reading the header of a block. -/
theorem powHeader_eq {db : Database} (ht : PowTables db) (n : Nat) :
    (∃ h, powHeader db n = .ok (some h) ∧ StoredHeader db n h) ∨
    (powHeader db n = .ok none ∧ ∀ h, ¬ StoredHeader db n h) := by
  unfold powHeader
  cases hc : db.canonicalHashes.find (blockKey n) with
  | none =>
    right
    refine ⟨rfl, fun h ⟨_, rest, hash, _, hm, _⟩ => ?_⟩
    rw [find_of_mem ht.hashes hm] at hc
    cases hc
  | some e =>
    obtain ⟨k, hash⟩ := e
    obtain ⟨hm, hk⟩ : (k, hash) ∈ db.canonicalHashes ∧ k = blockKey n := by
      unfold Table.find at hc
      exact ⟨List.mem_of_find?_eq_some hc, by simpa using List.find?_some hc⟩
    subst hk
    have hl := ht.hash _ hm
    dsimp only at hl ⊢
    rw [toBytes32_self hl]
    unfold readHeader
    have huniq : ∀ {h : BlockHeader}, StoredHeader db n h → ∃ rest, (blockHashKey n hash, rlp (headerItem h) ++ rest) ∈ db.headers := by
      rintro h ⟨_, rest, hash', _, hm', hh⟩
      have := find_of_mem ht.hashes hm'
      rw [hc] at this
      have e : hash = hash' := (Prod.mk.inj (Option.some.inj this)).2
      exact ⟨rest, e ▸ hh⟩
    cases hf : db.headers.find (blockHashKey n hash) with
    | none =>
      right
      refine ⟨rfl, fun h hs => ?_⟩
      obtain ⟨rest, hh⟩ := huniq hs
      rw [find_of_mem ht.headers hh] at hf
      cases hf
    | some f =>
      obtain ⟨k', text⟩ := f
      obtain ⟨hm', hk'⟩ : (k', text) ∈ db.headers ∧ k' = blockHashKey n hash := by
        unfold Table.find at hf
        exact ⟨List.mem_of_find?_eq_some hf, by simpa using List.find?_some hf⟩
      subst hk'
      dsimp only
      cases hd : decodeBlockHeader text with
      | ok r =>
        obtain ⟨h, rest⟩ := r
        left
        refine ⟨h, rfl, ?_⟩
        obtain ⟨e1, e2, e3⟩ := decHeader_inv hd
        have := ht.size _ hm'
        have hx : h.extraData.length < 2 ^ 63 := by
          dsimp only at this
          rw [e1, List.length_append] at this
          omega
        exact ⟨e2 hx, rest, hash, hl, hm, e1 ▸ hm'⟩
      | err er =>
        right
        refine ⟨rfl, fun h hs => ?_⟩
        obtain ⟨rest, hh⟩ := huniq hs
        have := find_of_mem ht.headers hh
        rw [hf] at this
        have e : text = rlp (headerItem h) ++ rest := (Prod.mk.inj (Option.some.inj this)).2
        rw [e, decHeader hs.1] at hd
        cases hd
      | ub => exact absurd hd (decodeBlockHeader_safe text)

/-- In the epochs in question, `hash` gives the one proof of work that there is. -/
theorem hash_pow {n : Nat} (hn : n < 979230000) {c : Context} (hc : createEpochContext true (n / 30000) = .ok (some c))
    (header nonce : Bytes) (hl : nonce.length = 8) :
    ∃ mix result, Ethash.hash c header (beToNat nonce) = .ok (result, mix) ∧ result.length = 32 ∧
      ∀ mix' result', Pow n header nonce mix' result' ↔ mix' = mix ∧ result' = result := by
  obtain ⟨c', ec, _, dn, hco⟩ := createEpochContext_ok (e := n / 30000) (by omega)
  have : c' = c := Option.some.inj (Outcome.ok.inj (ec.symm.trans hc))
  subst this
  have hci := cacheItems_ok (epoch := n / 30000) (by omega)
  have hdi := datasetItems_ok (epoch := n / 30000) (by omega)
  have hd0 : 0 < c'.datasetItems := by rw [dn]; exact datasetItems_pos hdi
  have hd1 : c'.datasetItems ≤ 2 ^ 31 := by
    rw [dn]
    have := hdi.1.2
    omega
  obtain ⟨m, em, hm⟩ := hashMix_eq hco.ok hd0 hd1 header nonce (beToNat nonce) (by rw [← hl, beFixed_beToNat])
  refine ⟨m, hashFinal (hashSeed header (beToNat nonce)) m, ?_, length_keccak256 _, fun mix' result' => ?_⟩
  · unfold Ethash.hash
    rw [em, Outcome.ok_bind]
  · constructor
    · rintro ⟨c', n', h1, h2, h3⟩
      rw [unique_items h1 hci, unique_items h2 hdi, ← dn, hm] at h3
      exact ⟨(Prod.mk.inj h3).1.symm, (Prod.mk.inj h3).2.symm⟩
    · rintro ⟨rfl, rfl⟩
      exact ⟨lightCacheNumItems (n / 30000), fullDatasetNumItems (n / 30000), hci, hdi, by rw [← dn, hm]⟩

/-- The context of some epoch. -/
def SomeContext (c : Option Context) : Prop := ∃ c', c = some c' ∧ createEpochContext true c'.epochNumber = .ok (some c')

theorem someContext {e : Nat} (he : e < 2 ^ 19) : ∃ c, createEpochContext true e = .ok c ∧ SomeContext c := by
  obtain ⟨c, ec, en, _⟩ := createEpochContext_ok he
  exact ⟨some c, ec, c, rfl, by rw [en]; exact ec⟩

/-- The loop tells the first block that is not right. -/
theorem powLoop_spec {db : Database} (ht : PowTables db) (first last : Nat) (hlast : last < 979230000) :
    ∀ (fuel n : Nat) (c : Option Context), first ≤ n → n ≤ 2 ^ 31 → last + 1 - n < fuel → SomeContext c →
      (∀ m, first ≤ m → m < n → m ≤ last → RightlySealed db m) →
      ∃ e, powLoop true db last fuel n c = some (.ok e) ∧ PowReport db first last e
  | 0, _, _, _, _, hf, _, _ => absurd hf (Nat.not_lt_zero _)
  | fuel + 1, n, c, h1, hn31, hf, ⟨c0, e0, hc0⟩, hprev => by
    unfold powLoop
    by_cases hn : n ≤ last
    · rw [if_pos hn]
      have hprev' : ∀ m, first ≤ m → m < n → RightlySealed db m := fun m a b => hprev m a b (by omega)
      obtain ⟨cn, ecn, en, _⟩ := createEpochContext_ok (e := n / 30000) (by omega)
      have hctx : powContext true c n = .ok (some cn) := by
        subst e0
        unfold powContext
        by_cases he : c0.epochNumber = n / 30000
        · simp only [he, ne_eq, not_true_eq_false, if_false]
          rw [he, ecn] at hc0
          exact hc0.symm
        · simp only [ne_eq, he, not_false_eq_true, if_true]
          exact ecn
      have hkeep : SomeContext (some cn) := ⟨cn, rfl, by rw [en]; exact ecn⟩
      unfold powBlock
      rw [hctx, Outcome.ok_bind]
      rcases powHeader_eq ht n with ⟨h, eh, hs⟩ | ⟨eh, hs⟩
      · rw [eh, Outcome.ok_bind]
        dsimp only
        obtain ⟨mix, result, er, hl, hp⟩ := hash_pow (n := n) (by omega) ecn (h.hash keccak256 true) h.nonce hs.1.nonce
        have hacc := accepted_iff result h.difficulty hl
        unfold powCheck
        dsimp only
        rw [er, Outcome.ok_bind]
        dsimp only
        by_cases ha : isLessOrEqual (beWords result) (beWords (boundaryFromDifficulty h.difficulty)) = true
        · rw [ha, if_neg (by decide)]
          by_cases hm : mix = h.mixHash
          · rw [if_neg (not_not.mpr hm), Outcome.ok_bind]
            dsimp only
            rw [Nat.mod_eq_of_lt (show n + 1 < 2 ^ 32 by omega)]
            have hr : RightlySealed db n := ⟨h, hs, result, (hp _ _).mpr ⟨hm.symm, rfl⟩, hacc.mp ha⟩
            apply powLoop_spec ht first last hlast fuel (n + 1) (some cn) (by omega) (by omega) (by omega) hkeep
            intro m a b d
            by_cases hmn : m = n
            · rw [hmn]; exact hr
            · exact hprev m a (by omega) d
          · rw [if_pos hm, Outcome.ok_bind]
            exact ⟨_, rfl, .mixMismatch n h mix result h1 hn hprev' hs ((hp _ _).mpr ⟨rfl, rfl⟩) (hacc.mp ha) hm⟩
        · rw [Bool.eq_false_iff.mpr ha, if_pos (by decide), Outcome.ok_bind]
          exact ⟨_, rfl, .aboveTarget n h mix result h1 hn hprev' hs ((hp _ _).mpr ⟨rfl, rfl⟩)
            (Nat.not_lt.mp fun hlt => ha (hacc.mpr hlt))⟩
      · rw [eh, Outcome.ok_bind]
        exact ⟨_, rfl, .thrown n h1 hn hprev' hs⟩
    · rw [if_neg hn]
      exact ⟨_, rfl, .complete fun m a b => hprev m a (by omega) b⟩

/-- The chain of the database is one with Ethash. -/
def EthashChain (parseJson : Bytes → ChainConfig.JsonObject) (db : Database) : Prop :=
  ∃ config, Genesis.readChainConfig parseJson db = .ok (some config) ∧ config.sealEngine = .ethash

/-- Senders were recovered up to this block. -/
def SendersUpTo (db : Database) (height : Nat) : Prop := db.stageProgress.find (ascii "Senders") = some (ascii "Senders", beFixed 8 height)

/-- C149, in full: the command ends, tells the first of the blocks that has no right seal, and its exit status is 0 exactly if all
have one. -/
def C149 : Prop := ∀ (parseJson : Bytes → ChainConfig.JsonObject) (db : Database) (first upTo height : Nat), PowTables db →
  EthashChain parseJson db → SendersUpTo db height → height < 2 ^ 64 → 0 < first → first < 2 ^ 32 → upTo < 2 ^ 32 →
  ∃ fuel e status, checkPow true parseJson db first upTo fuel = some (.ok (e, status)) ∧ PowReport db first (min upTo height) e ∧
    (status = 0 ↔ ∀ n, first ≤ n → n ≤ min upTo height → RightlySealed db n)

/-- C149 without the exit status, for blocks below 979230000: the command ends and tells the first block that is not right, and what is
wrong with it; the work is bounded by the number of blocks. -/
theorem c149_report_partial (parseJson : Bytes → ChainConfig.JsonObject) (db : Database) (first upTo height : Nat) (ht : PowTables db)
    (hc : EthashChain parseJson db) (hs : SendersUpTo db height) (hh : height < 2 ^ 32) (h0 : 0 < first) (hf : first ≤ 2 ^ 31)
    (hlast : min upTo height < 979230000) :
    ∃ e, checkPow true parseJson db first upTo (min upTo height + 2) = some (.ok (e, 0)) ∧ PowReport db first (min upTo height) e := by
  obtain ⟨config, e1, e2⟩ := hc
  have hp : getStageProgress db (ascii "Senders") = .ok height := by
    unfold getStageProgress getStageData
    rw [if_neg (by decide +kernel), hs]
    dsimp only
    rw [if_neg (by rw [beFixed_length]; decide), beToNat_beFixed (by rw [show 256 ^ 8 = 2 ^ 64 by decide]; omega)]
  obtain ⟨c, ec, hcx⟩ := someContext (e := first / 30000) (by omega)
  obtain ⟨e, el, hr⟩ := powLoop_spec ht first (min upTo height) hlast (min upTo height + 2) first c (Nat.le_refl _) hf (by omega) hcx
    (fun m a b _ => absurd b (by omega))
  refine ⟨e, ?_, hr⟩
  unfold checkPow
  rw [e1]
  dsimp only
  rw [if_neg (by rw [e2]; decide), if_neg (by omega)]
  unfold powCommand
  rw [hp]
  dsimp only
  rw [ec]
  dsimp only
  rw [Nat.mod_eq_of_lt hh, el]

/-- C149: a report is complete exactly if all seals are right. -/
theorem c149_complete (db : Database) (first last : Nat) (e : PowEnd) (h : PowReport db first last e) (hl : last < 979230000)
    (ht : PowTables db) : e = .complete ↔ ∀ n, first ≤ n → n ≤ last → RightlySealed db n := by
  have one : ∀ {n h h'}, StoredHeader db n h → StoredHeader db n h' → h = h' := by
    rintro n h h' ⟨w, rest, hash, _, hm, hh⟩ ⟨w', rest', hash', _, hm', hh'⟩
    have a := find_of_mem ht.hashes hm
    rw [find_of_mem ht.hashes hm'] at a
    have e : hash' = hash := (Prod.mk.inj (Option.some.inj a)).2
    subst e
    have b := find_of_mem ht.headers hh
    rw [find_of_mem ht.headers hh'] at b
    have e : rlp (headerItem h') ++ rest' = rlp (headerItem h) ++ rest := (Prod.mk.inj (Option.some.inj b)).2
    have d := decHeader w rest
    rw [← e, decHeader w' rest'] at d
    exact (Prod.mk.inj (Outcome.ok.inj d)).1.symm
  have pow1 : ∀ {n h mix result mix' result'}, n ≤ last → StoredHeader db n h → Pow n (h.hash keccak256 true) h.nonce mix result →
      Pow n (h.hash keccak256 true) h.nonce mix' result' → mix = mix' ∧ result = result' := by
    intro n h mix result mix' result' hn hs p1 p2
    obtain ⟨c, ec, _⟩ := createEpochContext_ok (e := n / 30000) (by omega)
    obtain ⟨m, r, _, _, hp⟩ := hash_pow (n := n) (by omega) ec (h.hash keccak256 true) h.nonce hs.1.nonce
    obtain ⟨a, b⟩ := (hp _ _).mp p1
    obtain ⟨a', b'⟩ := (hp _ _).mp p2
    exact ⟨a.trans a'.symm, b.trans b'.symm⟩
  cases h with
  | complete h => exact ⟨fun _ => h, fun _ => rfl⟩
  | aboveTarget n h mix result h1 h2 h3 h4 h5 h6 =>
    refine ⟨fun h => (by cases h), fun hall => ?_⟩
    obtain ⟨h', hs, r, hp, hlt⟩ := hall n h1 h2
    rw [one hs h4] at hp hlt
    rw [(pow1 h2 h4 hp h5).2] at hlt
    omega
  | mixMismatch n h mix result h1 h2 h3 h4 h5 h6 h7 =>
    refine ⟨fun h => (by cases h), fun hall => ?_⟩
    obtain ⟨h', hs, r, hp, hlt⟩ := hall n h1 h2
    rw [one hs h4] at hp
    exact absurd (pow1 h2 h4 h5 hp).1 h7
  | thrown n h1 h2 h3 h4 =>
    refine ⟨fun h => (by cases h), fun hall => ?_⟩
    obtain ⟨h', hs, _⟩ := hall n h1 h2
    exact absurd hs (h4 h')

/-- The configuration of a chain with Ethash. -/
def exPowConfig : Bytes → ChainConfig.JsonObject := fun _ => ChainConfig.toJson kMainnetConfig

/-- A database with a chain of one block, but without its header. -/
def exPowDb (height : Nat) : Database :=
  { canonicalHashes := [(blockKey 0, exWord 1)]
    config := [(exWord 1, ascii "{}")]
    stageProgress := [(ascii "Senders", beFixed 8 height)] }

theorem exPowDb_tables (height : Nat) : PowTables (exPowDb height) :=
  ⟨(by decide +kernel : Ordered [(blockKey 0, exWord 1)]), (by decide : Ordered []),
    (by decide +kernel : ∀ e ∈ [(blockKey 0, exWord 1)], e.2.length = 32), fun _ h => by cases h⟩

theorem exPowDb_chain (height : Nat) : EthashChain exPowConfig (exPowDb height) :=
  ⟨kMainnetConfig, by
    have : Genesis.readChainConfig exPowConfig (exPowDb height) = ChainConfig.fromJson (ChainConfig.toJson kMainnetConfig) := by rfl
    rw [this]; decide +kernel, rfl⟩

theorem exPowDb_senders (height : Nat) : SendersUpTo (exPowDb height) height := by
  unfold SendersUpTo exPowDb Table.find
  simp

theorem exPowDb_absent (height n : Nat) (hn : n ≠ 0) (h64 : n < 2 ^ 64) : ¬ RightlySealed (exPowDb height) n := by
  rintro ⟨h, ⟨_, rest, hash, _, hm, _⟩, _⟩
  unfold exPowDb at hm
  dsimp only at hm
  rw [List.mem_singleton] at hm
  have := congrArg beToNat (Prod.mk.inj hm).1
  unfold blockKey at this
  rw [beToNat_beFixed (by rw [show 256 ^ 8 = 2 ^ 64 by decide]; exact h64), beToNat_beFixed (by decide)] at this
  exact hn this

example : checkPow true exPowConfig (exPowDb 5) 1 7 7 = some (.ok (.thrown, 0)) := by
  obtain ⟨e, h, hr⟩ := c149_report_partial exPowConfig (exPowDb 5) 1 7 5 (exPowDb_tables 5) (exPowDb_chain 5) (exPowDb_senders 5)
    (by decide) (by decide) (by decide) (by decide)
  refine h.trans ?_
  cases hr with
  | complete hall => exact absurd (hall 1 (by decide) (by decide)) (exPowDb_absent 5 1 (by decide) (by decide))
  | aboveTarget n h mix result h1 h2 h3 h4 =>
    obtain ⟨_, rest, hash, _, hm, hh⟩ := h4
    cases hh
  | mixMismatch n h mix result h1 h2 h3 h4 =>
    obtain ⟨_, rest, hash, _, hm, hh⟩ := h4
    cases hh
  | thrown => rfl

/-- C149 is violated: the exit status is 0 whatever is found; for the database without headers it is 0 as well. -/
theorem c149_status_violated :
    (∀ memory parseJson db first upTo fuel e status, checkPow memory parseJson db first upTo fuel = some (.ok (e, status)) → status = 0) ∧
    ¬ C149 := by
  have key : ∀ memory parseJson db first upTo fuel e status, checkPow memory parseJson db first upTo fuel = some (.ok (e, status)) → status = 0 := by
    intro memory parseJson db first upTo fuel e status h
    unfold checkPow at h
    split at h
    · cases ‹Empty›
    · cases h
    · cases h; rfl
    · split at h
      · cases h; rfl
      · split at h
        · cases h
        · cases h
        · cases ‹Fault›
        · cases h; rfl
  refine ⟨key, fun h => ?_⟩
  obtain ⟨fuel, e, status, e1, _, e3⟩ := h exPowConfig (exPowDb 5) 1 7 5 (exPowDb_tables 5) (exPowDb_chain 5) (exPowDb_senders 5)
    (by decide) (by decide) (by decide) (by decide)
  exact exPowDb_absent 5 1 (by decide) (by decide) (e3.mp (key _ _ _ _ _ _ _ _ e1) 1 (by decide) (by decide))

/-- C149 is violated for heights above 32 bits: of the height, only the lower 32 bits count. If senders were recovered up to block 2^32,
nothing is checked and the command is complete. -/
theorem c149_height_violated (first upTo : Nat) (h0 : 0 < first) (h31 : first ≤ 2 ^ 31) (_hto : first ≤ upTo) :
    checkPow true exPowConfig (exPowDb (2 ^ 32)) first upTo 1 = some (.ok (.complete, 0)) ∧
    ¬ RightlySealed (exPowDb (2 ^ 32)) first := by
  refine ⟨?_, exPowDb_absent _ _ (by omega) (by omega)⟩
  obtain ⟨config, e1, e2⟩ := exPowDb_chain (2 ^ 32)
  have hp : getStageProgress (exPowDb (2 ^ 32)) (ascii "Senders") = .ok (2 ^ 32) := by decide +kernel
  obtain ⟨c, ec, hcx⟩ := someContext (e := first / 30000) (by omega)
  unfold checkPow
  rw [e1]
  dsimp only
  rw [if_neg (by rw [e2]; decide), if_neg (by omega)]
  unfold powCommand
  rw [hp]
  dsimp only
  rw [ec]
  dsimp only
  unfold powLoop
  rw [if_neg (by omega)]

end Silkworm.Properties
