import Verif.Tools.CheckSendersLemmas
import Verif.Properties.Senders

/-!
# C154, C155: check_senders
-/

namespace Silkworm.Properties

open Silkworm.Db Silkworm.Etl Silkworm.Spec Silkworm.Stages Silkworm.Tools

/-! ## C154: what is committed, and unwinding -/

private theorem code_zero {s : SenderStatus} (h : s.code = 0) : s = .succeeded := by
  cases s <;> first | rfl | cases h

private theorem exit_zero {d : Disk} {farm : Farm} {readConfig : Database → Option ChainConfig} {db db' : Database} {dry : Bool}
    {from_ to_ : Nat} {force : Bool} (h : checkSenders d farm readConfig db dry (.recover from_ to_ force) = .ok (0, db')) :
    ∃ db1, toolRecover d farm readConfig db (if from_ = 0 then 1 else from_) to_ force = .ok (.succeeded, db1) ∧
      db' = if dry = false then db1 else db := by
  unfold checkSenders at h
  obtain ⟨r, h1, h⟩ := Outcome.bind_eq_ok.mp h
  obtain ⟨h2, h3⟩ := Prod.mk.inj (Outcome.ok.inj h)
  refine ⟨r.2, ?_, ?_⟩
  · rw [← code_zero h2]
    exact h1
  · rw [← h3, h2]
    cases dry <;> rfl

/-- Unless the exit status is zero the database is what it was, and with `--dry` always. -/
theorem c154_exit (d : Disk) (farm : Farm) (readConfig : Database → Option ChainConfig) (db : Database) (dry : Bool) (c : SenderCommand)
    (status : Nat) (db' : Database) (h : checkSenders d farm readConfig db dry c = .ok (status, db')) (hs : status ≠ 0 ∨ dry = true) :
    db' = db := by
  have hr : ∃ r : SenderStatus × Database, r.1.code = status ∧ (if r.1.code = 0 ∧ dry = false then r.2 else db) = db' := by
    unfold checkSenders at h
    cases c <;>
    · obtain ⟨r, _, h⟩ := Outcome.bind_eq_ok.mp h
      exact ⟨r, Prod.mk.inj (Outcome.ok.inj h)⟩
  obtain ⟨r, h2, h3⟩ := hr
  rw [← h3, if_neg]
  rintro ⟨h4, h5⟩
  rcases hs with hs | hs
  · exact hs (h2 ▸ h4)
  · rw [h5] at hs
    cases hs

/-- C154 in full: after unwinding exactly the senders of blocks up to the new height are left. -/
def C154_statement : Prop :=
  ∀ (d : Disk) (farm : Farm) (readConfig : Database → Option ChainConfig) (db : Database) (height : Nat) (db' : Database),
    Spec.Ordered db.senders → (∀ e ∈ db.senders, e.1.length = 40) → height < 2 ^ 32 →
    checkSenders d farm readConfig db false (.unwind height) = .ok (0, db') →
    ∀ e, e ∈ db'.senders ↔ e ∈ db.senders ∧ recordBlock e ≤ height

/-- C154 from height 2 on: the senders of blocks up to the new height are left, in the same order, the progress is that height,
nothing else changes, and unwinding does not fail. Missing: height 1; see below. -/
theorem c154_unwind_partial (d : Disk) (farm : Farm) (readConfig : Database → Option ChainConfig) (db : Database) (height : Nat)
    (ho : Spec.Ordered db.senders) (h40 : ∀ e ∈ db.senders, e.1.length = 40) (h2 : 2 ≤ height) (hh : height < 2 ^ 32) :
    ∃ p, checkSenders d farm readConfig db false (.unwind height) = .ok (0, { db with
        senders := db.senders.filter fun e => decide (recordBlock e ≤ height)
        stageProgress := p }) ∧
      getStageProgress { db with stageProgress := p } (ascii "Senders") = .ok height ∧
      ∀ name, name ≠ ascii "Senders" → getStageProgress { db with stageProgress := p } name = getStageProgress db name := by
  refine ⟨db.stageProgress.upsert (ascii "Senders") (beFixed 8 height), ?_, ?_, ?_⟩
  · unfold checkSenders
    dsimp only
    rw [if_neg (by omega), toolUnwind_from_two db height ho h40 h2 (by omega)]
    rfl
  · exact getStageProgress_upsert (name := ascii "Senders") db (by decide) (by omega)
  · intro name hn
    unfold getStageProgress getStageData
    split
    · rfl
    · rw [Db.Table.find_upsert_other _ _ hn]

/-- C154 fails at height 1, the default: everything is erased, with the senders of block 1, and the progress is 1. -/
theorem c154_one_violated (d : Disk) (farm : Farm) (readConfig : Database → Option ChainConfig) (db : Database) (height : Nat)
    (hh : height ≤ 1) :
    ∃ p, checkSenders d farm readConfig db false (.unwind height) = .ok (0, { db with senders := [], stageProgress := p }) ∧
      getStageProgress { db with stageProgress := p } (ascii "Senders") = .ok 1 := by
  refine ⟨db.stageProgress.upsert (ascii "Senders") (beFixed 8 1), ?_, ?_⟩
  · unfold checkSenders
    dsimp only
    rw [show (if height = 0 then 1 else height) = 1 by split <;> omega, toolUnwind_known, if_pos (show (1 : Nat) ≤ 1 by decide), ite_self]
    rfl
  · exact getStageProgress_upsert (name := ascii "Senders") db (by decide) (by decide)

/-- C154 is violated: after unwinding to block 1 its senders are gone. -/
theorem c154_violated : ¬ C154_statement := by
  intro h
  have h1 := h (exDisks 0) exFarm (fun _ => none) exFullDone 1 { exFullDone with
      senders := [], stageProgress := [(ascii "Bodies", beFixed 8 4), (ascii "Senders", beFixed 8 1)] } (by decide +kernel)
    (by decide +kernel) (by decide) (by decide +kernel) (beFixed 8 1 ++ exWord 81, List.replicate 20 7)
  have h2 := h1.mpr (by decide +kernel)
  cases h2

example : checkSenders (exDisks 0) exFarm (fun _ => none) exFullDone false (.unwind 2) = .ok (0, { exFullDone with
    senders := [(beFixed 8 1 ++ exWord 81, List.replicate 20 7), (beFixed 8 2 ++ exWord 82, exSenderOf exLegacy)]
    stageProgress := [(ascii "Bodies", beFixed 8 4), (ascii "Senders", beFixed 8 2)] }) := by decide +kernel
example : ∃ p, checkSenders (exDisks 0) exFarm (fun _ => none) exFullDone false (.unwind 2) = .ok (0, { exFullDone with
      senders := [(beFixed 8 1 ++ exWord 81, List.replicate 20 7), (beFixed 8 2 ++ exWord 82, exSenderOf exLegacy)]
      stageProgress := p }) ∧ getStageProgress { exFullDone with stageProgress := p } (ascii "Senders") = .ok 2 := by
  obtain ⟨p, h1, h2, _⟩ := c154_unwind_partial (exDisks 0) exFarm (fun _ => none) exFullDone 2 (by decide +kernel) (by decide +kernel)
    (by decide) (by decide)
  refine ⟨p, ?_, h2⟩
  rw [h1, show (exFullDone.senders.filter fun e => decide (recordBlock e ≤ 2)) =
    [(beFixed 8 1 ++ exWord 81, List.replicate 20 7), (beFixed 8 2 ++ exWord 82, exSenderOf exLegacy)] by decide +kernel]
example : checkSenders (exDisks 0) exFarm (fun _ => none) exFullDone true (.unwind 2) = .ok (0, exFullDone) := by decide +kernel
example : checkSenders (exDisks 0) exFarm (fun _ => none) exFullDone false (.recover 1 9 true) = .ok (15, exFullDone) := by decide +kernel
example (db' : Database) (h : checkSenders (exDisks 0) exFarm (fun _ => none) exFullDone false (.recover 1 9 true) = .ok (15, db')) :
    db' = exFullDone := c154_exit _ _ _ _ _ _ _ _ h (.inl (by decide))

/-! ## C155: recovery -/

/-- C155 in full: after recovery the senders of every block up to `--to` are stored under its hash. -/
def C155_statement : Prop :=
  ∀ (d : Disk) (farm : Farm) (readConfig : Database → Option ChainConfig) (db : Database) (first last done : Nat)
    (bs : List (Bytes × Block)) (db' : Database), (∀ b, (farm.keccak b).length = 32) → farm.maxBatch ≤ 10000000 → SendersDue db done bs →
    checkSenders d farm readConfig db false (.recover first last false) = .ok (0, db') →
    ∀ i b, bs[i]? = some b → done + 1 + i ≤ last → b.2.transactions ≠ [] →
      SendersUnder farm.keccak farm.recover db' (done + 1 + i) b.1 b.2

private theorem stage_too {d : Disk} {farm : Farm} {readConfig : Database → Option ChainConfig} {db : Database} {first last done : Nat}
    {bs : List (Bytes × Block)} {db' : Database} (hk : ∀ b, (farm.keccak b).length = 32) (hm : farm.maxBatch ≤ 10000000)
    (hne : bs ≠ []) (hd : SendersDue db done bs)
    (h : checkSenders d farm readConfig db false (.recover first last false) = .ok (0, db')) :
    recoverAll d { farm with maxWorkers := db.blockBodies.length + 1 } readConfig db first last = .ok (.success, db') := by
  obtain ⟨db1, h1, h2⟩ := exit_zero h
  rw [if_pos rfl] at h2
  subst h2
  have hl : 0 < bs.length := List.length_pos_iff.mpr hne
  have hr := hd.range
  rcases toolRecover_unforced d farm readConfig db _ last done _ hd.progress (by omega) h1 with ⟨_, hbad⟩ | ⟨config, hc, h3⟩
  · cases hbad
  · exact toolRecoverFrom_ok d farm readConfig config db first last done db' hk (by omega) hc hd.progress (by omega) h3

/-- What is stored, exactly, if `--to` is not below the last body, every block fits into a batch, all batches come in time and every
key is recovered: the senders of the `k`-th block that has transactions lie under its number and the hash of the `k`-th block. -/
theorem c155_shift (d : Disk) (farm : Farm) (readConfig : Database → Option ChainConfig) (db : Database) (first last done : Nat)
    (bs : List (Bytes × Block)) (db' : Database) (hk : ∀ b, (farm.keccak b).length = 32) (hm : farm.maxBatch ≤ 10000000)
    (hd : SendersDue db done bs) (hlast : done + bs.length ≤ last) (hsome : ∃ b ∈ bs, b.2.transactions ≠ [])
    (hc : ∀ b ∈ bs, b.2.transactions.length ≤ farm.maxBatch) (hs : AllSigned farm bs) (hseen : bs.length ≤ farm.seen)
    (h : checkSenders d farm readConfig db false (.recover first last false) = .ok (0, db')) :
    (∀ (k : Nat) (x : Nat × Block) (b : Bytes × Block), (withTransactions done bs)[k]? = some x → bs[k]? = some b →
      SendersUnder farm.keccak farm.recover db' x.1 b.1 x.2) ∧
    (∃ new, db'.senders = db.senders ++ new ∧ new.length = (withTransactions done bs).length) ∧
    (∃ x, (withTransactions done bs).getLast? = some x ∧ getStageProgress db' (ascii "Senders") = .ok x.1) := by
  have hne : bs ≠ [] := by
    obtain ⟨b, hb, _⟩ := hsome
    exact List.ne_nil_of_mem hb
  exact c54_batches_shift d { farm with maxWorkers := db.blockBodies.length + 1 } readConfig db first last done bs db' hk hd hlast hsome hc
    (fun b hb => by have := hc b hb; omega) hs hseen (stage_too hk hm hne hd h)

/-- C155 if moreover every block has transactions. Missing: blocks without transactions, and the theorems below. -/
theorem c155_partial (d : Disk) (farm : Farm) (readConfig : Database → Option ChainConfig) (db : Database) (first last done : Nat)
    (bs : List (Bytes × Block)) (db' : Database) (hk : ∀ b, (farm.keccak b).length = 32) (hm : farm.maxBatch ≤ 10000000)
    (hd : SendersDue db done bs) (hlast : done + bs.length ≤ last) (hne : bs ≠ []) (hall : ∀ b ∈ bs, b.2.transactions ≠ [])
    (hc : ∀ b ∈ bs, b.2.transactions.length ≤ farm.maxBatch) (hs : AllSigned farm bs) (hseen : bs.length ≤ farm.seen)
    (h : checkSenders d farm readConfig db false (.recover first last false) = .ok (0, db')) :
    (∀ i b, bs[i]? = some b → SendersUnder farm.keccak farm.recover db' (done + 1 + i) b.1 b.2) ∧
    getStageProgress db' (ascii "Senders") = .ok (done + bs.length) :=
  c54_batches_partial d { farm with maxWorkers := db.blockBodies.length + 1 } readConfig db first last done bs db' hk hd hlast hne hall hc
    (fun b hb => by have := hc b hb; omega) hs hseen (stage_too hk hm hne hd h)

/-- Without `--force` nothing that is stored is lost or changed, whatever the database and the workers do: there may be more senders,
and another progress. -/
theorem c155_kept (d : Disk) (farm : Farm) (readConfig : Database → Option ChainConfig) (db : Database) (dry : Bool) (first last done : Nat)
    (status : Nat) (db' : Database) (hk : ∀ b, (farm.keccak b).length = 32) (hm : farm.maxBatch ≤ 10000000)
    (hp : getStageProgress db (ascii "Senders") = .ok done) (hd : done + 1 < 2 ^ 64)
    (h : checkSenders d farm readConfig db dry (.recover first last false) = .ok (status, db')) :
    ∃ new p, db' = { db with senders := db.senders ++ new, stageProgress := p } := by
  by_cases hz : status = 0
  · subst hz
    obtain ⟨db1, h1, h2⟩ := exit_zero h
    cases dry with
    | true =>
      rw [h2, if_neg (by decide)]
      exact ⟨[], db.stageProgress, by rw [List.append_nil]⟩
    | false =>
      rw [if_pos rfl] at h2
      subst h2
      rcases toolRecover_unforced d farm readConfig db _ last done _ hp hd h1 with ⟨_, hbad⟩ | ⟨config, _, h3⟩
      · cases hbad
      · exact toolRecoverFrom_keeps d farm config db _ last db' hk (by omega) h3
  · rw [c154_exit d farm readConfig db dry _ status db' h (.inl hz)]
    exact ⟨[], db.stageProgress, by rw [List.append_nil]⟩

/-- C155 fails: if one key cannot be recovered, or the batch comes too late, nothing at all is stored, and the exit status is zero. -/
theorem c155_failed_violated (d : Disk) (farm : Farm) (readConfig : Database → Option ChainConfig) (db : Database)
    (first last done : Nat) (bs : List (Bytes × Block)) (db' : Database) (hk : ∀ b, (farm.keccak b).length = 32)
    (hm : farm.maxBatch ≤ 10000000) (hd : SendersDue db done bs) (hlast : done + bs.length ≤ last) (hne : bs ≠ [])
    (hc : transactionCount bs ≤ farm.maxBatch)
    (hbad : farm.seen = 0 ∨ ∃ b ∈ bs, ∃ t ∈ b.2.transactions, ∀ a, ¬ SenderIs farm.keccak farm.recover t a)
    (h : checkSenders d farm readConfig db false (.recover first last false) = .ok (0, db')) : db' = db :=
  c54_failed_violated d { farm with maxWorkers := db.blockBodies.length + 1 } readConfig db first last done bs db' hd hlast hne hc hbad
    (stage_too hk hm hne hd h)

/-- C155 fails if the hash of a block is canonical of which the body is not yet there: nothing is ever recovered. -/
theorem c155_ahead_violated (d : Disk) (farm : Farm) (readConfig : Database → Option ChainConfig) (db : Database)
    (first last done : Nat) (bs : List (Bytes × Block)) (db' : Database) (hk : ∀ b, (farm.keccak b).length = 32)
    (hm : farm.maxBatch ≤ 10000000) (hd : SendersDue db done bs) (hne : bs ≠ []) (hlast : done + bs.length ≤ last)
    (hrange : done + bs.length + 1 < 2 ^ 64) (hash : Bytes) (hh : (beFixed 8 (done + bs.length + 1), hash) ∈ db.canonicalHashes) :
    checkSenders d farm readConfig db false (.recover first last false) ≠ .ok (0, db') :=
  fun h => c54_ahead_violated d { farm with maxWorkers := db.blockBodies.length + 1 } readConfig db first last done bs db' hd hne hlast
    hrange hash hh (stage_too hk hm hne hd h)

/-- C155 fails if `--to` is below the last body: all canonical hashes to the end of the table are read, and the last one is expected
to be that of `--to`. Nothing is ever recovered. -/
theorem c155_to_violated (d : Disk) (farm : Farm) (readConfig : Database → Option ChainConfig) (db : Database)
    (first last done : Nat) (bs : List (Bytes × Block)) (db' : Database) (hd : SendersDue db done bs) (hne : bs ≠ [])
    (hlast : last < done + bs.length) :
    checkSenders d farm readConfig db false (.recover first last false) ≠ .ok (0, db') := by
  intro h
  have h256 : (256 : Nat) ^ 8 = 2 ^ 64 := by decide
  have hr := hd.range
  obtain ⟨db1, h1, _⟩ := exit_zero h
  have hl : 0 < bs.length := List.length_pos_iff.mpr hne
  rcases toolRecover_unforced d farm readConfig db _ last done _ hd.progress (by omega) h1 with ⟨_, hbad⟩ | ⟨config, _, h3⟩
  · cases hbad
  · obtain ⟨bodies, hs, q, rs, es, hb, h4, h5, h6, _⟩ := toolRecoverFrom_shape d farm config db _ last _ h3
    have hbd := hd.bodies
    rw [hb] at hbd
    have hbd := Outcome.ok.inj hbd
    rw [if_neg (show ¬ bodies < last by omega)] at h4 h5 h6
    have hread := due_readable hd hne
    obtain ⟨b, bs', rfl⟩ := List.exists_cons_of_ne_nil hne
    have hm0 := (hread.canonical 0 (listedBlock b) rfl).2
    rw [Nat.add_zero] at hm0
    obtain ⟨c, hlastc⟩ : ∃ c, ((b :: bs').map listedBlock)[(b :: bs').length - 1]? = some c :=
      ⟨_, List.getElem?_eq_getElem (by rw [List.length_map]; omega)⟩
    have hm1 := (hread.canonical _ c hlastc).2
    have hin : (beFixed 8 (done + 1 + ((b :: bs').length - 1)), c.1) ∈ fromKey db.canonicalHashes (blockKey (done + 1)) := by
      refine mem_fromKey hread.hashes hm0 hm1 ?_
      by_cases hz : (b :: bs').length - 1 = 0
      · rw [hz]
        exact List.le_refl _
      · refine List.le_of_lt ?_
        rw [key_lt (beFixed_length ..) (beFixed_length ..), beToNat_beFixed (by omega), beToNat_beFixed (by omega)]
        omega
    have h7 := (toolCanonicalHeaders_ok db _ _ hs h4).1
    unfold fillCanonicalHeaders at h7
    generalize fromKey db.canonicalHashes (blockKey (done + 1)) = t at h7 hin
    cases t with
    | nil => cases hin
    | cons e t =>
      dsimp only at h7
      obtain ⟨q, h8, h7⟩ := Outcome.bind_eq_ok.mp h7
      cases q with
      | none => cases h7
      | some q =>
        dsimp only at h7
        split at h7
        · cases h7
        · have hq := Option.some.inj (Outcome.ok.inj h7)
          have hbound := canonicalLoop_bound (e :: t) (done + 1) 0 q.1 q.2 h8 _ hin
          rw [hq] at hbound
          have hkey : recordBlock (beFixed 8 (done + 1 + ((b :: bs').length - 1)), c.1) = done + 1 + ((b :: bs').length - 1) := by
            unfold recordBlock
            dsimp only
            rw [List.take_of_length_le (Nat.le_of_eq (beFixed_length ..)), beToNat_beFixed (by omega)]
          omega

/-- With `--force` from block 3 on: what is stored from this block on is erased, and recovery begins there. -/
theorem c155_force (d : Disk) (farm : Farm) (readConfig : Database → Option ChainConfig) (db : Database) (first last done : Nat)
    (ho : Spec.Ordered db.senders) (h40 : ∀ e ∈ db.senders, e.1.length = 40) (hp : getStageProgress db (ascii "Senders") = .ok done)
    (h3 : 3 ≤ first) (hle : first ≤ done) (hd : done + 1 < 2 ^ 64) (config : ChainConfig) (hc : readConfig db = some config)
    (hc' : readConfig { db with
      senders := db.senders.filter fun e => decide (recordBlock e < first)
      stageProgress := db.stageProgress.upsert (ascii "Senders") (beFixed 8 (first - 1)) } = some config) :
    toolRecover d farm readConfig db first last true = toolRecover d farm readConfig { db with
      senders := db.senders.filter fun e => decide (recordBlock e < first)
      stageProgress := db.stageProgress.upsert (ascii "Senders") (beFixed 8 (first - 1)) } first last false := by
  have hfil : (db.senders.filter fun e => decide (recordBlock e ≤ first - 1)) = db.senders.filter fun e => decide (recordBlock e < first) :=
    List.filter_congr fun e _ => by rw [decide_eq_decide]; omega
  have hun := toolUnwind_from_two db (first - 1) ho h40 (by omega) (by omega)
  rw [hfil] at hun
  have hp' := getStageProgress_upsert (name := ascii "Senders") (n := first - 1)
    { db with senders := db.senders.filter fun e => decide (recordBlock e < first) } (by decide) (by omega)
  conv_lhs => unfold toolRecover
  rw [hc]
  dsimp only
  rw [hp]
  dsimp only
  rw [Nat.mod_eq_of_lt hd, if_neg (show ¬ done + 1 < first by omega), if_pos hle, if_pos rfl, if_neg (show ¬ first = 0 by omega), hun]
  dsimp only
  unfold toolRecover
  rw [hc']
  dsimp only at hp' ⊢
  rw [hp']
  dsimp only
  rw [Nat.mod_eq_of_lt (show first - 1 + 1 < 2 ^ 64 by omega), if_neg (show ¬ first - 1 + 1 < first by omega),
    if_neg (show ¬ first ≤ first - 1 by omega)]

/-- A block with more transactions than `--batch` is put into one batch all the same, and its worker writes past the end of its
memory. -/
theorem c155_overflow_violated (farm : Farm) (config : ChainConfig) (n : Nat) (txs : List Transaction) (ps : List Package)
    (hl : farm.maxBatch < txs.length) (hf : fillBatch farm config n txs = .ok ps)
    (hr : ∀ p ∈ ps, ∃ key, farm.recover p.hash p.signature p.odd = some (4 :: key)) :
    toolBlock farm config n txs [] [] = .ok (.filled [] ps) ∧ workBatch farm ps = .ub := by
  have hne : txs ≠ [] := by
    rintro rfl
    cases hl
  have hlen : ps.length = txs.length := by
    rw [fillBatch_ok farm config n txs ps hf]
    exact List.length_map ..
  constructor
  · unfold toolBlock
    rw [if_neg hne, List.length_nil, Nat.zero_add, if_pos hl]
    unfold toolDispatch
    rw [if_pos rfl]
    dsimp only
    rw [hf]
    rfl
  · cases ps with
    | nil =>
      rw [List.length_nil] at hlen
      omega
    | cons p ps => exact workLoop_overflow farm _ _ _ _ (by omega) hr

/-! ### Examples -/

theorem exToolFull_run : checkSenders (exDisks 0) { exFarm with maxBatch := 1, seen := 3 } (fun _ => some exSenderConfig)
    (exSenderDb [exLegacyNext] [exLegacy] 7) false (.recover 1 9 false) = .ok (0, exFullDone) := by decide +kernel

theorem exToolGap_run : checkSenders (exDisks 0) exFarm (fun _ => some exSenderConfig) (exSenderDb [] [exLegacyNext] 6) false
    (.recover 1 9 false) = .ok (0, exGapDone) := by decide +kernel

example : SendersUnder exFarm.keccak exFarm.recover exFullDone 4 (exWord 84) (exSenderBlock [exLegacy]) ∧
    getStageProgress exFullDone (ascii "Senders") = .ok 4 := by
  obtain ⟨h1, h2⟩ := c155_partial _ { exFarm with maxBatch := 1, seen := 3 } _ _ _ _ _ _ _ exHash_length (by decide) exFull_due (by decide)
    (by decide) (by decide +kernel) (by decide +kernel) exFull_signed (by decide) exToolFull_run
  exact ⟨h1 2 _ rfl, h2⟩

example : SendersUnder exFarm.keccak exFarm.recover exGapDone 4 (exWord 83) (exSenderBlock [exLegacyNext]) :=
  (c155_shift _ { exFarm with seen := 3 } _ _ _ _ _ _ _ exHash_length (by decide) exGap_due (by decide)
    ⟨_, List.mem_cons_self, by decide⟩ (by decide +kernel) exGap_signed (by decide) (show checkSenders (exDisks 0) { exFarm with seen := 3 }
      (fun _ => some exSenderConfig) (exSenderDb [] [exLegacyNext] 6) false (.recover 1 9 false) = .ok (0, exGapDone) by decide +kernel)).1
      1 (4, exSenderBlock [exLegacyNext]) _ rfl rfl

/-- C155 is violated: one block without transactions, and the senders of the block after it are under the wrong hash. -/
theorem c155_violated : ¬ C155_statement := by
  intro h
  obtain ⟨ss, _, hm⟩ := h (exDisks 0) exFarm (fun _ => some exSenderConfig) (exSenderDb [] [exLegacyNext] 6) 1 9 1 exGap exGapDone
    exHash_length (by decide) exGap_due exToolGap_run 2 (exWord 84, exSenderBlock [exLegacyNext]) rfl (by decide) (by decide)
  have hno : ∀ e ∈ exGapDone.senders, e.1 ≠ beFixed 8 (1 + 1 + 2) ++ exWord 84 := by decide +kernel
  exact hno _ hm.mem rfl

/-- `--force --from 2` succeeds, recovers blocks 2 to 4 again, and loses the senders of block 1. -/
theorem c155_force_violated : checkSenders (exDisks 0) exFarm (fun _ => some exSenderConfig) exFullDone false (.recover 2 9 true) =
      .ok (0, { exFullDone with senders := exFullDone.senders.tail }) ∧
    (beFixed 8 1 ++ exWord 81, List.replicate 20 7) ∈ exFullDone.senders ∧
    (beFixed 8 1 ++ exWord 81, List.replicate 20 7) ∉ exFullDone.senders.tail := by decide +kernel

/-- From block 3 on it loses nothing. -/
example : checkSenders (exDisks 0) exFarm (fun _ => some exSenderConfig) exFullDone false (.recover 3 9 true) = .ok (0, exFullDone) := by
  decide +kernel
example : toolRecover (exDisks 0) exFarm (fun _ => some exSenderConfig) exFullDone 3 9 true = .ok (.succeeded, exFullDone) := by
  rw [c155_force (exDisks 0) exFarm (fun _ => some exSenderConfig) exFullDone 3 9 4 (by decide +kernel) (by decide +kernel)
    (by decide +kernel) (by decide) (by decide) (by decide) exSenderConfig rfl rfl]
  decide +kernel

/-- `--to 3` with four bodies: `HeaderNotFound`. -/
example : checkSenders (exDisks 0) exFarm (fun _ => some exSenderConfig) (exSenderDb [exLegacyNext] [exLegacy] 7) false
    (.recover 1 3 false) = .ok (2, exSenderDb [exLegacyNext] [exLegacy] 7) := by decide +kernel
example (db' : Database) : checkSenders (exDisks 0) exFarm (fun _ => some exSenderConfig) (exSenderDb [exLegacyNext] [exLegacy] 7) false
    (.recover 1 3 false) ≠ .ok (0, db') := c155_to_violated _ _ _ _ 1 3 1 exFull db' exFull_due (by decide) (by decide)

/-- One key cannot be recovered: nothing is stored, and the status is zero. -/
example : checkSenders (exDisks 0) { exFarm with recover := fun _ _ _ => none } (fun _ => some exSenderConfig)
    (exSenderDb [] [exLegacyNext] 6) false (.recover 1 9 false) = .ok (0, exSenderDb [] [exLegacyNext] 6) := by decide +kernel
example (db' : Database) (h : checkSenders (exDisks 0) { exFarm with seen := 0 } (fun _ => some exSenderConfig)
    (exSenderDb [] [exLegacyNext] 6) false (.recover 1 9 false) = .ok (0, db')) : db' = exSenderDb [] [exLegacyNext] 6 :=
  c155_failed_violated _ _ _ _ 1 9 1 exGap db' exHash_length (by decide) exGap_due (by decide) (by decide) (by decide +kernel) (.inl rfl) h

/-- A block of two transactions and batches of one. -/
example : checkSenders (exDisks 0) { exFarm with maxBatch := 1, seen := 3 } (fun _ => some exSenderConfig)
    (exSenderDb [exLegacyNext, exLegacy] [] 8) false (.recover 1 9 false) = .ub := by decide +kernel
example : workBatch { exFarm with maxBatch := 1 } [⟨3, [], false, []⟩, ⟨3, [], true, []⟩] = .ub := by decide +kernel

/-- A table of bodies that ends too early is no failure. -/
example : checkSenders (exDisks 0) exFarm (fun _ => some exSenderConfig)
    { exSenderDb [exLegacyNext] [exLegacy] 7 with blockBodies := (exSenderDb [exLegacyNext] [exLegacy] 7).blockBodies.take 2 } false
    (.recover 1 9 false) = .ok (0, { exFullDone with
      blockBodies := (exSenderDb [exLegacyNext] [exLegacy] 7).blockBodies.take 2
      senders := exFullDone.senders.take 3
      stageProgress := [(ascii "Bodies", beFixed 8 4), (ascii "Senders", beFixed 8 3)] }) := by decide +kernel

end Silkworm.Properties
