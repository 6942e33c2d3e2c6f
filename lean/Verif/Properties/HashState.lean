import Verif.Stages.HashStateLemmas
import Verif.Properties.Unwind
import Verif.Properties.Etl
import Verif.Properties.Receipt

/-!
# C56, C95, C96: hashing the state
-/

namespace Silkworm.Properties

open Silkworm.Db Silkworm.Etl Silkworm.Spec Silkworm.Stages

/-! ## C56: the whole plain state -/

/-- The keys of the plain state and of the table of code hashes have the lengths they always have, and the lengths of values
fit 32 bits. -/
structure PlainFits (db : Database) : Prop where
  state : ∀ e ∈ db.plainState, (e.1.length = 20 ∨ e.1.length = 28) ∧ e.2.length < 2 ^ 32
  code : ∀ e ∈ db.plainContractCode, e.1.length = 28 ∧ e.2.length < 2 ^ 32

/-- Nothing has been hashed yet. -/
structure NothingHashed (db : Database) : Prop where
  progress : getStageProgress db (ascii "HashState") = .ok 0
  accounts : db.hashedAccounts = []
  storage : db.hashedStorage = []
  code : db.hashedCodeHash = []

/-- C56 as stated: after hashing the plain state every slot is found under the hash of the address, the incarnation and the
hash of the location. -/
def C56_statement : Prop :=
  ∀ (d : Nat → Disk) (keccak : Bytes → Bytes) (db db' : Database), (∀ x, (keccak x).length = 32) → PlainFits db →
    MultiOrdered db.plainState → NothingHashed db → stageHashState d keccak db = .ok (.success, db') →
    ∀ a i l v, a.length = 20 → i.length = 8 → l.length = 32 → (a ++ i, l ++ v) ∈ db.plainState →
      ∃ w, (keccak a ++ i ++ keccak l, w) ∈ db'.hashedStorage

/-- What hashing from the beginning consists of. -/
theorem hash_parts {d : Nat → Disk} {keccak : Bytes → Bytes} {db db' : Database} (hf : PlainFits db)
    (hp : getStageProgress db (ascii "HashState") = .ok 0) (h : stageHashState d keccak db = .ok (.success, db')) :
    ∃ accounts storage code executed,
      etlLoad (d 0) kFlushSize ((db.plainState.filter fun e => e.1.length == 20).map fun e => ⟨keccak e.1, e.2⟩) (putEntry true)
        db.hashedAccounts = .ok accounts ∧
      etlLoad (d 1) kFlushSize ((db.plainState.filter fun e => e.1.length == 28).map fun e => ⟨cleanStorageKey keccak e.1, e.2⟩)
        (putEntry true) db.hashedStorage = .ok storage ∧
      etlLoad (d 2) kFlushSize (db.plainContractCode.map fun e => ⟨keccak (e.1.take 20) ++ e.1.drop 20, e.2⟩) (putEntry true)
        db.hashedCodeHash = .ok code ∧
      getStageProgress db (ascii "Execution") = .ok executed ∧
      db' = { db with
        hashedAccounts := accounts
        hashedStorage := storage
        hashedCodeHash := code
        stageProgress := db.stageProgress.upsert (ascii "HashState") (beFixed 8 executed) } := by
  unfold stageHashState at h
  simp only [hp, liftDb, Outcome.ok_bind, ne_eq, not_true_eq_false, if_false] at h
  unfold promoteCleanState promoteCleanCode at h
  rw [cleanStateEntries_spec keccak _ fun e he => (hf.state e he).1] at h
  simp only [Outcome.ok_bind] at h
  obtain ⟨y, hy, h⟩ := Outcome.bind_eq_ok.mp h
  obtain ⟨accounts, ha, hy⟩ := Outcome.bind_eq_ok.mp hy
  obtain ⟨storage, hs, hy⟩ := Outcome.bind_eq_ok.mp hy
  have hy := Outcome.ok.inj hy
  subst hy
  dsimp only at h
  rw [cleanCodeEntries_spec keccak _ fun e he => (hf.code e he).1] at h
  simp only [Outcome.ok_bind] at h
  obtain ⟨x, hx, h⟩ := Outcome.bind_eq_ok.mp h
  obtain ⟨code, hc, hx⟩ := Outcome.bind_eq_ok.mp hx
  have hx := Outcome.ok.inj hx
  subst hx
  obtain ⟨executed, he, h⟩ := Outcome.bind_eq_ok.mp h
  obtain ⟨z, hz, h⟩ := Outcome.bind_eq_ok.mp h
  rw [setStageProgress_known _ (name := ascii "HashState") (by decide +kernel)] at hz
  refine ⟨accounts, storage, code, executed, ha, hs, hc, ?_, ?_⟩
  · have : getStageProgress { db with hashedAccounts := accounts, hashedStorage := storage, hashedCodeHash := code }
        (ascii "Execution") = getStageProgress db (ascii "Execution") := rfl
    rw [this] at he
    cases hg : getStageProgress db (ascii "Execution") with
    | ok n => rw [hg] at he; exact congrArg _ (Outcome.ok.inj he)
    | err e => rw [hg] at he; cases he
    | ub => rw [hg] at he; cases he
  · have h1 := Outcome.ok.inj hz
    have h2 := (Prod.mk.inj (Outcome.ok.inj h)).2
    rw [← h2, ← h1]

/-- C56 fails for the key: whatever is stored for slots lies under the first 20 bytes of the hash of the address, the
incarnation, the hash of the empty string and twelve zeros; the location takes no part. -/
theorem c56_keys_violated (d : Nat → Disk) (keccak : Bytes → Bytes) (db db' : Database) (hk : ∀ x, (keccak x).length = 32)
    (hf : PlainFits db) (hn : NothingHashed db) (h : stageHashState d keccak db = .ok (.success, db')) :
    (∀ e ∈ db'.hashedStorage, ∃ a i, a.length = 20 ∧ i.length = 8 ∧ (a ++ i, e.2) ∈ db.plainState ∧
      e.1 = (keccak a).take 20 ++ i ++ keccak [] ++ List.replicate 12 0) ∧
    ∀ a i v, a.length = 20 → i.length = 8 → (a ++ i, v) ∈ db.plainState →
      ∃ w, ((keccak a).take 20 ++ i ++ keccak [] ++ List.replicate 12 0, w) ∈ db'.hashedStorage := by
  obtain ⟨accounts, storage, code, executed, _, hs, _, _, hdb⟩ := hash_parts hf hn.progress h
  rw [hn.storage] at hs
  have hck : ∀ a i : Bytes, a.length = 20 → i.length = 8 →
      cleanStorageKey keccak (a ++ i) = (keccak a).take 20 ++ i ++ keccak [] ++ List.replicate 12 0 := by
    intro a i ha hi
    unfold cleanStorageKey
    rw [List.take_append_of_le_length (Nat.le_of_eq ha.symm), List.take_of_length_le (l := a) (by omega),
      List.drop_append_of_le_length (Nat.le_of_eq ha.symm), List.drop_eq_nil_of_le (as := a) (by omega), List.nil_append,
      List.take_of_length_le (l := i) (by omega), List.drop_eq_nil_of_le (by rw [List.length_append]; omega)]
  have hlen : ∀ x, (cleanStorageKey keccak x).length < 2 ^ 32 ∧ (cleanStorageKey keccak x).length ≠ 0 := by
    intro x
    unfold cleanStorageKey
    simp only [List.length_append, List.length_take, hk, List.length_replicate]
    omega
  rcases appendLoad_cases (d 1)
    ((db.plainState.filter fun e => e.1.length == 28).map fun e => (⟨cleanStorageKey keccak e.1, e.2⟩ : Entry))
    (fun e he => by
      obtain ⟨x, hx, rfl⟩ := List.mem_map.mp he
      exact ⟨(hlen _).1, (hf.state x (List.mem_filter.mp hx).1).2⟩)
    (fun e he => by
      obtain ⟨x, hx, rfl⟩ := List.mem_map.mp he
      have := (hlen x.1).2
      unfold Entry.size
      dsimp only
      omega) with hbad | ⟨t, ht, _, hsub, hall, _⟩
  · rw [hbad] at hs; cases hs
  · rw [ht] at hs
    have hs := Outcome.ok.inj hs
    subst hs
    rw [hdb]
    dsimp only
    constructor
    · intro e he
      obtain ⟨x, hx, rfl⟩ := hsub e he
      obtain ⟨y, hy, rfl⟩ := List.mem_map.mp hx
      obtain ⟨hy, h28⟩ := List.mem_filter.mp hy
      have h28 : y.1.length = 28 := by simpa using h28
      refine ⟨y.1.take 20, y.1.drop 20, by rw [List.length_take]; omega, by rw [List.length_drop]; omega, ?_, ?_⟩
      · rw [List.take_append_drop]; exact hy
      · rw [← hck _ _ (by rw [List.length_take]; omega) (by rw [List.length_drop]; omega), List.take_append_drop]
    · intro a i v ha hi hm
      have := hall ⟨cleanStorageKey keccak (a ++ i), v⟩
        (List.mem_map.mpr ⟨(a ++ i, v), List.mem_filter.mpr ⟨hm, by simp [ha, hi]⟩, rfl⟩)
      rw [hck a i ha hi] at this
      exact this

/-- C56 fails for the number of slots: under each key there is one value, so of all slots of a contract one is kept. -/
theorem c56_one_value_violated (d : Nat → Disk) (keccak : Bytes → Bytes) (db db' : Database) (hk : ∀ x, (keccak x).length = 32)
    (hf : PlainFits db) (hn : NothingHashed db) (h : stageHashState d keccak db = .ok (.success, db')) :
    Ordered db'.hashedStorage := by
  obtain ⟨accounts, storage, code, executed, _, hs, _, _, hdb⟩ := hash_parts hf hn.progress h
  rw [hn.storage] at hs
  have hlen : ∀ x, (cleanStorageKey keccak x).length < 2 ^ 32 ∧ (cleanStorageKey keccak x).length ≠ 0 := by
    intro x
    unfold cleanStorageKey
    simp only [List.length_append, List.length_take, hk, List.length_replicate]
    omega
  rcases appendLoad_cases (d 1)
    ((db.plainState.filter fun e => e.1.length == 28).map fun e => (⟨cleanStorageKey keccak e.1, e.2⟩ : Entry))
    (fun e he => by
      obtain ⟨x, hx, rfl⟩ := List.mem_map.mp he
      exact ⟨(hlen _).1, (hf.state x (List.mem_filter.mp hx).1).2⟩)
    (fun e he => by
      obtain ⟨x, hx, rfl⟩ := List.mem_map.mp he
      have := (hlen x.1).2
      unfold Entry.size
      dsimp only
      omega) with hbad | ⟨t, ht, hord, _⟩
  · rw [hbad] at hs; cases hs
  · rw [ht] at hs
    have hs := Outcome.ok.inj hs
    subst hs
    rw [hdb]
    exact hord

/-- C56 for accounts: every account is found under the hash of its address, if no two addresses have the same hash; nothing
else is stored, and the stage has reached the block that was executed last. Missing: slots. -/
theorem c56_accounts_partial (d : Nat → Disk) (keccak : Bytes → Bytes) (db db' : Database) (hk : ∀ x, (keccak x).length = 32)
    (hf : PlainFits db) (hn : NothingHashed db) (h : stageHashState d keccak db = .ok (.success, db'))
    (hcol : ∀ e ∈ db.plainState, ∀ f ∈ db.plainState, e.1.length = 20 → f.1.length = 20 → keccak e.1 = keccak f.1 → e = f) :
    (∀ a v, a.length = 20 → (a, v) ∈ db.plainState → db'.hashedAccounts.find (keccak a) = some (keccak a, v)) ∧
    (∀ e ∈ db'.hashedAccounts, ∃ a, a.length = 20 ∧ (a, e.2) ∈ db.plainState ∧ e.1 = keccak a) ∧ Ordered db'.hashedAccounts := by
  obtain ⟨accounts, storage, code, executed, ha, _, _, _, hdb⟩ := hash_parts hf hn.progress h
  rw [hn.accounts] at ha
  rcases appendLoad_cases (d 0)
    ((db.plainState.filter fun e => e.1.length == 20).map fun e => (⟨keccak e.1, e.2⟩ : Entry))
    (fun e he => by
      obtain ⟨x, hx, rfl⟩ := List.mem_map.mp he
      exact ⟨by show (keccak x.1).length < _; rw [hk]; decide, (hf.state x (List.mem_filter.mp hx).1).2⟩)
    (fun e he => by
      obtain ⟨x, hx, rfl⟩ := List.mem_map.mp he
      unfold Entry.size
      dsimp only
      rw [hk]
      omega) with hbad | ⟨t, ht, hord, hsub, _, hall⟩
  · rw [hbad] at ha; cases ha
  · rw [ht] at ha
    have ha := Outcome.ok.inj ha
    subst ha
    rw [hdb]
    dsimp only
    refine ⟨fun a v hl hm => ?_, fun e he => ?_, hord⟩
    · refine hall (keccak a) v (List.mem_map.mpr ⟨(a, v), List.mem_filter.mpr ⟨hm, by simp [hl]⟩, rfl⟩) fun e he hke => ?_
      obtain ⟨y, hy, rfl⟩ := List.mem_map.mp he
      obtain ⟨hy, h20⟩ := List.mem_filter.mp hy
      have := hcol y hy (a, v) hm (by simpa using h20) hl hke
      rw [this]
    · obtain ⟨x, hx, rfl⟩ := hsub e he
      obtain ⟨y, hy, rfl⟩ := List.mem_map.mp hx
      obtain ⟨hy, h20⟩ := List.mem_filter.mp hy
      exact ⟨y.1, by simpa using h20, hy, rfl⟩

/-- C56 for code hashes: each is found under the hash of the address and the incarnation, if there are no collisions; and the
stage has reached the block that was executed last. Missing: slots. -/
theorem c56_code_partial (d : Nat → Disk) (keccak : Bytes → Bytes) (db db' : Database) (hk : ∀ x, (keccak x).length = 32)
    (hf : PlainFits db) (hn : NothingHashed db) (ho : Ordered db.plainContractCode)
    (h : stageHashState d keccak db = .ok (.success, db'))
    (hcol : ∀ e ∈ db.plainContractCode, ∀ f ∈ db.plainContractCode, keccak (e.1.take 20) = keccak (f.1.take 20) →
      e.1.take 20 = f.1.take 20) :
    (∀ a i v, a.length = 20 → i.length = 8 → (a ++ i, v) ∈ db.plainContractCode →
      db'.hashedCodeHash.find (keccak a ++ i) = some (keccak a ++ i, v)) ∧
    ∀ n, n < 2 ^ 64 → getStageProgress db (ascii "Execution") = .ok n → getStageProgress db' (ascii "HashState") = .ok n := by
  obtain ⟨accounts, storage, code, executed, _, _, hc, hex, hdb⟩ := hash_parts hf hn.progress h
  rw [hn.code] at hc
  rcases appendLoad_cases (d 2)
    (db.plainContractCode.map fun e => (⟨keccak (e.1.take 20) ++ e.1.drop 20, e.2⟩ : Entry))
    (fun e he => by
      obtain ⟨x, hx, rfl⟩ := List.mem_map.mp he
      refine ⟨?_, (hf.code x hx).2⟩
      show (keccak (x.1.take 20) ++ x.1.drop 20).length < _
      have := (hf.code x hx).1
      rw [List.length_append, hk, List.length_drop]
      omega)
    (fun e he => by
      obtain ⟨x, hx, rfl⟩ := List.mem_map.mp he
      unfold Entry.size
      dsimp only
      rw [List.length_append, hk]
      omega) with hbad | ⟨t, ht, _, _, _, hall⟩
  · rw [hbad] at hc; cases hc
  · rw [ht] at hc
    have hc := Outcome.ok.inj hc
    subst hc
    refine ⟨fun a i v hl hi hm => ?_, fun n hn' hg => ?_⟩
    · rw [hdb]
      dsimp only
      have h1 : (a ++ i).take 20 = a := by rw [List.take_append_of_le_length (by omega), List.take_of_length_le (by omega)]
      have h2 : (a ++ i).drop 20 = i := by
        rw [List.drop_append_of_le_length (by omega), List.drop_eq_nil_of_le (by omega), List.nil_append]
      refine hall _ v (List.mem_map.mpr ⟨(a ++ i, v), hm, by rw [h1, h2]⟩) fun e he hke => ?_
      obtain ⟨y, hy, rfl⟩ := List.mem_map.mp he
      dsimp only at hke ⊢
      obtain ⟨k1, k2⟩ := List.append_inj hke (by rw [hk, hk])
      have k3 := hcol y hy (a ++ i, v) hm (by rw [h1]; exact k1)
      have hy1 : y.1 = a ++ i := by
        rw [← List.take_append_drop 20 y.1, k3, k2]
        dsimp only
        rw [h1]
      have e1 := find_of_mem ho hm
      have e2 := find_of_mem ho (show (a ++ i, y.2) ∈ db.plainContractCode by rw [← hy1]; exact hy)
      rw [e1] at e2
      exact ((Prod.mk.inj (Option.some.inj e2)).2).symm
    · rw [hex] at hg
      have := Outcome.ok.inj hg
      subst this
      rw [hdb]
      exact getStageProgress_upsert { db with hashedAccounts := _, hashedStorage := _, hashedCodeHash := _ }
        (by decide +kernel) hn'

/-- If the tables are not empty although the progress is 0, as after unwinding to block 0, then entries are dropped without a
word: accounts whose hash is not greater than the last key. -/
theorem c56_leftovers_violated (d : Nat → Disk) (keccak : Bytes → Bytes) (db db' : Database) (hk : ∀ x, (keccak x).length = 32)
    (hf : PlainFits db) (hp : getStageProgress db (ascii "HashState") = .ok 0) (l : Bytes × Bytes)
    (hl : db.hashedAccounts.getLast? = some l) (hlast : ∀ a, a.length = 20 → keccak a ≤ l.1)
    (h : stageHashState d keccak db = .ok (.success, db')) : db'.hashedAccounts = db.hashedAccounts := by
  obtain ⟨accounts, storage, code, executed, ha, _, _, _, hdb⟩ := hash_parts hf hp h
  rcases etlLoad_cases (d 0) kFlushSize
    ((db.plainState.filter fun e => e.1.length == 20).map fun e => (⟨keccak e.1, e.2⟩ : Entry))
    (putEntry true) db.hashedAccounts (fun e he => by
      obtain ⟨x, hx, rfl⟩ := List.mem_map.mp he
      exact ⟨by show (keccak x.1).length < _; rw [hk]; decide, (hf.state x (List.mem_filter.mp hx).1).2⟩)
    (fun e he => by
      obtain ⟨x, hx, rfl⟩ := List.mem_map.mp he
      unfold Entry.size
      dsimp only
      rw [hk]
      omega) with hbad | ⟨L, hperm, _, hload⟩
  · rw [hbad] at ha; cases ha
  · rw [hload, foldlM_putEntry] at ha
    have ha := Outcome.ok.inj ha
    rw [hdb]
    dsimp only
    rw [← ha]
    refine appendAll_smaller L _ l hl fun x hx => ?_
    obtain ⟨y, hy, rfl⟩ := List.mem_map.mp (hperm.mem_iff.mp hx)
    obtain ⟨_, h20⟩ := List.mem_filter.mp hy
    have h1 := hlast y.1 (by simpa using h20)
    cases hlt : lexLt l.1 (keccak y.1) with
    | false => rfl
    | true =>
      have := (lexLt_iff _ _).mp hlt
      exact absurd this (List.not_lt.mpr h1)

/-- A plain state with an account and two slots of it, and its code hash. -/
def exPlainDb : Database :=
  { plainState := [(exAddr 1, [7]), (exAddr 1 ++ beFixed 8 1, exWord 5 ++ [55]), (exAddr 1 ++ beFixed 8 1, exWord 6 ++ [66])]
    plainContractCode := [(exAddr 1 ++ beFixed 8 1, exWord 9)]
    stageProgress := [(ascii "Execution", beFixed 8 3)] }

/-- What hashing it leaves. -/
def exHashedDb : Database :=
  { exPlainDb with
    hashedAccounts := [(exHash (exAddr 1), [7])]
    hashedStorage := [(exAddr 1 ++ beFixed 8 1 ++ List.replicate 44 0, exWord 5 ++ [55])]
    hashedCodeHash := [(exHash (exAddr 1) ++ beFixed 8 1, exWord 9)]
    stageProgress := [(ascii "Execution", beFixed 8 3), (ascii "HashState", beFixed 8 3)] }

/-- Room on every disk. -/
def exDisks : Nat → Disk := fun _ => ⟨fun _ => 1000, exHeap⟩

theorem exPlain_hashed : stageHashState exDisks exHash exPlainDb = .ok (.success, exHashedDb) := by decide +kernel

theorem exPlain_fits : PlainFits exPlainDb := ⟨by decide +kernel, by decide +kernel⟩

theorem exPlain_nothing : NothingHashed exPlainDb := ⟨by decide +kernel, rfl, rfl, rfl⟩

/-- C56 is violated: neither slot is found under its key. -/
theorem c56_violated : ¬ C56_statement := by
  intro h
  obtain ⟨w, hw⟩ := h exDisks exHash exPlainDb exHashedDb exHash_length exPlain_fits (by decide +kernel) exPlain_nothing
    exPlain_hashed (exAddr 1) (beFixed 8 1) (exWord 5) [55] (by decide +kernel) (by decide +kernel) (by decide +kernel)
    (by decide +kernel)
  have h1 : ∀ e ∈ exHashedDb.hashedStorage, e.1 ≠ exHash (exAddr 1) ++ beFixed 8 1 ++ exHash (exWord 5) := by decide +kernel
  exact h1 _ hw rfl

example : ∃ w, ((exHash (exAddr 1)).take 20 ++ beFixed 8 1 ++ exHash [] ++ List.replicate 12 0, w) ∈ exHashedDb.hashedStorage :=
  (c56_keys_violated exDisks exHash exPlainDb exHashedDb exHash_length exPlain_fits exPlain_nothing exPlain_hashed).2
    (exAddr 1) (beFixed 8 1) (exWord 6 ++ [66]) (by decide +kernel) (by decide +kernel) (by decide +kernel)
example : Ordered exHashedDb.hashedStorage ∧ exHashedDb.hashedStorage.length = 1 :=
  ⟨c56_one_value_violated exDisks exHash exPlainDb exHashedDb exHash_length exPlain_fits exPlain_nothing exPlain_hashed,
    by decide +kernel⟩
example : exHashedDb.hashedAccounts.find (exHash (exAddr 1)) = some (exHash (exAddr 1), [7]) :=
  (c56_accounts_partial exDisks exHash exPlainDb exHashedDb exHash_length exPlain_fits exPlain_nothing exPlain_hashed
    (by decide +kernel)).1 (exAddr 1) [7] (by decide +kernel) (by decide +kernel)
example : exHashedDb.hashedCodeHash.find (exHash (exAddr 1) ++ beFixed 8 1) =
      some (exHash (exAddr 1) ++ beFixed 8 1, exWord 9) ∧ getStageProgress exHashedDb (ascii "HashState") = .ok 3 :=
  have h := c56_code_partial exDisks exHash exPlainDb exHashedDb exHash_length exPlain_fits exPlain_nothing (by decide +kernel)
    exPlain_hashed (by decide +kernel)
  ⟨h.1 (exAddr 1) (beFixed 8 1) (exWord 9) (by decide +kernel) (by decide +kernel) (by decide +kernel),
    h.2 3 (by decide) (by decide +kernel)⟩
/-- The same state with an account left in the table. -/
def exLeftDb : Database := { exPlainDb with hashedAccounts := [(List.replicate 32 255, [8])] }

example : stageHashState exDisks exHash exLeftDb =
    .ok (.success, { exHashedDb with hashedAccounts := [(List.replicate 32 255, [8])] }) := by decide +kernel

/-! ## C95: from the change sets -/

/-- The tables are in order, and keys and values of the change sets and of the plain state have the lengths they always have. -/
structure ChangesFit (db : Database) : Prop where
  sets : ChangeSetsFit db
  accounts : ∀ e ∈ db.accountChangeSet, 20 ≤ e.2.length
  storage : ∀ e ∈ db.storageChangeSet, 32 ≤ e.2.length
  state : ∀ e ∈ db.plainState, e.1.length = 20 ∨ e.1.length = 28

/-- The account was changed after block `n`. -/
def AccountChanged (db : Database) (n : Nat) (a : Bytes) : Prop :=
  ∃ e ∈ db.accountChangeSet, n < recordBlock e ∧ e.2.take 20 = a

/-- The slot was changed after block `n`. -/
def SlotChanged (db : Database) (n : Nat) (contract location : Bytes) : Prop :=
  ∃ e ∈ db.storageChangeSet, n < recordBlock e ∧ e.1.drop 8 = contract ∧ e.2.take 32 = location

/-- No other account that was changed has the hash of `a`. -/
def NoCollision (keccak : Bytes → Bytes) (db : Database) (n : Nat) (a : Bytes) : Prop :=
  ∀ b, AccountChanged db n b → keccak b = keccak a → b = a

/-- C95 as stated: after the stage has moved on from block `p`, every account and slot that was changed since is stored as it
is in the plain state, under its hashed key, and is absent if it is absent there. -/
def C95_statement : Prop :=
  ∀ (d : Nat → Disk) (keccak : Bytes → Bytes) (db db' : Database) (p : Nat), (∀ x, (keccak x).length = 32) → ChangesFit db →
    getStageProgress db (ascii "HashState") = .ok p → 0 < p → p + 1 < 2 ^ 64 →
    stageHashState d keccak db = .ok (.success, db') →
    (∀ a, AccountChanged db p a → NoCollision keccak db p a →
      stored db'.hashedAccounts (keccak a) = stored db.plainState a) ∧
    ∀ a i l v, a.length = 20 → i.length = 8 → l.length = 32 → SlotChanged db p (a ++ i) l → (a ++ i, l ++ v) ∈ db.plainState →
      ∃ w, (keccak a ++ i ++ keccak l, w) ∈ db'.hashedStorage

/-- What moving on consists of. -/
theorem promote_parts {d : Nat → Disk} {keccak : Bytes → Bytes} {db db' : Database} {p : Nat} (hf : ChangesFit db)
    (hp : getStageProgress db (ascii "HashState") = .ok p) (h0 : 0 < p) (hb : p + 1 < 2 ^ 64)
    (h : stageHashState d keccak db = .ok (.success, db')) :
    ∃ executed, getStageProgress db (ascii "Execution") = .ok executed ∧
      (∀ a x, AccountChanged db p a → db.plainState.find a = some x → ∃ i, extractIncarnation x.2 = .ok i) ∧
      (∀ a x, AccountChanged db p a → db.plainState.find a = some x → (0 : UInt8) ∈ keccak a) ∧
      db' = { db with
        hashedAccounts := upserts ((db.accountChangeSet.filter fun e => decide (p < recordBlock e)).map fun e =>
          (db.plainState.find (e.2.take 20)).map fun x => (beforeZero (keccak (e.2.take 20)), x.2)) db.hashedAccounts
        hashedCodeHash := upserts ((db.accountChangeSet.filter fun e => decide (p < recordBlock e)).map fun e =>
          codeEntry keccak db.plainState db.plainContractCode (incOf db.plainState) (e.2.take 20)) db.hashedCodeHash
        stageProgress := db.stageProgress.upsert (ascii "HashState") (beFixed 8 executed) } := by
  unfold stageHashState at h
  have hp0 : p ≠ 0 := by omega
  simp only [hp, liftDb, Outcome.ok_bind, ne_eq, hp0, not_false_eq_true, if_true] at h
  unfold hashStatePromote at h
  rw [Nat.mod_eq_of_lt hb] at h
  simp only [show blockKey (p + 1) = beFixed 8 (p + 1) from rfl] at h
  rw [fromLowerBound_later hf.sets.accounts.1 (fun e he => Nat.le_of_eq (hf.sets.accounts.2 e he).symm) hb,
    fromLowerBound_later hf.sets.storage.1 (fun e he => by rw [hf.sets.storage.2 e he]; decide) hb] at h
  have hacc : ∀ e ∈ db.accountChangeSet.filter fun e => decide (p < recordBlock e), e.1.length = 8 ∧ 20 ≤ e.2.length :=
    fun e he => ⟨hf.sets.accounts.2 e (List.mem_filter.mp he).1, hf.accounts e (List.mem_filter.mp he).1⟩
  have hsto : ∀ e ∈ db.storageChangeSet.filter fun e => decide (p < recordBlock e), e.1.length = 36 ∧ 32 ≤ e.2.length :=
    fun e he => ⟨hf.sets.storage.2 e (List.mem_filter.mp he).1, hf.storage e (List.mem_filter.mp he).1⟩
  rw [walkChanges_accounts _ _ hacc, promoteAccount_fold, walkChanges_slots _ _ hsto, promoteSlot_fold keccak _ hf.state _ hsto,
    walkChanges_accounts _ _ hacc] at h
  by_cases hz : ∀ e ∈ db.accountChangeSet.filter (fun e => decide (p < recordBlock e)),
      (db.plainState.find (e.2.take 20)).isSome = true → (0 : UInt8) ∈ keccak (e.2.take 20)
  case neg => rw [if_neg hz] at h; cases h
  rw [if_pos hz] at h
  have hzero : ∀ a x, AccountChanged db p a → db.plainState.find a = some x → (0 : UInt8) ∈ keccak a := by
    rintro a x ⟨e, he, hb, rfl⟩ hx
    exact hz e (List.mem_filter.mpr ⟨he, by simpa using hb⟩) (by rw [hx]; rfl)
  simp only [Outcome.ok_bind] at h
  obtain ⟨y, hy, h⟩ := Outcome.bind_eq_ok.mp h
  obtain ⟨code, hc, hy⟩ := Outcome.bind_eq_ok.mp hy
  have hreads := promoteCode_reads keccak _ _ _ _ _ hc
  have hinc : ∀ e ∈ db.accountChangeSet.filter fun e => decide (p < recordBlock e), ∀ x,
      db.plainState.find (e.2.take 20) = some x → extractIncarnation x.2 = .ok (incOf db.plainState (e.2.take 20)) := by
    intro e he x hx
    obtain ⟨i, hi⟩ := hreads e he x hx
    unfold incOf
    rw [hx]
    simp only [hi]
  rw [promoteCode_fold keccak _ _ (incOf db.plainState) _ (fun e he => by rw [List.length_take]; have := (hacc e he).2; omega)
    hinc] at hc
  have hc := Outcome.ok.inj hc
  have hy := Outcome.ok.inj hy
  subst hc hy
  obtain ⟨executed, he, h⟩ := Outcome.bind_eq_ok.mp h
  obtain ⟨z, hz, h⟩ := Outcome.bind_eq_ok.mp h
  rw [setStageProgress_known _ (name := ascii "HashState") (by decide +kernel)] at hz
  refine ⟨executed, ?_, ?_, hzero, ?_⟩
  · have hgs : ∀ A C, getStageProgress { db with hashedAccounts := A, hashedCodeHash := C } (ascii "Execution") =
        getStageProgress db (ascii "Execution") := fun _ _ => rfl
    rw [hgs] at he
    cases hg : getStageProgress db (ascii "Execution") with
    | ok n => rw [hg] at he; exact congrArg _ (Outcome.ok.inj he)
    | err e => rw [hg] at he; cases he
    | ub => rw [hg] at he; cases he
  · rintro a x ⟨e, he, hb, rfl⟩ hx
    exact hreads e (List.mem_filter.mpr ⟨he, by simpa using hb⟩) x hx
  · have h1 := Outcome.ok.inj hz
    have h2 := (Prod.mk.inj (Outcome.ok.inj h)).2
    rw [← h2, ← h1]

/-- The bytes of the hash of an account before the first zero byte. -/
def ShortKey (keccak : Bytes → Bytes) (a k : Bytes) : Prop := ∃ s, keccak a = k ++ 0 :: s ∧ (0 : UInt8) ∉ k

/-- C95 for accounts that exist, but for the key: each that was changed is stored as it is in the plain state under the bytes of
its hash before the first zero byte; all other keys stay as they are. Missing: the right key, accounts that were deleted, and
slots. -/
theorem c95_accounts_partial (d : Nat → Disk) (keccak : Bytes → Bytes) (db db' : Database) (p : Nat) (hf : ChangesFit db)
    (hp : getStageProgress db (ascii "HashState") = .ok p) (h0 : 0 < p) (hb : p + 1 < 2 ^ 64)
    (h : stageHashState d keccak db = .ok (.success, db')) :
    (∀ a v k, AccountChanged db p a → db.plainState.find a = some (a, v) → ShortKey keccak a k →
      (∀ b, AccountChanged db p b → ShortKey keccak b k → b = a) → db'.hashedAccounts.find k = some (k, v)) ∧
    (∀ k, (∀ a, AccountChanged db p a → ¬ ShortKey keccak a k) → db'.hashedAccounts.find k = db.hashedAccounts.find k) ∧
    ∀ n, n < 2 ^ 64 → getStageProgress db (ascii "Execution") = .ok n → getStageProgress db' (ascii "HashState") = .ok n := by
  obtain ⟨executed, hex, _, hz, hdb⟩ := promote_parts hf hp h0 hb h
  refine ⟨fun a v k hc hv hs hno => ?_, fun k hk => ?_, fun n hn hg => ?_⟩
  · rw [hdb]
    dsimp only
    obtain ⟨s, hs1, hs2⟩ := hs
    have hbz := beforeZero_eq hs1 hs2
    obtain ⟨e, he, hbl, rfl⟩ := hc
    refine upserts_find _ _ _ _ (List.mem_map.mpr ⟨e, List.mem_filter.mpr ⟨he, by simpa using hbl⟩, by rw [hv, hbz]; rfl⟩) ?_
    intro f hfm hk
    obtain ⟨g, hg, hgf⟩ := List.mem_map.mp hfm
    obtain ⟨hg, hgb⟩ := List.mem_filter.mp hg
    obtain ⟨x, hx, rfl⟩ := Option.map_eq_some_iff.mp hgf
    have hgc : AccountChanged db p (g.2.take 20) := ⟨g, hg, by simpa using hgb, rfl⟩
    obtain ⟨s', h1, h2⟩ := beforeZero_split (hz _ x hgc hx)
    have := hno (g.2.take 20) hgc ⟨s', by rw [← show _ = k from hk]; exact h1, by rw [← show _ = k from hk]; exact h2⟩
    rw [this, hv] at hx
    rw [← Option.some.inj hx]
  · rw [hdb]
    dsimp only
    refine upserts_other _ _ _ fun f hfm hkf => ?_
    obtain ⟨g, hg, hgf⟩ := List.mem_map.mp hfm
    obtain ⟨hg, hgb⟩ := List.mem_filter.mp hg
    obtain ⟨x, hx, rfl⟩ := Option.map_eq_some_iff.mp hgf
    have hgc : AccountChanged db p (g.2.take 20) := ⟨g, hg, by simpa using hgb, rfl⟩
    obtain ⟨s', h1, h2⟩ := beforeZero_split (hz _ x hgc hx)
    exact hk _ hgc ⟨s', by rw [← show _ = k from hkf]; exact h1, by rw [← show _ = k from hkf]; exact h2⟩
  · rw [hex] at hg
    have := Outcome.ok.inj hg
    subst this
    rw [hdb]
    exact getStageProgress_upsert { db with hashedAccounts := _, hashedCodeHash := _ } (by decide +kernel) hn

/-- C95 fails for every account: whether it was changed, created or deleted, what is stored under its hash stays. -/
theorem c95_accounts_violated (d : Nat → Disk) (keccak : Bytes → Bytes) (hk : ∀ x, (keccak x).length = 32) (db db' : Database)
    (p : Nat) (hf : ChangesFit db) (hp : getStageProgress db (ascii "HashState") = .ok p) (h0 : 0 < p) (hb : p + 1 < 2 ^ 64)
    (h : stageHashState d keccak db = .ok (.success, db')) (a : Bytes) :
    db'.hashedAccounts.find (keccak a) = db.hashedAccounts.find (keccak a) := by
  refine (c95_accounts_partial d keccak db db' p hf hp h0 hb h).2.1 _ ?_
  rintro b _ ⟨s, hs, _⟩
  have := congrArg List.length hs
  rw [List.length_append, List.length_cons, hk, hk] at this
  omega

/-- C95 fails for good as soon as the hash of a changed account has no zero byte: memory is read past the end of the hash. -/
theorem c95_undefined_violated (d : Nat → Disk) (keccak : Bytes → Bytes) (db : Database) (p : Nat) (hf : ChangesFit db)
    (hp : getStageProgress db (ascii "HashState") = .ok p) (h0 : 0 < p) (hb : p + 1 < 2 ^ 64) (a v : Bytes)
    (hc : AccountChanged db p a) (hv : db.plainState.find a = some (a, v)) (hz : (0 : UInt8) ∉ keccak a) :
    stageHashState d keccak db = .ub := by
  have hp0 : p ≠ 0 := by omega
  unfold stageHashState
  simp only [hp, liftDb, Outcome.ok_bind, ne_eq, hp0, not_false_eq_true, if_true]
  unfold hashStatePromote
  rw [Nat.mod_eq_of_lt hb]
  simp only [show blockKey (p + 1) = beFixed 8 (p + 1) from rfl]
  rw [fromLowerBound_later hf.sets.accounts.1 (fun e he => Nat.le_of_eq (hf.sets.accounts.2 e he).symm) hb,
    walkChanges_accounts _ _ fun e he => ⟨hf.sets.accounts.2 e (List.mem_filter.mp he).1,
      hf.accounts e (List.mem_filter.mp he).1⟩, promoteAccount_fold, if_neg]
  · rfl
  · intro hall
    obtain ⟨e, he, hbl, rfl⟩ := hc
    exact hz (hall e (List.mem_filter.mpr ⟨he, by simpa using hbl⟩) (by rw [hv]; rfl))

/-- C95 for code: the code hash of a contract that was changed is stored under the hash of its address and its incarnation.
Missing: slots and deleted accounts. -/
theorem c95_code_partial (d : Nat → Disk) (keccak : Bytes → Bytes) (db db' : Database) (p : Nat)
    (hk : ∀ x, (keccak x).length = 32) (hf : ChangesFit db)
    (hp : getStageProgress db (ascii "HashState") = .ok p) (h0 : 0 < p) (hb : p + 1 < 2 ^ 64)
    (h : stageHashState d keccak db = .ok (.success, db')) (a v w : Bytes) (i : Nat) (hc : AccountChanged db p a)
    (hno : NoCollision keccak db p a) (hv : db.plainState.find a = some (a, v)) (hi : extractIncarnation v = .ok i) (hi0 : 0 < i)
    (hw : (a ++ beFixed 8 i, w) ∈ db.plainContractCode) :
    db'.hashedCodeHash.find (keccak a ++ beFixed 8 i) = some (keccak a ++ beFixed 8 i, w) := by
  obtain ⟨executed, hex, _, _, hdb⟩ := promote_parts hf hp h0 hb h
  rw [hdb]
  dsimp only
  have hinc : incOf db.plainState a = i := by
    unfold incOf
    rw [hv]
    simp only [hi]
  have hfind := find_of_mem hf.sets.code hw
  have hce : codeEntry keccak db.plainState db.plainContractCode (incOf db.plainState) a =
      some (keccak a ++ beFixed 8 i, w) := by
    unfold codeEntry
    rw [hinc, hv, if_neg (by simp; omega), hfind]
    rfl
  obtain ⟨e, he, hbl, hea⟩ := hc
  refine upserts_find _ _ _ _ (List.mem_map.mpr ⟨e, List.mem_filter.mpr ⟨he, by simpa using hbl⟩, by rw [hea, hce]⟩) ?_
  intro f hfm hkf
  obtain ⟨g, hg, hgf⟩ := List.mem_map.mp hfm
  obtain ⟨hg, hgb⟩ := List.mem_filter.mp hg
  have hgc : AccountChanged db p (g.2.take 20) := ⟨g, hg, by simpa using hgb, rfl⟩
  have hkey : f.1 = keccak (g.2.take 20) ++ beFixed 8 (incOf db.plainState (g.2.take 20)) := by
    unfold codeEntry at hgf
    split at hgf
    · cases hgf
    · obtain ⟨x, _, hx⟩ := Option.map_eq_some_iff.mp hgf
      rw [← hx]
  rw [hkey] at hkf
  have hga := hno _ hgc (List.append_inj hkf (by rw [hk, hk])).1
  rw [hga, hce] at hgf
  rw [← Option.some.inj hgf]

/-- C95 fails for every slot: no slot is ever written, whatever was changed. -/
theorem c95_storage_violated (d : Nat → Disk) (keccak : Bytes → Bytes) (db db' : Database) (p : Nat) (hf : ChangesFit db)
    (hp : getStageProgress db (ascii "HashState") = .ok p) (h0 : 0 < p) (hb : p + 1 < 2 ^ 64)
    (h : stageHashState d keccak db = .ok (.success, db')) : db'.hashedStorage = db.hashedStorage := by
  obtain ⟨executed, hex, _, _, hdb⟩ := promote_parts hf hp h0 hb h
  rw [hdb]

/-- A hash for the examples: the bytes backwards, so that the first byte of an address of the examples is not zero. -/
def exTail (x : Bytes) : Bytes := (x.reverse ++ List.replicate 32 0).take 32

theorem exTail_length (x : Bytes) : (exTail x).length = 32 := by simp [exTail]

/-- A state hashed up to block 3 of which block 4 changed account 1, deleted account 2 and changed a slot. -/
def exMovedDb : Database :=
  { exHashedDb with
    hashedAccounts := [(exTail (exAddr 1), [0]), (exTail (exAddr 2), [0])]
    plainState := [(exAddr 1, [4, 1, 1]), (exAddr 1 ++ beFixed 8 1, exWord 5 ++ [77])]
    hashedCodeHash := []
    accountChangeSet := [(beFixed 8 4, exAddr 1 ++ [0]), (beFixed 8 4, exAddr 2 ++ [0])]
    storageChangeSet := [(beFixed 8 4 ++ exAddr 1 ++ beFixed 8 1, exWord 5 ++ [55])]
    stageProgress := [(ascii "Execution", beFixed 8 4), (ascii "HashState", beFixed 8 3)] }

/-- What the stage makes of it. -/
def exMovedOn : Database :=
  { exMovedDb with
    hashedAccounts := [([1], [4, 1, 1]), (exTail (exAddr 1), [0]), (exTail (exAddr 2), [0])]
    hashedCodeHash := [(exTail (exAddr 1) ++ beFixed 8 1, exWord 9)]
    stageProgress := [(ascii "Execution", beFixed 8 4), (ascii "HashState", beFixed 8 4)] }

theorem exMoved_fits : ChangesFit exMovedDb :=
  ⟨⟨by decide +kernel, by decide +kernel, by decide +kernel, by decide +kernel⟩, by decide +kernel, by decide +kernel,
    by decide +kernel⟩

theorem exMoved_on : stageHashState exDisks exTail exMovedDb = .ok (.success, exMovedOn) := by decide +kernel

theorem exTail_inj {x y : Bytes} (hx : x.length = 20) (hy : y.length = 20) (h : exTail x = exTail y) : x = y := by
  have e1 : ∀ x : Bytes, x.length = 20 → exTail x = x.reverse ++ List.replicate 12 0 := by
    intro x hx
    unfold exTail
    rw [List.take_append, List.take_of_length_le (by rw [List.length_reverse]; omega), List.length_reverse, hx]
    rfl
  rw [e1 _ hx, e1 _ hy] at h
  exact List.reverse_inj.mp (List.append_inj h (by rw [List.length_reverse, List.length_reverse, hx, hy])).1

theorem exMoved_collision (n : Nat) : NoCollision exTail exMovedDb 3 (exAddr n) := by
  rintro b ⟨e, he, _, rfl⟩ hk
  have h20 := exMoved_fits.accounts e he
  exact exTail_inj (by rw [List.length_take]; omega) (by simp [exAddr, Silkworm.beFixed_length]) hk

/-- C95 is violated: what is stored for a changed account is what was stored before. -/
theorem c95_violated : ¬ C95_statement := by
  intro h
  have h1 := (h exDisks exTail exMovedDb exMovedOn 3 exTail_length exMoved_fits (by decide +kernel) (by decide) (by decide)
    exMoved_on).1 (exAddr 1) ⟨(beFixed 8 4, exAddr 1 ++ [0]), by decide +kernel, by decide +kernel, by decide +kernel⟩
    (exMoved_collision 1)
  revert h1
  decide +kernel

example : exMovedOn.hashedAccounts.find [1] = some ([1], [4, 1, 1]) := by
  refine (c95_accounts_partial exDisks exTail exMovedDb exMovedOn 3 exMoved_fits (by decide +kernel) (by decide) (by decide)
    exMoved_on).1 (exAddr 1) [4, 1, 1] [1]
    ⟨(beFixed 8 4, exAddr 1 ++ [0]), by decide +kernel, by decide +kernel, by decide +kernel⟩ (by decide +kernel)
    ⟨List.replicate 30 0, by decide +kernel, by decide⟩ ?_
  rintro b ⟨e, he, _, rfl⟩ ⟨s, hs, _⟩
  rcases List.mem_cons.mp he with rfl | he
  · decide +kernel
  · have he := List.mem_singleton.mp he
    subst he
    have h2 : (exTail (List.take 20 (beFixed 8 4, exAddr 2 ++ [0]).2)).head? = some 2 := by decide +kernel
    rw [hs] at h2
    cases h2
example : exMovedOn.hashedCodeHash.find (exTail (exAddr 1) ++ beFixed 8 1) =
    some (exTail (exAddr 1) ++ beFixed 8 1, exWord 9) :=
  c95_code_partial exDisks exTail exMovedDb exMovedOn 3 exTail_length exMoved_fits (by decide +kernel) (by decide) (by decide)
    exMoved_on (exAddr 1) [4, 1, 1] (exWord 9) 1
    ⟨(beFixed 8 4, exAddr 1 ++ [0]), by decide +kernel, by decide +kernel, by decide +kernel⟩
    (exMoved_collision 1) (by decide +kernel) (by decide +kernel) (by decide) (by decide +kernel)
example : exMovedOn.hashedAccounts.find (exTail (exAddr 1)) = some (exTail (exAddr 1), [0]) :=
  (c95_accounts_violated exDisks exTail exTail_length exMovedDb exMovedOn 3 exMoved_fits (by decide +kernel) (by decide)
    (by decide) exMoved_on (exAddr 1)).trans (by decide +kernel)
example : exMovedOn.hashedStorage = exMovedDb.hashedStorage :=
  c95_storage_violated exDisks exTail exMovedDb exMovedOn 3 exMoved_fits (by decide +kernel) (by decide) (by decide) exMoved_on
example : stageHashState exDisks (fun _ => List.replicate 32 7) exMovedDb = .ub :=
  c95_undefined_violated exDisks _ exMovedDb 3 exMoved_fits (by decide +kernel) (by decide) (by decide) (exAddr 1) [4, 1, 1]
    ⟨(beFixed 8 4, exAddr 1 ++ [0]), by decide +kernel, by decide +kernel, by decide +kernel⟩ (by decide +kernel)
    (by decide +kernel)

/-! ## C96: unwinding -/

/-- What is stored for the account in `db'` is what there was after block `n` of `db`: nothing, or an account with the nonce
and the balance it had. -/
def HashedRestored (keccak : Bytes → Bytes) (db db' : Database) (n : Nat) (a : Bytes) : Prop :=
  match (accountRecords db.accountChangeSet n a).head? with
  | none => stored db'.hashedAccounts (keccak a) = stored db.hashedAccounts (keccak a)
  | some [] => stored db'.hashedAccounts (keccak a) = []
  | some v => ∃ w x y, stored db'.hashedAccounts (keccak a) = [w] ∧ decodeAccountFromStorage w = .ok x ∧
      decodeAccountFromStorage v = .ok y ∧ x.nonce = y.nonce ∧ x.balance = y.balance

/-- C96 as stated: if unwinding succeeds, the hashed accounts are those there were after the target block. -/
def C96_statement : Prop :=
  ∀ (keccak : Bytes → Bytes) (db db' : Database) (n : Nat), (∀ x, (keccak x).length = 32) → ChangesFit db →
    Ordered db.hashedAccounts → n + 1 < 2 ^ 64 → unwindHashState keccak n db = .ok (.success, db') →
    ∀ a, a.length = 20 → NoCollision keccak db n a → HashedRestored keccak db db' n a

/-- What unwinding consists of. -/
theorem unhash_parts {keccak : Bytes → Bytes} {db db' : Database} {n : Nat} (hf : ChangesFit db) (hb : n + 1 < 2 ^ 64)
    (h : unwindHashState keccak n db = .ok (.success, db')) :
    ∃ p code, getStageProgress db (ascii "HashState") = .ok p ∧ n < p ∧ (∀ a, AccountChanged db n a → (0 : UInt8) ∈ keccak a) ∧
      db' = { db with
        hashedAccounts := erases ((db.accountChangeSet.filter fun e => decide (n < recordBlock e)).map fun e =>
          beforeZero (keccak (e.2.take 20))) db.hashedAccounts
        hashedStorage := erases ((db.storageChangeSet.filter fun e => decide (n < recordBlock e)).map fun e =>
          hashedSlotKey keccak (e.1.drop 8 ++ e.2.take 32)) db.hashedStorage
        hashedCodeHash := code
        stageProgress := db.stageProgress.upsert (ascii "HashState") (beFixed 8 n) } := by
  unfold unwindHashState at h
  cases hg : getStageProgress db (ascii "HashState") with
  | err e => rw [hg] at h; cases h
  | ub => rw [hg] at h; cases h
  | ok p =>
    simp only [hg, liftDb, Outcome.ok_bind] at h
    by_cases hn : p ≤ n
    · rw [if_pos hn] at h; cases h
    · rw [if_neg hn] at h
      unfold hashStateUnwind at h
      rw [Nat.mod_eq_of_lt hb] at h
      simp only [show blockKey (n + 1) = beFixed 8 (n + 1) from rfl] at h
      rw [fromLowerBound_later hf.sets.accounts.1 (fun e he => Nat.le_of_eq (hf.sets.accounts.2 e he).symm) hb,
        fromLowerBound_later hf.sets.storage.1 (fun e he => by rw [hf.sets.storage.2 e he]; decide) hb] at h
      have hacc : ∀ e ∈ db.accountChangeSet.filter fun e => decide (n < recordBlock e), e.1.length = 8 ∧ 20 ≤ e.2.length :=
        fun e he => ⟨hf.sets.accounts.2 e (List.mem_filter.mp he).1, hf.accounts e (List.mem_filter.mp he).1⟩
      have hsto : ∀ e ∈ db.storageChangeSet.filter fun e => decide (n < recordBlock e), e.1.length = 36 ∧ 32 ≤ e.2.length :=
        fun e he => ⟨hf.sets.storage.2 e (List.mem_filter.mp he).1, hf.storage e (List.mem_filter.mp he).1⟩
      rw [walkChanges_accounts _ _ hacc, unwindAccounts_fold, walkChanges_slots _ _ hsto, unwindSlots_fold keccak _ hsto] at h
      by_cases hz : ∀ e ∈ db.accountChangeSet.filter (fun e => decide (n < recordBlock e)), (0 : UInt8) ∈ keccak (e.2.take 20)
      case neg => rw [if_neg hz] at h; cases h
      rw [if_pos hz] at h
      have hzero : ∀ a, AccountChanged db n a → (0 : UInt8) ∈ keccak a := by
        rintro a ⟨e, he, hb, rfl⟩
        exact hz e (List.mem_filter.mpr ⟨he, by simpa using hb⟩)
      simp only [Outcome.ok_bind] at h
      cases hc : walkChanges (unwindHashedCode keccak db.plainState)
          (db.accountChangeSet.filter fun e => decide (n < recordBlock e)) db.hashedCodeHash with
      | err e => rw [hc] at h; cases h
      | ub => rw [hc] at h; cases h
      | ok code =>
        rw [hc] at h
        simp only [Outcome.ok_bind] at h
        rw [setStageProgress_known _ (name := ascii "HashState") (by decide +kernel)] at h
        refine ⟨p, code, rfl, by omega, hzero, ?_⟩
        exact ((Prod.mk.inj (Outcome.ok.inj h)).2).symm

/-- C96 for accounts that were not changed: they stay. The stage is set back to the target block. What is removed, exactly: what
is stored under the bytes of the hash of a changed account before the first zero byte. Missing: accounts that were changed. -/
theorem c96_accounts_partial (keccak : Bytes → Bytes) (hk : ∀ x, (keccak x).length = 32) (db db' : Database) (n : Nat)
    (hf : ChangesFit db) (ho : Ordered db.hashedAccounts) (hb : n + 1 < 2 ^ 64)
    (h : unwindHashState keccak n db = .ok (.success, db')) :
    (∀ a, ¬ AccountChanged db n a → HashedRestored keccak db db' n a) ∧
    (∀ k, (∃ a, AccountChanged db n a ∧ ShortKey keccak a k) → stored db'.hashedAccounts k = []) ∧
    (∀ k, (¬ ∃ a, AccountChanged db n a ∧ ShortKey keccak a k) → stored db'.hashedAccounts k = stored db.hashedAccounts k) ∧
    getStageProgress db' (ascii "HashState") = .ok n := by
  obtain ⟨p, code, _, _, hz, hdb⟩ := unhash_parts hf hb h
  have hkeep : ∀ k, (¬ ∃ a, AccountChanged db n a ∧ ShortKey keccak a k) →
      stored db'.hashedAccounts k = stored db.hashedAccounts k := by
    intro k hnot
    rw [hdb]
    dsimp only
    rw [erases_stored _ _ _ (stored_ordered_le ho _), if_neg]
    intro hm
    obtain ⟨e, he, hke⟩ := List.mem_map.mp hm
    obtain ⟨he, hbl⟩ := List.mem_filter.mp he
    have hc : AccountChanged db n (e.2.take 20) := ⟨e, he, by simpa using hbl, rfl⟩
    obtain ⟨s, h1, h2⟩ := beforeZero_split (hz _ hc)
    exact hnot ⟨_, hc, s, by rw [← hke]; exact h1, by rw [← hke]; exact h2⟩
  refine ⟨fun a hn => ?_, ?_, hkeep, ?_⟩
  · unfold HashedRestored
    cases hr : (accountRecords db.accountChangeSet n a).head? with
    | some v =>
      have hm := List.mem_of_mem_head? (Option.mem_def.mpr hr)
      unfold accountRecords at hm
      obtain ⟨e, he, _⟩ := List.mem_map.mp hm
      obtain ⟨he, hp⟩ := List.mem_filter.mp he
      have hp := of_decide_eq_true hp
      exact absurd ⟨e, he, hp.1, hp.2⟩ hn
    | none =>
      refine hkeep _ ?_
      rintro ⟨b, _, s, hs, _⟩
      have := congrArg List.length hs
      rw [List.length_append, List.length_cons, hk, hk] at this
      omega
  · rintro k ⟨a, ⟨e, he, hbl, rfl⟩, s, h1, h2⟩
    rw [hdb]
    dsimp only
    rw [erases_stored _ _ _ (stored_ordered_le ho _),
      if_pos (List.mem_map.mpr ⟨e, List.mem_filter.mpr ⟨he, by simpa using hbl⟩, beforeZero_eq h1 h2⟩)]
  · rw [hdb]
    exact getStageProgress_upsert { db with hashedAccounts := _, hashedStorage := _, hashedCodeHash := _ } (by decide +kernel)
      (by omega)

/-- C96 fails for every account that was changed: what is stored under its hash stays, even if it did not exist before. -/
theorem c96_changed_violated (keccak : Bytes → Bytes) (hk : ∀ x, (keccak x).length = 32) (db db' : Database) (n : Nat)
    (hf : ChangesFit db) (ho : Ordered db.hashedAccounts) (hb : n + 1 < 2 ^ 64)
    (h : unwindHashState keccak n db = .ok (.success, db')) (a : Bytes) :
    stored db'.hashedAccounts (keccak a) = stored db.hashedAccounts (keccak a) := by
  refine (c96_accounts_partial keccak hk db db' n hf ho hb h).2.2.1 _ ?_
  rintro ⟨b, _, s, hs, _⟩
  have := congrArg List.length hs
  rw [List.length_append, List.length_cons, hk, hk] at this
  omega

/-- C96 fails for good as soon as the hash of a changed account has no zero byte: memory is read past the end of the hash. -/
theorem c96_undefined_violated (keccak : Bytes → Bytes) (db : Database) (n p : Nat) (hf : ChangesFit db) (hb : n + 1 < 2 ^ 64)
    (hp : getStageProgress db (ascii "HashState") = .ok p) (hn : n < p) (a : Bytes) (hc : AccountChanged db n a)
    (hz : (0 : UInt8) ∉ keccak a) : unwindHashState keccak n db = .ub := by
  unfold unwindHashState
  simp only [hp, liftDb, Outcome.ok_bind]
  rw [if_neg (by omega)]
  unfold hashStateUnwind
  rw [Nat.mod_eq_of_lt hb]
  simp only [show blockKey (n + 1) = beFixed 8 (n + 1) from rfl]
  rw [fromLowerBound_later hf.sets.accounts.1 (fun e he => Nat.le_of_eq (hf.sets.accounts.2 e he).symm) hb,
    walkChanges_accounts _ _ fun e he => ⟨hf.sets.accounts.2 e (List.mem_filter.mp he).1,
      hf.accounts e (List.mem_filter.mp he).1⟩, unwindAccounts_fold, if_neg]
  · rfl
  · intro hall
    obtain ⟨e, he, hbl, rfl⟩ := hc
    exact hz (hall e (List.mem_filter.mpr ⟨he, by simpa using hbl⟩))

/-- C96 for slots: what is stored under the hashed key of a changed slot is removed, everything else stays. Missing: slots
that had a value before. -/
theorem c96_storage_partial (keccak : Bytes → Bytes) (db db' : Database) (n : Nat) (hf : ChangesFit db)
    (hb : n + 1 < 2 ^ 64) (h : unwindHashState keccak n db = .ok (.success, db')) (k : Bytes)
    (h1 : (stored db.hashedStorage k).length ≤ 1) :
    ((∃ a i l, a.length = 20 ∧ i.length = 8 ∧ SlotChanged db n (a ++ i) l ∧ k = keccak a ++ i ++ keccak l) →
      stored db'.hashedStorage k = []) ∧
    ((¬ ∃ a i l, a.length = 20 ∧ i.length = 8 ∧ SlotChanged db n (a ++ i) l ∧ k = keccak a ++ i ++ keccak l) →
      stored db'.hashedStorage k = stored db.hashedStorage k) := by
  obtain ⟨p, code, _, _, _, hdb⟩ := unhash_parts hf hb h
  rw [hdb]
  dsimp only
  rw [erases_stored _ _ _ h1]
  have hkey : ∀ a i l : Bytes, a.length = 20 → i.length = 8 → hashedSlotKey keccak (a ++ i ++ l) = keccak a ++ i ++ keccak l := by
    intro a i l ha hi
    have t1 : (a ++ i ++ l).take 20 = a := by
      rw [List.append_assoc, List.take_append_of_le_length (Nat.le_of_eq ha.symm), List.take_of_length_le (by omega)]
    have t2 : (a ++ i ++ l).drop 20 = i ++ l := by
      rw [List.append_assoc, List.drop_append_of_le_length (Nat.le_of_eq ha.symm), List.drop_eq_nil_of_le (by omega),
        List.nil_append]
    have t3 : (i ++ l).take 8 = i := by
      rw [List.take_append_of_le_length (Nat.le_of_eq hi.symm), List.take_of_length_le (by omega)]
    have t4 : (a ++ i ++ l).drop 28 = l := by
      rw [List.drop_append, List.drop_eq_nil_of_le (by rw [List.length_append]; omega), List.nil_append, List.length_append, ha,
        hi]
      rfl
    unfold hashedSlotKey
    rw [t1, t2, t3, t4]
  constructor
  · rintro ⟨a, i, l, ha, hi, ⟨e, he, hbl, hc, hl⟩, rfl⟩
    rw [if_pos (List.mem_map.mpr ⟨e, List.mem_filter.mpr ⟨he, by simpa using hbl⟩, by rw [hc, hl, hkey a i l ha hi]⟩)]
  · intro hnot
    rw [if_neg]
    intro hm
    obtain ⟨e, he, hk⟩ := List.mem_map.mp hm
    obtain ⟨he, hbl⟩ := List.mem_filter.mp he
    have h36 := hf.sets.storage.2 e he
    have hd : e.1.drop 8 = (e.1.drop 8).take 20 ++ (e.1.drop 8).drop 20 := (List.take_append_drop _ _).symm
    have l1 : ((e.1.drop 8).take 20).length = 20 := by rw [List.length_take, List.length_drop]; omega
    have l2 : ((e.1.drop 8).drop 20).length = 8 := by rw [List.length_drop, List.length_drop]; omega
    refine hnot ⟨(e.1.drop 8).take 20, (e.1.drop 8).drop 20, e.2.take 32, l1, l2,
      ⟨e, he, by simpa using hbl, hd, rfl⟩, ?_⟩
    rw [← hk, ← hkey _ _ _ l1 l2, ← hd]

/-- Unwinding never throws; if it does not go back before what was reached it says so and changes nothing, and so it does
whenever something is wrong. -/
theorem c96_refuses (keccak : Bytes → Bytes) (db : Database) (n : Nat) :
    (∀ e, unwindHashState keccak n db ≠ .err e) ∧
    (∀ p, getStageProgress db (ascii "HashState") = .ok p → p ≤ n → unwindHashState keccak n db = .ok (.aborted, db)) ∧
    ∀ r db', unwindHashState keccak n db = .ok (r, db') → r ≠ .success → r = .aborted ∧ db' = db := by
  refine ⟨fun e h => ?_, fun p hp hn => ?_, fun r db' h hr => ?_⟩
  · unfold unwindHashState orAborted at h
    split at h
    · cases h
    · rename_i hne
      exact hne _ h
  · unfold unwindHashState
    simp only [hp, liftDb, Outcome.ok_bind]
    rw [if_pos hn]
    rfl
  · unfold unwindHashState orAborted at h
    split at h
    · obtain ⟨h1, h2⟩ := Prod.mk.inj (Outcome.ok.inj h)
      exact ⟨h1.symm, h2.symm⟩
    · obtain ⟨p, hp, h⟩ := Outcome.bind_eq_ok.mp h
      split at h
      · obtain ⟨h1, h2⟩ := Prod.mk.inj (Outcome.ok.inj h)
        exact ⟨h1.symm, h2.symm⟩
      · obtain ⟨x, _, h⟩ := Outcome.bind_eq_ok.mp h
        obtain ⟨y, _, h⟩ := Outcome.bind_eq_ok.mp h
        exact absurd (Prod.mk.inj (Outcome.ok.inj h)).1.symm hr

/-- A hashed state up to block 4, which changed account 1 and created account 2. -/
def exUnhashDb : Database :=
  { hashedAccounts := [(exTail (exAddr 1), [5]), ([2], [8]), (exTail (exAddr 2), [6]), (exTail (exAddr 3), [7])]
    hashedStorage := [(exTail (exAddr 1) ++ beFixed 8 1 ++ exTail (exWord 5), [55])]
    accountChangeSet := [(beFixed 8 4, exAddr 1 ++ [0]), (beFixed 8 4, exAddr 2)]
    storageChangeSet := [(beFixed 8 4 ++ exAddr 1 ++ beFixed 8 1, exWord 5 ++ [55])]
    stageProgress := [(ascii "HashState", beFixed 8 4)] }

/-- What unwinding to block 3 leaves. -/
def exUnhashed : Database :=
  { exUnhashDb with
    hashedAccounts := [(exTail (exAddr 1), [5]), (exTail (exAddr 2), [6]), (exTail (exAddr 3), [7])]
    hashedStorage := []
    stageProgress := [(ascii "HashState", beFixed 8 3)] }

theorem exUnhash_fits : ChangesFit exUnhashDb :=
  ⟨⟨by decide +kernel, by decide +kernel, by decide +kernel, by decide +kernel⟩, by decide +kernel, by decide +kernel,
    by decide +kernel⟩

theorem exUnhash_unwound : unwindHashState exTail 3 exUnhashDb = .ok (.success, exUnhashed) := by decide +kernel

theorem exUnhash_collision (a : Bytes) (ha : a.length = 20) : NoCollision exTail exUnhashDb 3 a := by
  rintro b ⟨e, he, _, rfl⟩ hk
  have h20 := exUnhash_fits.accounts e he
  exact exTail_inj (by rw [List.length_take]; omega) ha hk

/-- C96 is violated: the account that was not there before is there afterwards. -/
theorem c96_violated : ¬ C96_statement := by
  intro h
  have h1 := h exTail exUnhashDb exUnhashed 3 exTail_length exUnhash_fits (by decide +kernel) (by decide) exUnhash_unwound
    (exAddr 2) (by decide +kernel) (exUnhash_collision _ (by decide +kernel))
  unfold HashedRestored at h1
  have h2 : (accountRecords exUnhashDb.accountChangeSet 3 (exAddr 2)).head? = some [] := by decide +kernel
  rw [h2] at h1
  revert h1
  decide +kernel

example : stored exUnhashed.hashedAccounts (exTail (exAddr 2)) = [[6]] :=
  (c96_changed_violated exTail exTail_length exUnhashDb exUnhashed 3 exUnhash_fits (by decide +kernel) (by decide)
    exUnhash_unwound (exAddr 2)).trans (by decide +kernel)
example : HashedRestored exTail exUnhashDb exUnhashed 3 (exAddr 3) ∧ stored exUnhashed.hashedAccounts [2] = [] := by
  have h := c96_accounts_partial exTail exTail_length exUnhashDb exUnhashed 3 exUnhash_fits (by decide +kernel) (by decide)
    exUnhash_unwound
  refine ⟨h.1 _ ?_, h.2.1 [2] ⟨exAddr 2, ⟨(beFixed 8 4, exAddr 2), by decide +kernel, by decide +kernel, by decide +kernel⟩,
    List.replicate 30 0, by decide +kernel, by decide⟩⟩
  rintro ⟨e, he, _, ha⟩
  revert e
  decide +kernel
example : unwindHashState (fun _ => List.replicate 32 7) 3 exUnhashDb = .ub :=
  c96_undefined_violated _ exUnhashDb 3 4 exUnhash_fits (by decide) (by decide +kernel) (by decide) (exAddr 1)
    ⟨(beFixed 8 4, exAddr 1 ++ [0]), by decide +kernel, by decide +kernel, by decide +kernel⟩ (by decide +kernel)
example : stored exUnhashed.hashedStorage (exTail (exAddr 1) ++ beFixed 8 1 ++ exTail (exWord 5)) = [] :=
  (c96_storage_partial exTail exUnhashDb exUnhashed 3 exUnhash_fits (by decide) exUnhash_unwound _ (by decide +kernel)).1
    ⟨exAddr 1, beFixed 8 1, exWord 5, by decide +kernel, by decide +kernel,
      ⟨(beFixed 8 4 ++ exAddr 1 ++ beFixed 8 1, exWord 5 ++ [55]), by decide +kernel, by decide +kernel, by decide +kernel,
        by decide +kernel⟩, rfl⟩
example : unwindHashState exTail 4 exUnhashDb = .ok (.aborted, exUnhashDb) :=
  (c96_refuses exTail exUnhashDb 4).2.1 4 (by decide +kernel) (by decide)

end Silkworm.Properties
