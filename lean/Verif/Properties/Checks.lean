import Verif.Tools.ChecksLemmas
import Verif.Properties.Genesis
import Verif.Properties.HashState
import Verif.Properties.StageBlocks
import Verif.Properties.ChangeSets

/-!
# C123, C124, C125, C126: the commands that check a database
-/

namespace Silkworm.Properties

open Silkworm.Db Silkworm.Etl Silkworm.Spec Silkworm.Stages Silkworm.Tools

/-! ## C123 -/

/-- C123 as stated: check_hashstate says nothing exactly if the hashed state is that of the plain state. -/
def C123_statement : Prop :=
  ∀ (keccak : Bytes → Bytes) (db : Database), (∀ x, (keccak x).length = 32) → HashTables db →
    ∃ r, checkHashState keccak db = .ok r ∧ (r = {} ↔ HashedRight keccak db)

/-- C123 for accounts: the first part says nothing exactly if every account is there under the hash of its address, with its
value. Missing: accounts that are hashed but are not in the plain state. -/
theorem c123_accounts_partial (keccak : Bytes → Bytes) (db : Database) (h : HashTables db) :
    ∃ r, checkAccounts keccak db.hashedAccounts db.plainState = .ok r ∧ (r = {} ↔ AccountsHashed keccak db) := by
  obtain ⟨r, h1, h2⟩ := checkAccounts_spec keccak h.ordered.1 db.plainState
  exact ⟨r, h1, h2.trans ⟨fun g a v ha hm => g _ hm ha, fun g e he hl => g e.1 e.2 hl he⟩⟩

/-- C123 for code hashes: the third part says nothing exactly if every code hash is there. -/
theorem c123_code_partial (keccak : Bytes → Bytes) (db : Database) (h : HashTables db) :
    ∃ r, checkCode keccak db.hashedCodeHash db.plainContractCode = .ok r ∧ r.thrown = false ∧ (r = {} ↔ CodeHashed keccak db) := by
  obtain ⟨r, h1, h3, h2⟩ := checkCode_spec keccak h.ordered.2 db.plainContractCode
  refine ⟨r, h1, h3, h2.trans ⟨fun g a i v ha hi hm => ?_, fun g e he hl => ?_⟩⟩
  · have := g _ hm (by rw [List.length_append, ha, hi])
    dsimp only at this
    rwa [List.take_append_of_le_length (Nat.le_of_eq ha.symm), List.take_of_length_le (l := a) (by omega),
      List.drop_append_of_le_length (Nat.le_of_eq ha.symm), List.drop_eq_nil_of_le (as := a) (by omega), List.nil_append] at this
  · refine g (e.1.take 20) (e.1.drop 20) e.2 (by rw [List.length_take]; omega) (by rw [List.length_drop]; omega) ?_
    rw [List.take_append_drop]
    exact he

/-- C123 fails for storage on every database with an account: the part that should check storage takes accounts instead of slots
and reads beyond their addresses. -/
theorem c123_storage_violated (keccak : Bytes → Bytes) (db : Database) (h : HashTables db) (ha : AccountsHashed keccak db)
    (a v : Bytes) (hl : a.length = 20) (hm : (a, v) ∈ db.plainState) : checkHashState keccak db = .ub := by
  obtain ⟨r, h1, h2⟩ := c123_accounts_partial keccak db h
  unfold checkHashState andThen
  rw [h1, h2.mpr ha, (checkStorage_spec db.plainState).1 ⟨_, hm, hl⟩]
  rfl

/-- C123 fails for storage: the table of hashed slots is not looked at. -/
theorem c123_unseen_violated (keccak : Bytes → Bytes) (db : Database) (t : Table) :
    checkHashState keccak { db with hashedStorage := t } = checkHashState keccak db := rfl

/-- C123 for a whole database, where that is defined: without accounts the command says nothing exactly if the code hashes are
there. Missing: databases with accounts, slots, accounts that should not be there. -/
theorem c123_command_partial (keccak : Bytes → Bytes) (db : Database) (h : HashTables db)
    (hno : ∀ e ∈ db.plainState, e.1.length ≠ 20) :
    ∃ r, checkHashState keccak db = .ok r ∧ (r = {} ↔ CodeHashed keccak db) := by
  obtain ⟨r, h1, h2⟩ := c123_accounts_partial keccak db h
  obtain ⟨q, h3, _, h4⟩ := c123_code_partial keccak db h
  refine ⟨q, ?_, h4⟩
  unfold checkHashState andThen
  rw [h1, h2.mpr fun a v ha hm => absurd ha (hno _ hm), (checkStorage_spec db.plainState).2 hno, h3]
  rfl

/-- C123: hashing from the beginning satisfies the parts for accounts and for code hashes. -/
theorem c123_after_hashing (d : Nat → Disk) (keccak : Bytes → Bytes) (db db' : Database) (hk : ∀ x, (keccak x).length = 32)
    (hf : PlainFits db) (hn : NothingHashed db) (ho : Ordered db.plainContractCode)
    (h : stageHashState d keccak db = .ok (.success, db'))
    (hcol : ∀ e ∈ db.plainState, ∀ f ∈ db.plainState, e.1.length = 20 → f.1.length = 20 → keccak e.1 = keccak f.1 → e = f)
    (hcol' : ∀ e ∈ db.plainContractCode, ∀ f ∈ db.plainContractCode, keccak (e.1.take 20) = keccak (f.1.take 20) →
      e.1.take 20 = f.1.take 20) (hoc : Ordered db'.hashedCodeHash) :
    checkAccounts keccak db'.hashedAccounts db'.plainState = .ok {} ∧
    checkCode keccak db'.hashedCodeHash db'.plainContractCode = .ok {} := by
  obtain ⟨a1, _, a3⟩ := c56_accounts_partial d keccak db db' hk hf hn h hcol
  obtain ⟨b1, _⟩ := c56_code_partial d keccak db db' hk hf hn ho h hcol'
  obtain ⟨accounts, storage, code, executed, _, _, _, _, hdb⟩ := hash_parts hf hn.progress h
  have hp : db'.plainState = db.plainState := by rw [hdb]
  have hc : db'.plainContractCode = db.plainContractCode := by rw [hdb]
  have ht : HashTables db' := ⟨⟨a3, hoc⟩, fun e he => (hf.state e (hp ▸ he)).1, fun e he => (hf.code e (hc ▸ he)).1⟩
  obtain ⟨r, h1, h2⟩ := c123_accounts_partial keccak db' ht
  obtain ⟨q, h3, _, h4⟩ := c123_code_partial keccak db' ht
  rw [h1, h3, h2.mpr fun a v ha hm => (mem_of_find (a1 a v ha (hp ▸ hm))).1,
    h4.mpr fun a i v ha hi hm => (mem_of_find (b1 a i v ha hi (hc ▸ hm))).1]
  exact ⟨rfl, rfl⟩

theorem exHashed_tables : HashTables exHashedDb := ⟨by decide +kernel, by decide +kernel, by decide +kernel⟩

/-- C123 is violated: reading beyond the address of the only account. -/
theorem c123_violated : ¬ C123_statement := by
  intro h
  obtain ⟨r, h1, _⟩ := h exHash exHashedDb exHash_length exHashed_tables
  have h2 : checkHashState exHash exHashedDb = .ub := by decide +kernel
  rw [h2] at h1
  cases h1

example : checkAccounts exHash exHashedDb.hashedAccounts exHashedDb.plainState = .ok {} ∧
    checkCode exHash exHashedDb.hashedCodeHash exHashedDb.plainContractCode = .ok {} :=
  c123_after_hashing exDisks exHash exPlainDb exHashedDb exHash_length exPlain_fits exPlain_nothing (by decide +kernel) exPlain_hashed
    (by decide +kernel) (by decide +kernel) (by decide +kernel)
example : checkAccounts exHash [(exHash (exAddr 1), [8])] exHashedDb.plainState = .ok { complaints := [.different [7] [8]] } := by
  decide +kernel
example : checkAccounts exHash [] exHashedDb.plainState = .ok { thrown := true } := by decide +kernel
example : checkCode exHash [(exHash (exAddr 2) ++ beFixed 8 1, [9])]
    [(exAddr 1 ++ beFixed 8 1, [7]), (exAddr 1, [1]), (exAddr 2 ++ beFixed 8 1, [8]), (exAddr 3 ++ beFixed 8 1, [8])] =
    .ok { complaints := [.missing (exHash (exAddr 1) ++ beFixed 8 1), .different [8] [9]] } := by decide +kernel

/-! ## C124 -/

/-- C124 as stated: check_tx_lookup says nothing exactly if the hash of every stored transaction leads to the number of its block. -/
def C124_statement : Prop :=
  ∀ (keccak : Bytes → Bytes) (db : Database) (raw : Nat → Bytes), BodiesStored db raw →
    ∃ r, checkTxLookup keccak db = .ok r ∧
      (r = {} ↔ ∀ n hash record i, n < 2 ^ 64 → (beFixed 8 n ++ hash, record) ∈ db.blockBodies → BodyHas record i →
        LeadsTo db (keccak (raw i)) n)

theorem report_empty {r : Report} (h : r.thrown = false) : r = {} ↔ r.complaints = [] := by
  cases r with
  | mk c t =>
    dsimp only at h ⊢
    rw [h]
    exact ⟨fun e => congrArg Report.complaints e, fun e => by rw [e]⟩

/-- C124 for the position of a body in the table instead of its number: the command says nothing exactly if the transactions of the
first body lead to block 0, those of the second one to block 1 and so on. Missing: tables in which the positions are not the
numbers. -/
theorem c124_positions_partial (keccak : Bytes → Bytes) (db : Database) (raw : Nat → Bytes) (h : BodiesStored db raw) :
    ∃ r, checkTxLookup keccak db = .ok r ∧
      (r = {} ↔ ∀ k e, db.blockBodies[k]? = some e → ∀ i, BodyHas e.2 i → LeadsTo db (keccak (raw i)) k) := by
  obtain ⟨r, h1, h2, h3⟩ := checkBodies_spec keccak h.ordered.2 h.lookups h.ordered.1 h.keys.2 raw db.blockBodies 0
    fun e he => ⟨by rw [h.keys.1 e he]; decide, h.body e he⟩
  refine ⟨r, h1, ?_⟩
  rw [report_empty h2, h3]
  simp only [Nat.zero_add]
  exact Iff.rfl

/-- C124 for a table with one body for each block from 0 on. -/
theorem c124_numbers_partial (keccak : Bytes → Bytes) (db : Database) (raw : Nat → Bytes) (h : BodiesStored db raw)
    (hn : ∀ k e, db.blockBodies[k]? = some e → k < 2 ^ 64 ∧ e.1.take 8 = beFixed 8 k) :
    ∃ r, checkTxLookup keccak db = .ok r ∧
      (r = {} ↔ ∀ n hash record i, n < 2 ^ 64 → (beFixed 8 n ++ hash, record) ∈ db.blockBodies → BodyHas record i →
        LeadsTo db (keccak (raw i)) n) := by
  obtain ⟨r, h1, h2⟩ := c124_positions_partial keccak db raw h
  refine ⟨r, h1, h2.trans ⟨fun g n hash record i hr hm hb => ?_, fun g k e he i hb => ?_⟩⟩
  · obtain ⟨k, hk, hke⟩ := List.getElem_of_mem hm
    have he : db.blockBodies[k]? = some (beFixed 8 n ++ hash, record) := by rw [List.getElem?_eq_getElem hk, hke]
    obtain ⟨hkr, hkey⟩ := hn k _ he
    dsimp only at hkey
    rw [List.take_append_of_le_length (by rw [beFixed_length]), List.take_of_length_le (by rw [beFixed_length])] at hkey
    have h64 : (256 : Nat) ^ 8 = 2 ^ 64 := by decide
    have : n = k := by
      have := congrArg beToNat hkey
      rwa [beToNat_beFixed (by omega), beToNat_beFixed (by omega)] at this
    subst this
    exact g n _ he i hb
  · obtain ⟨hkr, hkey⟩ := hn k e he
    refine g k (e.1.drop 8) e.2 i hkr ?_ hb
    rw [← hkey, List.take_append_drop]
    exact List.mem_of_getElem? he

/-- Two bodies of height 1, the second with a transaction. -/
def exForkDb : Database :=
  { blockBodies := [(beFixed 8 0 ++ exWord 1, (⟨0, 0, []⟩ : BlockBodyForStorage).encode),
      (beFixed 8 1 ++ exWord 2, (⟨0, 0, []⟩ : BlockBodyForStorage).encode),
      (beFixed 8 1 ++ exWord 3, (⟨7, 1, []⟩ : BlockBodyForStorage).encode)]
    ethTx := [(beFixed 8 7, [7])]
    txLookup := [(exHash [7], [1])] }

theorem exFork_stored : BodiesStored exForkDb fun i => [UInt8.ofNat i] := by
  refine ⟨by decide +kernel, by decide +kernel, by decide +kernel, fun e he => ?_⟩
  rcases List.mem_cons.mp he with rfl | he
  · exact ⟨⟨0, 0, []⟩, exBodies_wf _ _ (by decide) (by decide), storedBody_spec (exBodies_wf _ _ (by decide) (by decide)),
      by decide, by decide +kernel⟩
  rcases List.mem_cons.mp he with rfl | he
  · exact ⟨⟨0, 0, []⟩, exBodies_wf _ _ (by decide) (by decide), storedBody_spec (exBodies_wf _ _ (by decide) (by decide)),
      by decide, by decide +kernel⟩
  rcases List.mem_cons.mp he with rfl | he
  · exact ⟨⟨7, 1, []⟩, exBodies_wf _ _ (by decide) (by decide), storedBody_spec (exBodies_wf _ _ (by decide) (by decide)),
      by decide, by decide +kernel⟩
  · cases he

/-- C124 fails after a fork: the bodies are counted, and what is right is reported as a mismatch. -/
theorem c124_fork_violated : checkTxLookup exHash exForkDb = .ok { complaints := [.lookupElsewhere (exHash [7]) 2 1] } := by
  decide +kernel

/-- The transactions of a record, if it is that of this body. -/
theorem bodyHas_iff {b : BlockBodyForStorage} (hw : b.WF) {i : Nat} :
    BodyHas b.encode i ↔ b.baseTxnId ≤ i ∧ i < b.baseTxnId + b.txnCount := by
  constructor
  · rintro ⟨b', hw', he, h⟩
    have h1 := decStoredBody hw []
    have h2 := decStoredBody hw' []
    rw [← he, storedBody_spec hw, h1] at h2
    rw [(Prod.mk.inj (Outcome.ok.inj h2)).1]
    exact h
  · intro h
    exact ⟨b, hw, storedBody_spec hw, h⟩

/-- C124 is violated. -/
theorem c124_violated : ¬ C124_statement := by
  intro h
  obtain ⟨r, h1, h2⟩ := h exHash exForkDb _ exFork_stored
  rw [c124_fork_violated] at h1
  have hr := h2.mpr fun n hash record i hn hm hb => ?_
  · rw [← Outcome.ok.inj h1] at hr
    exact absurd (congrArg Report.complaints hr) (by simp)
  · have h64 : (256 : Nat) ^ 8 = 2 ^ 64 := by decide
    have hkey : ∀ {m : Nat} {w : Bytes}, m < 2 ^ 64 → beFixed 8 n ++ hash = beFixed 8 m ++ w → n = m := by
      intro m w hm' he
      have := congrArg beToNat (List.append_inj he (by rw [beFixed_length, beFixed_length])).1
      rwa [beToNat_beFixed (by omega), beToNat_beFixed (by omega)] at this
    rcases List.mem_cons.mp hm with he | hm
    · obtain ⟨_, rfl⟩ := Prod.mk.inj he
      have := (bodyHas_iff (exBodies_wf 0 0 (by decide) (by decide))).mp hb
      dsimp only at this
      omega
    rcases List.mem_cons.mp hm with he | hm
    · obtain ⟨_, rfl⟩ := Prod.mk.inj he
      have := (bodyHas_iff (exBodies_wf 0 0 (by decide) (by decide))).mp hb
      dsimp only at this
      omega
    rcases List.mem_cons.mp hm with he | hm
    · obtain ⟨hk, rfl⟩ := Prod.mk.inj he
      have := (bodyHas_iff (exBodies_wf 7 1 (by decide) (by decide))).mp hb
      dsimp only at this
      obtain rfl : i = 7 := by omega
      obtain rfl := hkey (by decide) hk
      exact ⟨[1], by decide +kernel, rfl⟩
    · cases hm

/-- A table with a body for each block. -/
def exLookupDb : Database :=
  { exForkDb with
    blockBodies := [(beFixed 8 0 ++ exWord 1, (⟨0, 0, []⟩ : BlockBodyForStorage).encode),
      (beFixed 8 1 ++ exWord 3, (⟨7, 1, []⟩ : BlockBodyForStorage).encode)] }

theorem exLookup_stored : BodiesStored exLookupDb fun i => [UInt8.ofNat i] := by
  refine ⟨by decide +kernel, by decide +kernel, by decide +kernel, fun e he => exFork_stored.body e ?_⟩
  rcases List.mem_cons.mp he with rfl | he
  · exact List.mem_cons_self
  · exact List.mem_cons_of_mem _ (List.mem_cons_of_mem _ he)

example : checkTxLookup exHash exLookupDb = .ok {} := by decide +kernel
example : ∃ r, checkTxLookup exHash exLookupDb = .ok r ∧
    (r = {} ↔ ∀ n hash record i, n < 2 ^ 64 → (beFixed 8 n ++ hash, record) ∈ exLookupDb.blockBodies → BodyHas record i →
      LeadsTo exLookupDb (exHash [UInt8.ofNat i]) n) :=
  c124_numbers_partial exHash exLookupDb _ exLookup_stored fun k e he => by
    match k, he with
    | 0, he => rw [← Option.some.inj he]; decide +kernel
    | 1, he => rw [← Option.some.inj he]; decide +kernel
    | _ + 2, he => cases he
example : checkTxLookup exHash { exLookupDb with txLookup := [] } = .ok { complaints := [.lookupMissing 1 0 (exHash [7])] } := by
  decide +kernel
example : checkTxLookup exHash { exLookupDb with txLookup := [(exHash [7], [1, 0])] } =
    .ok { complaints := [.lookupElsewhere (exHash [7]) 1 256] } := by decide +kernel
example : checkTxLookup exHash { exLookupDb with ethTx := [] } = .ok { complaints := [.tooFew 1 1 0] } := by decide +kernel
example : checkTxLookup exHash { exLookupDb with blockBodies := [(beFixed 8 0 ++ exWord 1, [0x80])] } = .ok { thrown := true } := by
  decide +kernel

/-! ## C125 -/

/-- C125: check_blockhashes says nothing exactly if every canonical hash leads back to the number it is stored under, and every
complaint is about a hash that is missing or leads elsewhere. -/
theorem c125_hashes (db : Database) (ho : Ordered db.headerNumbers) (hn : ∀ e ∈ db.headerNumbers, 8 ≤ e.2.length)
    (hc : ∀ e ∈ db.canonicalHashes, 8 ≤ e.1.length) :
    ∃ r, checkBlockHashes db = .ok r ∧ (r = {} ↔ NumbersRight db) ∧
      ∀ c ∈ r.complaints, ∃ k hash, (k, hash) ∈ db.canonicalHashes ∧
        ((c = .hashMissing hash (beToNat (k.take 8)) ∧ ∀ v, (hash, v) ∉ db.headerNumbers) ∨
          ∃ v, (hash, v) ∈ db.headerNumbers ∧ v ≠ k ∧ c = .hashElsewhere hash (beToNat (k.take 8)) (beToNat (v.take 8))) := by
  obtain ⟨r, h1, h2, h3, h4⟩ := checkHashes_spec ho hn db.canonicalHashes hc
  refine ⟨r, h1, (report_empty h2).trans h3, fun c hcm => ?_⟩
  obtain ⟨e, he, h5⟩ := h4 c hcm
  exact ⟨e.1, e.2, he, h5⟩

/-- C125: on every database made from a genesis document the command complains that the hash of the genesis block should match
block 0 but got 0, because it is stored under number and hash. -/
theorem c125_genesis (keccak : Bytes → Bytes) (parse256 parse64 : Bytes → Option Nat) (hk : GenesisHash keccak)
    (hp : GenesisNumbers parse256 parse64) (d : Genesis.Document) (h : BlockHeader) (i : Genesis.Initialised)
    (hi : Genesis.initialise keccak parse256 parse64 d = .ok (h, i)) (hx : h.extraData.length < 2 ^ 63) :
    checkBlockHashes i.db = .ok { complaints := [.hashElsewhere (keccak (rlp (headerItem h))) 0 0] } := by
  have hw := genesis_header hk hp hi hx
  obtain ⟨hc, j, text, c, _, _, b, db, h3, h4, h5⟩ := Genesis.initialise_ok.mp hi
  obtain ⟨_, _, _, _, s4, _⟩ := genesis_state hk hp hc h3
  obtain ⟨_, h6⟩ := Genesis.write_ok.mp h5
  rw [header_spec hw] at h6
  have e1 : db.canonicalHashes = [] ∧ db.headerNumbers = [] := by
    rcases s4 with rfl | ⟨_, _, rfl⟩ <;> exact ⟨rfl, rfl⟩
  have e2 : i.db.canonicalHashes = [(blockHashKey 0 (keccak (rlp (headerItem h))), keccak (rlp (headerItem h)))] := by
    rw [h6]
    show Table.upsert db.canonicalHashes _ _ = _
    rw [e1.1]
    rfl
  have e3 : i.db.headerNumbers = [(keccak (rlp (headerItem h)), blockKey 0)] := by
    rw [h6]
    show Table.upsert db.headerNumbers _ _ = _
    rw [e1.2]
    rfl
  unfold checkBlockHashes
  rw [e2, e3]
  have hxl := hk.length (rlp (headerItem h))
  generalize keccak (rlp (headerItem h)) = x at hxl ⊢
  have hf : Table.find [(x, blockKey 0)] x = some (x, blockKey 0) := by simp [Table.find]
  have hne : blockKey 0 ≠ blockHashKey 0 x := by
    intro he
    have := congrArg List.length he
    unfold blockKey blockHashKey at this
    rw [List.length_append, hxl] at this
    omega
  have hl1 : loadNumber (blockHashKey 0 x) = .ok 0 := by
    unfold loadNumber blockHashKey
    rw [if_pos (by rw [List.length_append, beFixed_length]; omega),
      List.take_append_of_le_length (by rw [beFixed_length])]
    rfl
  have hl2 : loadNumber (blockKey 0) = .ok 0 := rfl
  unfold checkHashes checkHash
  rw [hf]
  dsimp only
  rw [if_pos hne, hl1, hl2]
  rfl

/-- Two canonical hashes, the second of which leads to another number. -/
def exNumbersDb : Database :=
  { canonicalHashes := [(blockKey 1, exWord 1), (blockKey 2, exWord 2), (blockKey 3, exWord 3)]
    headerNumbers := [(exWord 1, blockKey 1), (exWord 2, blockKey 7)] }

example : checkBlockHashes exNumbersDb = .ok { complaints := [.hashElsewhere (exWord 2) 2 7, .hashMissing (exWord 3) 3] } := by
  decide +kernel
example : checkBlockHashes { exNumbersDb with canonicalHashes := [(blockKey 1, exWord 1)] } = .ok {} := by decide +kernel
example : ∃ r, checkBlockHashes exNumbersDb = .ok r ∧ (r = {} ↔ NumbersRight exNumbersDb) := by
  obtain ⟨r, h1, h2, _⟩ := c125_hashes exNumbersDb (by decide +kernel) (by decide +kernel) (by decide +kernel)
  exact ⟨r, h1, h2⟩
example : checkBlockHashes { canonicalHashes := [([1, 2], exWord 1)] } = .ub := by decide +kernel

/-! ## C126 -/

/-- C126: check_changes is content with a block exactly if for every account the change calculated is the one stored, apart from
three addresses that may have a stored change without being touched, and for every slot too. `calls` are what executing the block
told the buffer. -/
theorem c126_block (calls : List BufferCall) (b : Db.Buffer) (hb : Reached calls b) (db : Database) (n : Nat)
    (touched : ∃ a, accountEntry n a 0 false none calls ≠ none) (accounts : AMap Bytes Bytes) (storage : StorageChanges)
    (ha : readAccountChanges db n = .ok accounts) (hs : readStorageChanges db n = .ok storage) :
    checkBlockChanges db n b = .ok {} ↔
      (∀ a, accountEntry n a 0 false none calls = accounts.get? a ∨
        (a ∈ kPhantomAccounts ∧ accountEntry n a 0 false none calls = none)) ∧
      ∀ a i k, slotEntry n a i k 0 none calls = slotBefore storage a i k := by
  obtain ⟨hw, hrec, hslot⟩ := hb.records
  obtain ⟨t, ht⟩ := touched
  rw [← hrec] at ht
  unfold Db.Buffer.accountChange? at ht hrec
  cases hm : b.accountChanges.get? n with
  | none => rw [hm] at ht; exact absurd rfl ht
  | some m =>
    have hr : ∀ a, m.get? a = accountEntry n a 0 false none calls := fun a => by rw [← hrec n a, hm, Option.getD_some]
    have hma : AMap.WF accounts := (collectAccount_wf _ ha AMap.WF_nil fun _ h => by cases h).1
    have hms : NoEmptyParts storage := (collectStorage_wf _ _ hs noEmpty_nil fun _ _ _ _ h => by cases h).1
    have hmb : NoEmptyParts ((b.storageChanges.get? n).getD []) := by
      cases hx : b.storageChanges.get? n with
      | none => exact noEmpty_nil
      | some x => exact applyAll_noEmpty calls hb.2 (fun _ _ h => by cases h) n x hx
    unfold checkBlockChanges
    rw [ha, hm, hs]
    dsimp only
    have h1 := checkAccountChanges_spec n (hw.account n m hm).2.1 hma
    have h2 : checkStorageChanges n ((b.storageChanges.get? n).getD []) storage = [] ↔
        ∀ a i k, slotEntry n a i k 0 none calls = slotBefore storage a i k := by
      have h3 := sameStorage_iff hmb hms
      have h4 : (∀ a i k, slotEntry n a i k 0 none calls = slotBefore storage a i k) ↔
          ∀ a i k, slotBefore ((b.storageChanges.get? n).getD []) a i k = slotBefore storage a i k := by
        refine forall_congr' fun a => forall_congr' fun i => forall_congr' fun k => ?_
        rw [← hslot n a i k, slotBefore_eq ((b.storageChanges.get? n).getD [])]
        exact Iff.rfl
      rw [h4, ← h3]
      unfold checkStorageChanges
      constructor
      · intro h
        by_cases hc : sameStorage ((b.storageChanges.get? n).getD []) storage = true
        · exact hc
        · rw [if_neg hc] at h; cases h
      · intro h
        rw [if_pos h]
    rw [← h2]
    simp only [← hr]
    rw [← h1]
    constructor
    · intro h
      have := congrArg Report.complaints (Outcome.ok.inj h)
      exact List.append_eq_nil_iff.mp this
    · rintro ⟨g1, g2⟩
      rw [g1, g2]
      rfl

/-- C126: a block for which execution recorded no account makes the command end with an exception. -/
theorem c126_untouched (calls : List BufferCall) (b : Db.Buffer) (hb : Reached calls b) (db : Database) (n : Nat)
    (untouched : ∀ a, accountEntry n a 0 false none calls = none) (accounts : AMap Bytes Bytes)
    (ha : readAccountChanges db n = .ok accounts) : checkBlockChanges db n b = .ok { thrown := true } := by
  have hn : b.accountChanges.get? n = none := by
    cases hm : b.accountChanges.get? n with
    | none => rfl
    | some m =>
      obtain ⟨a, v, hv⟩ := applyAll_someAccount calls hb.2 (fun _ _ h => by cases h) n m hm
      have := hb.records.2.1 n a
      rw [untouched a] at this
      unfold Db.Buffer.accountChange? at this
      rw [hm, Option.getD_some, hv] at this
      cases this
  unfold checkBlockChanges
  rw [ha, hn]

/-- C126: change sets that were written from a buffer satisfy the command when the block is executed again, if that records the
same for the block. -/
theorem c126_written (calls again : List BufferCall) (b b' : Db.Buffer) (hb : Reached calls b) (hb' : Reached again b')
    (db : Database) (ho : MultiOrdered db.storageChangeSet) (n : Nat) (hn : n < 2 ^ 64)
    (hnew : stored db.accountChangeSet (blockKey n) = []) (hnew' : ∀ e ∈ db.storageChangeSet, ¬ blockKey n <+: e.1)
    (touched : ∃ a, accountEntry n a 0 false none again ≠ none)
    (sameAccounts : ∀ a, accountEntry n a 0 false none again = accountEntry n a 0 false none calls)
    (sameSlots : ∀ a i k, slotEntry n a i k 0 none again = slotEntry n a i k 0 none calls) :
    checkBlockChanges (b.writeToDb db) n b' = .ok {} := by
  obtain ⟨m, h1, h2⟩ := c84_account_changes calls b hb db n hn hnew
  obtain ⟨s, h3, h4⟩ := c84_storage_changes calls b hb db ho n hn hnew'
  obtain ⟨hw, hrec, hslot⟩ := hb.records
  have hkeys := (collectAccount_wf _ h1 AMap.WF_nil fun _ h => by cases h).2
  have hfits := (collectStorage_wf _ _ h3 noEmpty_nil fun _ _ _ _ h => by cases h).2
  rw [c126_block again b' hb' (b.writeToDb db) n touched m s h1 h3]
  refine ⟨fun a => Or.inl ?_, fun a i k => ?_⟩
  · rw [sameAccounts]
    by_cases hl : a.length = 20
    · exact (h2 a hl).symm
    · have e1 : m.get? a = none := by
        rw [AMap.get?_eq_none_iff]
        exact fun h => hl (hkeys a h)
      rw [e1, ← hrec n a]
      unfold Db.Buffer.accountChange?
      cases hx : b.accountChanges.get? n with
      | none => rfl
      | some y =>
        rw [Option.getD_some, AMap.get?_eq_none_iff]
        exact fun h => hl ((hw.account n y hx).2.2 a h)
  · rw [sameSlots, slotBefore_eq]
    by_cases hl : a.length = 20 ∧ i < 2 ^ 64 ∧ k.length = 32
    · exact (h4 a i k hl.1 hl.2.1 hl.2.2).symm
    · have e1 : MemoryBuffer.nestedGet? s a i k = none := by
        cases hx : MemoryBuffer.nestedGet? s a i k with
        | none => rfl
        | some v => exact absurd (hfits a i k v hx) hl
      rw [e1, ← hslot n a i k]
      unfold Db.Buffer.slotChange?
      cases hx : b.storageChanges.get? n with
      | none => rfl
      | some y =>
        rw [Option.getD_some]
        cases hy : MemoryBuffer.nestedGet? y a i k with
        | none => rfl
        | some v => exact absurd ((hw.slots n y hx).2.2 a i k v hy) hl

/-- A block that is read, executed without a validation error and satisfies the command. -/
def Content (exec : Nat → BlockExecutor) (db : Database) (n : Nat) : Prop :=
  ∃ bh receipts calls b, readBlock db n true = .ok (some bh) ∧ exec n db {} bh.1 = .ok (receipts, none, calls) ∧
    ({} : Db.Buffer).applyAll calls = .ok b ∧ checkBlockChanges db n b = .ok {}

theorem content_step (exec : Nat → BlockExecutor) (db : Database) (count n : Nat) :
    checkChanges exec db (count + 1) n = .ok {} ↔
      readBlock db n true = .ok none ∨ (Content exec db n ∧ checkChanges exec db count (n + 1) = .ok {}) := by
  rw [checkChanges]
  unfold Content
  cases hr : readBlock db n true with
  | ub => simp
  | err e =>
    simp only [reduceCtorEq, false_or]
    constructor
    · intro h
      exact absurd (congrArg Report.thrown (Outcome.ok.inj h)) (by simp)
    · rintro ⟨⟨_, _, _, _, h, _⟩, _⟩
      cases h
  | ok o =>
    cases o with
    | none => simp
    | some bh =>
      have e1 : ∀ x, (Outcome.ok (some bh) : Outcome DbError _) = .ok (some x) ↔ bh = x := by
        intro x
        exact ⟨fun h => Option.some.inj (Outcome.ok.inj h), fun h => by rw [h]⟩
      have e0 : ¬ (Outcome.ok (some bh) : Outcome DbError _) = .ok none := fun h => by cases Outcome.ok.inj h
      simp only [e0, false_or]
      cases hx : exec n db {} bh.1 with
      | ub =>
        constructor
        · intro h; cases h
        · rintro ⟨⟨bh', _, _, _, h, h', _⟩, _⟩
          obtain rfl := (e1 _).mp h
          rw [hx] at h'; cases h'
      | err e =>
        constructor
        · intro h; cases h
        · rintro ⟨⟨bh', _, _, _, h, h', _⟩, _⟩
          obtain rfl := (e1 _).mp h
          rw [hx] at h'; cases h'
      | ok q =>
        obtain ⟨receipts, v, calls⟩ := q
        cases v with
        | some w =>
          dsimp only
          constructor
          · intro h
            obtain ⟨r, _, h2⟩ := Outcome.bind_eq_ok.mp h
            have := congrArg Report.complaints (Outcome.ok.inj h2)
            cases this
          · rintro ⟨⟨bh', _, _, _, h, h', _⟩, _⟩
            obtain rfl := (e1 _).mp h
            rw [hx] at h'
            cases (congrArg (fun q => q.2.1) (Outcome.ok.inj h'))
        | none =>
          dsimp only
          cases hb : ({} : Db.Buffer).applyAll calls with
          | ub =>
            constructor
            · intro h; cases h
            · rintro ⟨⟨bh', _, _, _, h, h', h'', _⟩, _⟩
              obtain rfl := (e1 _).mp h
              rw [hx] at h'
              have := (congrArg (fun q => q.2.2) (Outcome.ok.inj h'))
              dsimp only at this
              rw [← this, hb] at h''
              cases h''
          | err e =>
            constructor
            · intro h
              exact absurd (congrArg Report.thrown (Outcome.ok.inj h)) (by simp)
            · rintro ⟨⟨bh', _, _, _, h, h', h'', _⟩, _⟩
              obtain rfl := (e1 _).mp h
              rw [hx] at h'
              have := (congrArg (fun q => q.2.2) (Outcome.ok.inj h'))
              dsimp only at this
              rw [← this, hb] at h''
              cases h''
          | ok b =>
            dsimp only
            rw [andThen_empty]
            constructor
            · rintro ⟨h1, h2⟩
              exact ⟨⟨bh, receipts, calls, b, rfl, hx, hb, h1⟩, h2⟩
            · rintro ⟨⟨bh', _, _, _, h, h', h'', h3⟩, h2⟩
              obtain rfl := (e1 _).mp h
              rw [hx] at h'
              have := (congrArg (fun q => q.2.2) (Outcome.ok.inj h'))
              dsimp only at this
              rw [← this, hb] at h''
              rw [Outcome.ok.inj h'']
              exact ⟨h3, h2⟩

/-- C126: the command ends without a word exactly if it is content with every block it was asked for, up to the first one that is
not there. -/
theorem c126_command (exec : Nat → BlockExecutor) (db : Database) : ∀ (count n : Nat),
    checkChanges exec db count n = .ok {} ↔
      ∃ k, k ≤ count ∧ (∀ j, j < k → Content exec db (n + j)) ∧ (k < count → readBlock db (n + k) true = .ok none)
  | 0, n => ⟨fun _ => ⟨0, Nat.le_refl 0, fun _ h => absurd h (Nat.not_lt_zero _), fun h => absurd h (Nat.lt_irrefl _)⟩, fun _ => rfl⟩
  | count + 1, n => by
    rw [content_step, c126_command exec db count (n + 1)]
    constructor
    · rintro (h | ⟨h, k, h1, h2, h3⟩)
      · exact ⟨0, Nat.zero_le _, fun _ h => absurd h (Nat.not_lt_zero _), fun _ => h⟩
      · refine ⟨k + 1, Nat.succ_le_succ h1, fun j hj => ?_, fun hk => ?_⟩
        · cases j with
          | zero => exact h
          | succ j =>
            have := h2 j (by omega)
            rwa [show n + 1 + j = n + (j + 1) by omega] at this
        · have := h3 (by omega)
          rwa [show n + 1 + k = n + (k + 1) by omega] at this
    · rintro ⟨k, h1, h2, h3⟩
      cases k with
      | zero => exact Or.inl (h3 (by omega))
      | succ k =>
        refine Or.inr ⟨h2 0 (by omega), k, by omega, fun j hj => ?_, fun hk => ?_⟩
        · rw [show n + 1 + j = n + (j + 1) by omega]
          exact h2 (j + 1) (by omega)
        · rw [show n + 1 + k = n + (k + 1) by omega]
          exact h3 (by omega)

example : checkBlockChanges (exDbBuffer.writeToDb exDb0) 9 exDbBuffer = .ok {} :=
  c126_written exDbCalls exDbCalls exDbBuffer exDbBuffer exReached exReached exDb0 (by decide) 9 (by decide) rfl
    (by intro e he; cases he) ⟨exAddr 8, by decide +kernel⟩ (fun _ => rfl) (fun _ _ _ => rfl)
example : checkBlockChanges exDb0 9 exDbBuffer = .ok
    { complaints := [.accountNotInDb (exAddr 8), .accountNotInDb (exAddr 9), .accountNotInDb (exAddr 7), .accountMismatch 9,
        .storageMismatch 9] } := by decide +kernel
example : checkAccountChanges 3 [(exAddr 1, [1])] [(exAddr 1, [1]), (kPhantomAccounts.headD [], [])] = [] ∧
    checkAccountChanges 3 [(exAddr 1, [1])] [(exAddr 1, [2]), (exAddr 2, [])] =
      [.accountDifferent (exAddr 1) [1] [2], .accountMissing (exAddr 2), .accountMismatch 3] := by decide +kernel

/-- An executor that pays a reward. -/
def exPays : Nat → BlockExecutor := fun n _ _ _ =>
  .ok ([], none, [.beginBlock n, .updateAccount (exAddr 1) none (some { balance := 7 })])

example : checkChanges exPays { exBlockDb with accountChangeSet := [(blockKey 5, exAddr 1)] } 9 5 = .ok {} := by decide +kernel
example : Content exPays { exBlockDb with accountChangeSet := [(blockKey 5, exAddr 1)] } 5 := by
  obtain ⟨k, h1, h2, h3⟩ := (c126_command exPays { exBlockDb with accountChangeSet := [(blockKey 5, exAddr 1)] } 1 5).mp
    (by decide +kernel)
  rcases Nat.eq_zero_or_pos k with rfl | hk
  · have h4 : readBlock { exBlockDb with accountChangeSet := [(blockKey 5, exAddr 1)] } 5 true ≠ .ok none := by decide +kernel
    exact absurd (h3 (by decide)) h4
  · exact h2 0 hk
example : checkChanges exPays exBlockDb 9 5 = .ok { complaints := [.accountNotInDb (exAddr 1), .accountMismatch 5] } := by
  decide +kernel
example : checkChanges (fun _ _ _ _ => .ok ([], none, [])) exBlockDb 9 5 = .ok { thrown := true } := by decide +kernel

end Silkworm.Properties
