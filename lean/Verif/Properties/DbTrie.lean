import Verif.Stages.DbTrieLemmas
import Verif.Properties.TrieRecords
import Verif.Properties.StateRoot
import Verif.Properties.HashState

/-!
# C102, C103: the state root and the trie records from the hashed state
-/

namespace Silkworm.Properties

open Silkworm.Db Silkworm.Etl Silkworm.Spec Silkworm.Stages Silkworm.Trie Silkworm.Rlp

/-! ## C102: the root -/

/-- C102: the root is that of the state trie over the hashed tables; without an expected root nothing but a full disk keeps it
from being returned, and only the tables of trie records change. -/
theorem c102_root (d : Nat → Disk) (keccak : Bytes → Bytes) (hk : ∀ x, (keccak x).length = 32)
    (h0 : keccak [0x80] = kEmptyRoot) (db : Database) (state : List HashedAccount) (hp : ProperState state)
    (ht : InTables state db.hashedAccounts db.hashedStorage) :
    regenerateDbTries d keccak none db = .err (.etl .insufficientDiskSpace) ∨
    ∃ accounts storage, regenerateDbTries d keccak none db =
      .ok (trieRoot keccak (stateTrie keccak state), { db with trieOfAccounts := accounts, trieOfStorage := storage }) := by
  obtain ⟨s, hc, he⟩ := calculateRoot_ok hk h0 hp ht
  have hl := (stateTrie_valid hk hp).2.2.2.2.1
  unfold regenerateDbTries
  rw [he]
  simp only [Outcome.ok_bind, Option.isSome_none, Bool.false_eq_true, false_and, if_false]
  rcases load_accountRecords hk hc hl (d 0) kFlushSize db.trieOfAccounts with h | ⟨A, h, _⟩
  · rw [h]; exact Or.inl rfl
  rw [h]
  simp only [Outcome.ok_bind]
  rcases load_storageRecords hk h0 hp (d 1) kFlushSize db.trieOfStorage with h | ⟨S, h, _⟩
  · rw [h]; exact Or.inl rfl
  rw [h]
  exact Or.inr ⟨A, S, rfl⟩

/-- C102: this is the state root of every world state whose addresses and locations hash to the tables. -/
theorem c102_state_root (keccak : Bytes → Bytes) (hk : ∀ x, (keccak x).length = 32) (state : List HashedAccount)
    (hp : ProperState state) (world : List (Bytes × Account × List (Bytes × Bytes))) (hw : WorldHashesTo keccak world state) :
    trieRoot keccak (stateTrie keccak state) = stateRoot keccak world := by
  obtain ⟨f, hperm, hf⟩ := hw
  have e : stateTrie keccak state =
      (state.map f).map (fun e => (keccak e.1, Spec.rlp (accountItem e.2.1 (storageRoot keccak e.2.2)))) := by
    unfold stateTrie
    rw [List.map_map]
    apply List.map_congr_left
    intro a ha
    obtain ⟨h1, h2, h3⟩ := hf a ha
    have hs : trieRoot keccak a.storageTrie = storageRoot keccak (f a).2.2 := by
      have := trieRoot_perm keccak (h3.map (fun s : Bytes × Nat => (s.1, Spec.rlp (num s.2)))) (storageTrie_valid hp ha).2.1
      rw [List.map_map] at this
      exact this
    simp only [Function.comp_apply]
    rw [← h1, ← h2, hs]
  unfold stateRoot
  have := (stateTrie_valid hk hp).2.1
  rw [e] at this ⊢
  exact trieRoot_perm keccak (hperm.map _) this

/-- C102: an expected root that is the right one changes nothing; with any other one the exception is thrown and no record
reaches the tables. -/
theorem c102_wrong_root (d : Nat → Disk) (keccak : Bytes → Bytes) (hk : ∀ x, (keccak x).length = 32)
    (h0 : keccak [0x80] = kEmptyRoot) (db : Database) (state : List HashedAccount) (hp : ProperState state)
    (ht : InTables state db.hashedAccounts db.hashedStorage) (expected : Bytes) :
    regenerateDbTries d keccak (some expected) db =
      if expected = trieRoot keccak (stateTrie keccak state) then regenerateDbTries d keccak none db else .err .wrongRoot := by
  obtain ⟨s, hc, he⟩ := calculateRoot_ok hk h0 hp ht
  unfold regenerateDbTries
  rw [he]
  simp only [Outcome.ok_bind, Option.isSome_none, Option.isSome_some, Bool.false_eq_true, false_and, if_false, true_and, ne_eq,
    Option.some.injEq]
  by_cases h : expected = trieRoot keccak (stateTrie keccak state)
  · simp [h]
  · simp [h]

/-- The loop over accounts does what it does for the first ones and then for the rest. -/
theorem accountLoop_append {keccak : Bytes → Bytes} {storage : Table} : ∀ (A B : Table) (hb t : HashBuilder) (r : List Entry),
    accountLoop keccak storage hb A = .ok (t, r) →
    accountLoop keccak storage hb (A ++ B) = (accountLoop keccak storage t B >>= fun x => .ok (x.1, r ++ x.2))
  | [], B, hb, t, r, h => by
    cases h
    rw [List.nil_append]
    cases accountLoop keccak storage hb B <;> rfl
  | e :: A, B, hb, t, r, h => by
    unfold accountLoop at h
    obtain ⟨a, h1, h⟩ := Outcome.bind_eq_ok.mp h
    obtain ⟨s, h2, h⟩ := Outcome.bind_eq_ok.mp h
    obtain ⟨b, h3, h⟩ := Outcome.bind_eq_ok.mp h
    obtain ⟨x, h4, h⟩ := Outcome.bind_eq_ok.mp h
    cases h
    rw [List.cons_append]
    conv => lhs; unfold accountLoop
    rw [h1]
    simp only [Outcome.ok_bind]
    rw [h2]
    simp only [Outcome.ok_bind]
    rw [h3]
    simp only [Outcome.ok_bind]
    rw [accountLoop_append A B b x.1 x.2 h4]
    cases accountLoop keccak storage x.1 B with
    | ok y => simp [Outcome.ok_bind]
    | err e => rfl
    | ub => rfl

/-- The accounts before the one in question go through. -/
theorem accountLoop_first {keccak : Bytes → Bytes} (hk : ∀ x, (keccak x).length = 32) (h0 : keccak [0x80] = kEmptyRoot)
    {state : List HashedAccount} (hp : ProperState state) {accounts storage : Table} (ht : InTables state accounts storage) :
    ∃ t r, accountLoop keccak storage {} accounts = .ok (t, r) := by
  obtain ⟨h1, h2, h3, h4, h5, h6⟩ := stateTrie_valid hk hp
  obtain ⟨s, e, _⟩ := build_ok hk h0 h4 h1 h2 h3 (hashed_of_values hk h2 h6)
  unfold buildRoot at e
  rw [bind_ok] at e
  obtain ⟨t, e1, _⟩ := e
  rw [ht.accounts]
  exact ⟨_, _, accountLoop_ok hk h0 hp ht state {} t (fun _ h => h) e1⟩

/-- C102: after any accounts that can be read, one that cannot be decoded ends the computation with that exception. -/
theorem c102_undecodable_account (d : Nat → Disk) (keccak : Bytes → Bytes) (hk : ∀ x, (keccak x).length = 32)
    (h0 : keccak [0x80] = kEmptyRoot) (db : Database) (state : List HashedAccount) (hp : ProperState state)
    (first rest : Table) (key value : Bytes) (ht : InTables state first db.hashedStorage)
    (hdb : db.hashedAccounts = first ++ (key, value) :: rest) (e : DecodingResult)
    (hd : decodeAccountFromStorage value = .err e) (expected : Option Bytes) :
    regenerateDbTries d keccak expected db = .err (.db (.rlp e)) := by
  obtain ⟨t, r, h⟩ := accountLoop_first hk h0 hp ht
  unfold regenerateDbTries calculateRoot
  rw [hdb, accountLoop_append _ _ _ _ _ h]
  conv => lhs; unfold accountLoop
  simp only
  rw [hd]
  rfl

/-- The storage of an account that begins as in a proper state. -/
theorem storageLoop_first {keccak : Bytes → Bytes} (hk : ∀ x, (keccak x).length = 32) (h0 : keccak [0x80] = kEmptyRoot)
    {a : HashedAccount} (hp : ProperState [a]) (v : Bytes) (vs : List Bytes) :
    ∃ s, addAll keccak true {} a.storageTrie = .ok s ∧
      storageLoop keccak {} (a.slots.map (fun s => s.1 ++ be s.2) ++ v :: vs) = storageLoop keccak s (v :: vs) := by
  have ha : a ∈ [a] := List.mem_singleton.mpr rfl
  obtain ⟨hb, _⟩ := storageBuilder_ok hk h0 hp ha
  unfold buildRoot at hb
  rw [bind_ok] at hb
  obtain ⟨s, e1, _⟩ := hb
  refine ⟨s, e1, ?_⟩
  have key : ∀ (A : List Bytes) (b t : HashBuilder), storageLoop keccak b A = .ok t → ∀ B,
      storageLoop keccak b (A ++ B) = storageLoop keccak t B := by
    intro A
    induction A with
    | nil => intro b t h B; cases h; rfl
    | cons x A ih =>
      intro b t h B
      unfold storageLoop at h
      rw [List.cons_append]
      conv => lhs; unfold storageLoop
      split at h
      · cases h
      · next hx =>
        obtain ⟨y, h1, h2⟩ := Outcome.bind_eq_ok.mp h
        rw [if_neg hx, h1]
        exact ih y t h2 B
  apply key
  rw [storageLoop_eq]
  · have hes : (a.slots.map (fun s => s.1 ++ be s.2)).map (fun v => (v.take 32, encodeBytes (v.drop 32))) = a.storageTrie := by
      rw [List.map_map]
      unfold HashedAccount.storageTrie
      apply List.map_congr_left
      intro s hs
      have hl := hp.locations a ha s hs
      simp only [Function.comp_apply, Prod.mk.injEq]
      rw [List.take_left' hl, List.drop_left' hl]
      exact ⟨rfl, num_rlp (hp.values a ha s hs)⟩
    rw [hes, e1]
    rfl
  · intro v hv
    obtain ⟨s, hs, rfl⟩ := List.mem_map.mp hv
    rw [List.length_append, hp.locations a ha s hs]
    omega

/-- The outcome of the storage of an account decides that of the computation. -/
theorem storage_decides {keccak : Bytes → Bytes} (hk : ∀ x, (keccak x).length = 32) (h0 : keccak [0x80] = kEmptyRoot)
    {db : Database} {state : List HashedAccount} (hp : ProperState state) {first rest : Table} {a : HashedAccount}
    (ha : ProperState [a]) (hi : a.account.incarnation ≠ 0) (ht : InTables state first db.hashedStorage)
    (hdb : db.hashedAccounts = first ++ (a.key, accountRecord a.account false) :: rest) (v : Bytes) (vs : List Bytes)
    (hv : ∀ w ∈ v :: vs, w ≠ [])
    (hs : stored db.hashedStorage a.storageKey = a.slots.map (fun s => s.1 ++ be s.2) ++ v :: vs) :
    ∃ s, addAll keccak true {} a.storageTrie = .ok s ∧
      ((∀ e, storageLoop keccak s (v :: vs) = .err e → calculateRoot keccak db = .err e) ∧
       (storageLoop keccak s (v :: vs) = .ub → calculateRoot keccak db = .ub)) := by
  obtain ⟨t, r, h⟩ := accountLoop_first hk h0 hp ht
  obtain ⟨s, e1, e2⟩ := storageLoop_first hk h0 ha v vs
  have hm : a ∈ [a] := List.mem_singleton.mpr rfl
  have hvals : valuesFrom db.hashedStorage a.storageKey [0] = a.slots.map (fun s => s.1 ++ be s.2) ++ v :: vs := by
    rw [valuesFrom_eq, hs]
    intro w hw
    rw [hs] at hw
    rcases List.mem_append.mp hw with hw | hw
    · obtain ⟨x, hx, rfl⟩ := List.mem_map.mp hw
      intro h
      have := ha.locations a hm x hx
      rw [(List.append_eq_nil_iff.mp h).1] at this
      cases this
    · exact hv w hw
  have hloop : accountLoop keccak db.hashedStorage t ((a.key, accountRecord a.account false) :: rest) = (do
      let x ← (do
        let s ← storageLoop keccak s (v :: vs)
        let r ← liftBuilder (rootHash keccak true s)
        Outcome.ok (r.1, storageRecords a.storageKey r.2))
      let hb ← liftBuilder (add keccak true t a.key (a.account.rlp x.1))
      let rest ← accountLoop keccak db.hashedStorage hb rest
      .ok (rest.1, x.2 ++ rest.2)) := by
    conv => lhs; unfold accountLoop
    dsimp only
    rw [decode_accountRecord (ha.accounts a hm)]
    have : storageOfAccount keccak db.hashedStorage a.key a.account = (do
        let s ← storageLoop keccak s (v :: vs)
        let r ← liftBuilder (rootHash keccak true s)
        Outcome.ok (r.1, storageRecords a.storageKey r.2)) := by
      unfold storageOfAccount
      rw [if_neg hi, ← e2, ← hvals]
      rfl
    rw [← this]
    rfl
  refine ⟨s, e1, fun e he => ?_, fun he => ?_⟩
  · unfold calculateRoot
    rw [hdb, accountLoop_append _ _ _ _ _ h, hloop, he]
    rfl
  · unfold calculateRoot
    rw [hdb, accountLoop_append _ _ _ _ _ h, hloop, he]
    rfl

/-- C102: a value in the table of hashed storage that is too short for a location ends the computation with
`std::out_of_range`. -/
theorem c102_short_slot (d : Nat → Disk) (keccak : Bytes → Bytes) (hk : ∀ x, (keccak x).length = 32)
    (h0 : keccak [0x80] = kEmptyRoot) (db : Database) (state : List HashedAccount) (hp : ProperState state)
    (first rest : Table) (a : HashedAccount) (ha : ProperState [a]) (hi : a.account.incarnation ≠ 0)
    (ht : InTables state first db.hashedStorage)
    (hdb : db.hashedAccounts = first ++ (a.key, accountRecord a.account false) :: rest) (v : Bytes) (vs : List Bytes)
    (hv : ∀ w ∈ v :: vs, w ≠ [])
    (hs : stored db.hashedStorage a.storageKey = a.slots.map (fun s => s.1 ++ be s.2) ++ v :: vs) (hshort : v.length < 32)
    (expected : Option Bytes) : regenerateDbTries d keccak expected db = .err .outOfRange := by
  obtain ⟨s, _, h, _⟩ := storage_decides hk h0 hp ha hi ht hdb v vs hv hs
  have : storageLoop keccak s (v :: vs) = .err .outOfRange := by
    unfold storageLoop
    rw [if_pos hshort]
  unfold regenerateDbTries
  rw [h _ this]
  rfl

/-- C102: two values for one location end it with a failed assertion. -/
theorem c102_duplicate_location (d : Nat → Disk) (keccak : Bytes → Bytes) (hk : ∀ x, (keccak x).length = 32)
    (h0 : keccak [0x80] = kEmptyRoot) (db : Database) (state : List HashedAccount) (hp : ProperState state)
    (first rest : Table) (a : HashedAccount) (ha : ProperState [a]) (hi : a.account.incarnation ≠ 0)
    (ht : InTables state first db.hashedStorage)
    (hdb : db.hashedAccounts = first ++ (a.key, accountRecord a.account false) :: rest) (slot : Bytes × Nat)
    (hlast : a.slots.getLast? = some slot) (v : Bytes) (vs : List Bytes) (hv : ∀ w ∈ v :: vs, w ≠ [])
    (hs : stored db.hashedStorage a.storageKey = a.slots.map (fun s => s.1 ++ be s.2) ++ v :: vs)
    (hsame : v.take 32 = slot.1) (expected : Option Bytes) : regenerateDbTries d keccak expected db = .ub := by
  obtain ⟨s, e1, _, h⟩ := storage_decides hk h0 hp ha hi ht hdb v vs hv hs
  have hm : a ∈ [a] := List.mem_singleton.mpr rfl
  have hkey : s.key = unpackNibbles slot.1 := by
    obtain ⟨ys, hys⟩ := List.getLast?_eq_some_iff.mp hlast
    have he : a.storageTrie = ys.map (fun s => (s.1, Spec.rlp (num s.2))) ++ [(slot.1, Spec.rlp (num slot.2))] := by
      unfold HashedAccount.storageTrie
      rw [hys, List.map_append]
      rfl
    rw [he] at e1
    exact addAll_key _ _ _ _ e1
  have hlen : slot.1.length = 32 := ha.locations a hm slot (List.mem_of_getLast? hlast)
  have hvl : ¬ v.length < 32 := by
    intro hlt
    have := congrArg List.length hsame
    rw [List.length_take, hlen] at this
    omega
  have : storageLoop keccak s (v :: vs) = .ub := by
    unfold storageLoop
    rw [if_neg hvl, hsame]
    have : add keccak true s slot.1 (encodeBytes (v.drop 32)) = .ub := add_same hkey
    rw [this]
    rfl
  unfold regenerateDbTries
  rw [h this]
  rfl

/-! ## C103: the records -/

/-- C103: afterwards the tables hold exactly one record for each path where one belongs, with the contents the comment in
db_trie.hpp describes: for accounts under the path, except for the root, and for storage under the hash of the address, the
incarnation and the path, the root included. Under any other key there is what was there before. -/
theorem c103_records (d : Nat → Disk) (keccak : Bytes → Bytes) (hk : ∀ x, (keccak x).length = 32)
    (h0 : keccak [0x80] = kEmptyRoot) (db db' : Database) (state : List HashedAccount) (hp : ProperState state)
    (ht : InTables state db.hashedAccounts db.hashedStorage) (expected : Option Bytes) (root : Bytes)
    (h : regenerateDbTries d keccak expected db = .ok (root, db')) :
    (∀ p v, p ≠ [] → RecordAt keccak (stateTrie keccak state) p v → db'.trieOfAccounts.find p = some (p, v)) ∧
    (∀ p, p = [] ∨ ¬ HasRecord (stateTrie keccak state) p → db'.trieOfAccounts.find p = db.trieOfAccounts.find p) ∧
    (∀ a ∈ state, ∀ p v, RecordAt keccak a.storageTrie p v →
      db'.trieOfStorage.find (a.storageKey ++ p) = some (a.storageKey ++ p, v)) ∧
    (∀ k, (∀ a ∈ state, ∀ p, HasRecord a.storageTrie p → k ≠ a.storageKey ++ p) →
      db'.trieOfStorage.find k = db.trieOfStorage.find k) := by
  obtain ⟨s, hc, he⟩ := calculateRoot_ok hk h0 hp ht
  have hl := (stateTrie_valid hk hp).2.2.2.2.1
  unfold regenerateDbTries at h
  rw [he] at h
  simp only [Outcome.ok_bind] at h
  split at h
  · cases h
  rcases load_accountRecords hk hc hl (d 0) kFlushSize db.trieOfAccounts with h1 | ⟨A, h1, h2, h3⟩
  · rw [h1] at h; cases h
  rw [h1] at h
  simp only [Outcome.ok_bind] at h
  rcases load_storageRecords hk h0 hp (d 1) kFlushSize db.trieOfStorage with h4 | ⟨S, h4, h5, h6⟩
  · rw [h4] at h; cases h
  rw [h4] at h
  cases h
  exact ⟨h2, h3, h5, h6⟩

/-- C103: there is a record at every path where one belongs, and there is only one that belongs there. -/
theorem c103_record_exists (keccak : Bytes → Bytes) (hk : ∀ x, (keccak x).length = 32) (h0 : keccak [0x80] = kEmptyRoot)
    (state : List HashedAccount) (hp : ProperState state) :
    (∀ p, HasRecord (stateTrie keccak state) p → ∃! v, RecordAt keccak (stateTrie keccak state) p v) ∧
    (∀ a ∈ state, ∀ p, HasRecord a.storageTrie p → ∃! v, RecordAt keccak a.storageTrie p v) := by
  constructor
  · intro p hr
    obtain ⟨h1, h2, h3, h4, h5, h6⟩ := stateTrie_valid hk hp
    obtain ⟨s, e, hc⟩ := build_ok hk h0 h4 h1 h2 h3 (hashed_of_values hk h2 h6)
    obtain ⟨n, hn⟩ := hc.complete p trivial hr
    have := (collected_record hk hc h5 hn).1
    exact ⟨_, this, fun w hw => recordAt_unique hw this⟩
  · intro a ha p hr
    obtain ⟨_, hc⟩ := storageBuilder_ok hk h0 hp ha
    obtain ⟨n, hn⟩ := hc.complete p trivial hr
    have := (collected_record hk hc (storageTrie_valid hp ha).2.2.2.2.1 hn).1
    exact ⟨_, this, fun w hw => recordAt_unique hw this⟩

/-- C103, "if state_mask has a bit - then hashed_accounts table must have a record corresponding to this bit": a child of a
record is on the way to an account. -/
theorem c103_state_bits (keccak : Bytes → Bytes) (state : List HashedAccount) (db : Database)
    (ht : InTables state db.hashedAccounts db.hashedStorage) (p : Bytes) (sm tm hm : Nat) (hs : List Bytes) (r : Option Bytes)
    (h : IsRecord keccak ((stateTrie keccak state).map (fun e => (nibbles e.1, e.2))) p sm tm hm hs r) (i : Nat)
    (hi : sm.testBit i = true) : ∃ e ∈ db.hashedAccounts, p ++ [UInt8.ofNat i] <+: nibbles e.1 := by
  obtain ⟨_, x, hx, hp⟩ := (h.state i).mp hi
  obtain ⟨y, hy, rfl⟩ := List.mem_map.mp hx
  obtain ⟨a, ha, rfl⟩ := List.mem_map.mp hy
  rw [ht.accounts]
  exact ⟨_, List.mem_map.mpr ⟨a, ha, rfl⟩, hp⟩

/-- C103, "trie_storage record of account root (length=40) must have +1 hash - it's the account root": the record at the root
of a storage trie holds the storage root after the masks. -/
theorem c103_storage_root (keccak : Bytes → Bytes) (a : HashedAccount) (v : Bytes) (h : RecordAt keccak a.storageTrie [] v) :
    ∃ masks hashes, masks.length = 6 ∧ v = masks ++ trieRoot keccak a.storageTrie ++ hashes := by
  obtain ⟨_, sm, tm, hm, hs, r, hr, rfl⟩ := h
  refine ⟨twoBytes sm ++ twoBytes tm ++ twoBytes hm, hs.flatten, rfl, ?_⟩
  unfold recordBytes
  rw [hr.root, if_pos rfl]
  rfl

/-- C103 as stated, after rebuilding the tables hold nothing but the records of the state. -/
def C103_statement : Prop :=
  ∀ (d : Nat → Disk) (keccak : Bytes → Bytes) (db db' : Database) (state : List HashedAccount) (root : Bytes),
    (∀ x, (keccak x).length = 32) → keccak [0x80] = kEmptyRoot → ProperState state →
    InTables state db.hashedAccounts db.hashedStorage → regenerateDbTries d keccak none db = .ok (root, db') →
    ∀ e ∈ db'.trieOfAccounts, HasRecord (stateTrie keccak state) e.1

/-- The invariant of db_trie.hpp "the first level in account_trie always exists if state_mask≠0": there is a record for each
first nibble of an account. -/
def C103_firstLevel : Prop :=
  ∀ (d : Nat → Disk) (keccak : Bytes → Bytes) (db db' : Database) (state : List HashedAccount) (root : Bytes),
    (∀ x, (keccak x).length = 32) → keccak [0x80] = kEmptyRoot → ProperState state →
    InTables state db.hashedAccounts db.hashedStorage → regenerateDbTries d keccak none db = .ok (root, db') →
    ∀ a ∈ state, ∀ n : UInt8, [n] <+: nibbles a.key → (db'.trieOfAccounts.find [n]).isSome

/-- The invariant of db_trie.hpp "each record in trie_account table must have an ancestor (may be not immediate)", for tables
that were empty before and records below the first level. -/
def C103_ancestors : Prop :=
  ∀ (d : Nat → Disk) (keccak : Bytes → Bytes) (db db' : Database) (state : List HashedAccount) (root : Bytes),
    (∀ x, (keccak x).length = 32) → keccak [0x80] = kEmptyRoot → ProperState state →
    InTables state db.hashedAccounts db.hashedStorage → db.trieOfAccounts = [] →
    regenerateDbTries d keccak none db = .ok (root, db') →
    ∀ e ∈ db'.trieOfAccounts, 1 < e.1.length → ∃ f ∈ db'.trieOfAccounts, f.1 <+: e.1 ∧ f.1.length < e.1.length

/-- A key of 32 bytes. -/
def trieKey (b : Bytes) : Bytes := b ++ List.replicate (32 - b.length) 0

/-- Five accounts; three of them begin with the same four nibbles, and the last one has three slots. -/
def exTrieState : List HashedAccount :=
  [⟨trieKey [0x11], ⟨1, 10, kEmptyHash, 0⟩, []⟩,
   ⟨trieKey [0x12], ⟨2, 11, kEmptyHash, 0⟩, []⟩,
   ⟨trieKey [0x30, 0xaf, 0x56], ⟨3, 12, kEmptyHash, 0⟩, []⟩,
   ⟨trieKey [0x30, 0xaf, 0x57], ⟨4, 13, kEmptyHash, 0⟩, []⟩,
   ⟨trieKey [0x30, 0xaf, 0x80], ⟨0, 7, List.replicate 32 9, 1⟩,
    [(trieKey [0x10], 5), (trieKey [0x11], 300), (trieKey [0x20], 1)]⟩]

/-- The tables that hold it, with a record left from before. -/
def exTrieDb : Database :=
  { hashedAccounts := exTrieState.map (fun a => (a.key, accountRecord a.account false))
    hashedStorage := exTrieState.flatMap (fun a => a.slots.map (fun s => (a.storageKey, s.1 ++ be s.2)))
    trieOfAccounts := [([7], [1, 2, 3])] }

instance decideKeyLt (a b : Bytes) : Decidable (KeyLt a b) := decidable_of_iff _ keyLt_iff.symm

/-- The same without the record. -/
def exTrieClean : Database := { exTrieDb with trieOfAccounts := [] }

theorem exTrie_proper : ProperState exTrieState where
  keys := by decide +kernel
  sorted := by decide +kernel
  accounts := by
    have h : ∀ a ∈ exTrieState, a.account.nonce < 2 ^ 64 ∧ a.account.balance < 2 ^ 256 ∧ a.account.codeHash.length = 32 ∧
      a.account.incarnation < 2 ^ 64 := by decide +kernel
    intro a ha
    obtain ⟨h1, h2, h3, h4⟩ := h a ha
    exact ⟨h1, h2, h3, h4⟩
  locations := by decide +kernel
  values := by decide +kernel
  slots := by decide +kernel

theorem exTrie_tables : InTables exTrieState exTrieDb.hashedAccounts exTrieDb.hashedStorage where
  accounts := rfl
  storage := by decide +kernel
  none := by decide +kernel

theorem toyHash2_length (b : Bytes) : (toyHash2 b).length = 32 := by
  unfold toyHash2
  split
  · decide +kernel
  · exact toyHash_length b

/-- What regenerating leaves: for the accounts a record at `30af`, for the storage one at the root. -/
theorem exTrie_result : ∃ root db', regenerateDbTries exDisks toyHash2 none exTrieDb = .ok (root, db') ∧
    db'.trieOfAccounts.map (·.1) = [[3, 0, 10, 15], [7]] ∧
    db'.trieOfStorage.map (·.1) = [trieKey [0x30, 0xaf, 0x80] ++ beFixed 8 1] := by
  have h : (match regenerateDbTries exDisks toyHash2 none exTrieDb with
    | .ok (_, db') => decide (db'.trieOfAccounts.map (·.1) = [[3, 0, 10, 15], [7]] ∧
        db'.trieOfStorage.map (·.1) = [trieKey [0x30, 0xaf, 0x80] ++ beFixed 8 1])
    | _ => false) = true := by decide +kernel
  revert h
  cases regenerateDbTries exDisks toyHash2 none exTrieDb with
  | ok x => intro h; exact ⟨x.1, x.2, rfl, of_decide_eq_true h⟩
  | err e => intro h; cases h
  | ub => intro h; cases h

theorem exTrie_branch : HasRecord (stateTrie toyHash2 exTrieState) [3, 0, 10, 15] := by
  have hm : ∀ a ∈ exTrieState, ∀ p, p <+: nibbles a.key →
      Occurs ((stateTrie toyHash2 exTrieState).map (fun e => (nibbles e.1, e.2))) p := by
    intro a ha p hp
    exact ⟨_, List.mem_map.mpr ⟨_, List.mem_map.mpr ⟨a, ha, rfl⟩, rfl⟩, hp⟩
  have o1 := hm exTrieState[2] (List.getElem_mem _) [3, 0, 10, 15, 5, 6] (by decide +kernel)
  have o2 := hm exTrieState[3] (List.getElem_mem _) [3, 0, 10, 15, 5, 7] (by decide +kernel)
  have o3 := hm exTrieState[2] (List.getElem_mem _) [3, 0, 10, 15, 5] (by decide +kernel)
  have o4 := hm exTrieState[4] (List.getElem_mem _) [3, 0, 10, 15, 8] (by decide +kernel)
  have b1 : BranchAt ((stateTrie toyHash2 exTrieState).map (fun e => (nibbles e.1, e.2))) [3, 0, 10, 15] :=
    ⟨5, 8, by decide, o3, o4⟩
  exact ⟨b1, [3, 0, 10, 15], 5, List.prefix_refl _, b1, 6, 7, by decide, o1, o2⟩

/-- C103 is violated: the record at `7` is still there, although no account begins with 7. -/
theorem c103_leftovers_violated : ¬ C103_statement := by
  intro h
  obtain ⟨root, db', h1, h2, _⟩ := exTrie_result
  have hm : [7] ∈ db'.trieOfAccounts.map (·.1) := by rw [h2]; decide
  obtain ⟨e, he, he7⟩ := List.mem_map.mp hm
  have := h exDisks toyHash2 exTrieDb db' exTrieState root toyHash2_length rfl exTrie_proper exTrie_tables h1 e he
  rw [he7] at this
  obtain ⟨⟨a, _, _, ⟨x, hx, hp⟩, _⟩, _⟩ := this
  obtain ⟨y, hy, rfl⟩ := List.mem_map.mp hx
  obtain ⟨z, hz, rfl⟩ := List.mem_map.mp hy
  have h7 : ∀ z ∈ exTrieState, ¬ [7] <+: nibbles z.key := by decide +kernel
  exact h7 z hz ((List.prefix_append [7] [a]).trans hp)

/-- The first invariant is violated: two accounts begin with 1, and the table has no record at `1`. -/
theorem c103_firstLevel_violated : ¬ C103_firstLevel := by
  intro h
  obtain ⟨root, db', h1, h2, _⟩ := exTrie_result
  have := h exDisks toyHash2 exTrieDb db' exTrieState root toyHash2_length rfl exTrie_proper exTrie_tables h1 exTrieState[0]
    (List.getElem_mem _) 1 (by decide +kernel)
  obtain ⟨e, he⟩ := Option.isSome_iff_exists.mp this
  have hm : e.1 ∈ db'.trieOfAccounts.map (·.1) := List.mem_map.mpr ⟨e, List.mem_of_find?_eq_some he, rfl⟩
  have h3 : e.1 = [1] := by simpa using List.find?_some he
  rw [h2, h3] at hm
  exact absurd hm (by decide)

/-- The second invariant is violated: above the record at `30af` there is none. -/
theorem c103_ancestors_violated : ¬ C103_ancestors := by
  intro h
  have hr : ∃ root db', regenerateDbTries exDisks toyHash2 none exTrieClean = .ok (root, db') ∧
      db'.trieOfAccounts.map (·.1) = [[3, 0, 10, 15]] := by
    have h : (match regenerateDbTries exDisks toyHash2 none exTrieClean with
      | .ok (_, db') => decide (db'.trieOfAccounts.map (·.1) = [[3, 0, 10, 15]])
      | _ => false) = true := by decide +kernel
    revert h
    cases regenerateDbTries exDisks toyHash2 none exTrieClean with
    | ok x => intro h; exact ⟨x.1, x.2, rfl, of_decide_eq_true h⟩
    | err e => intro h; cases h
    | ub => intro h; cases h
  obtain ⟨root, db', h1, h2⟩ := hr
  have hall : ∀ e ∈ db'.trieOfAccounts, e.1 = [3, 0, 10, 15] := by
    intro e he
    have : e.1 ∈ db'.trieOfAccounts.map (·.1) := List.mem_map.mpr ⟨e, he, rfl⟩
    rw [h2] at this
    exact List.mem_singleton.mp this
  have hm : [3, 0, 10, 15] ∈ db'.trieOfAccounts.map (·.1) := by rw [h2]; decide
  obtain ⟨e, he, he1⟩ := List.mem_map.mp hm
  obtain ⟨f, hf, _, hlt⟩ := h exDisks toyHash2 exTrieClean db' exTrieState root toyHash2_length rfl exTrie_proper exTrie_tables
    rfl h1 e he (by rw [he1]; decide)
  rw [hall f hf, hall e he] at hlt
  exact absurd hlt (by decide)

/-- C103: what holds of the second invariant: where there is a branch node above a record, below the root, it has a record with
the bit of the tree mask for the way down. -/
theorem c103_ancestors_partial (d : Nat → Disk) (keccak : Bytes → Bytes) (hk : ∀ x, (keccak x).length = 32)
    (h0 : keccak [0x80] = kEmptyRoot) (db db' : Database) (state : List HashedAccount) (hp : ProperState state)
    (ht : InTables state db.hashedAccounts db.hashedStorage) (expected : Option Bytes) (root : Bytes)
    (h : regenerateDbTries d keccak expected db = .ok (root, db')) (q r : Bytes) (n : UInt8) (hq : q ≠ [])
    (hr : HasRecord (stateTrie keccak state) (q ++ n :: r))
    (hb : BranchAt ((stateTrie keccak state).map (fun e => (nibbles e.1, e.2))) q) :
    ∃ sm tm hm hs, tm.testBit n.toNat = true ∧ db'.trieOfAccounts.find q = some (q, recordBytes sm tm hm hs none) := by
  have hT : ∀ e ∈ (stateTrie keccak state).map (fun e => (nibbles e.1, e.2)), ∀ x ∈ e.1, x.toNat < 16 := by
    intro e he x hx
    obtain ⟨y, _, rfl⟩ := List.mem_map.mp he
    exact nibbles_path _ x hx
  have hrec : HasRecord (stateTrie keccak state) q := by
    obtain ⟨_, q', x, h1, h2, h3⟩ := hr
    exact ⟨hb, q', x, (List.prefix_append _ _).trans h1, h2, h3⟩
  obtain ⟨v, hv, _⟩ := (c103_record_exists keccak hk h0 state hp).1 q hrec
  have hfind := (c103_records d keccak hk h0 db db' state hp ht expected root h).1 q v hq hv
  obtain ⟨_, sm, tm, hm, hs, rt, hrr, rfl⟩ := hv
  have hroot := hrr.root
  rw [if_neg hq] at hroot
  subst hroot
  refine ⟨sm, tm, hm, hs, ?_, hfind⟩
  exact (c100_ancestors_of_records keccak _ hT q r n hr hb ⟨sm, tm, hm, hs, none⟩ hrr).2

example : ∃ root db', regenerateDbTries exDisks toyHash2 none exTrieDb = .ok (root, db') ∧
    root = trieRoot toyHash2 (stateTrie toyHash2 exTrieState) := by
  obtain ⟨root, db', h, _⟩ := exTrie_result
  rcases c102_root exDisks toyHash2 toyHash2_length rfl exTrieDb exTrieState exTrie_proper exTrie_tables with h1 | ⟨A, S, h1⟩
  · rw [h] at h1; cases h1
  · rw [h] at h1; cases h1; exact ⟨_, _, h, rfl⟩

example : regenerateDbTries exDisks toyHash2 (some (exWord 1)) exTrieDb = .err .wrongRoot := by
  rw [c102_wrong_root exDisks toyHash2 toyHash2_length rfl exTrieDb exTrieState exTrie_proper exTrie_tables, if_neg]
  decide +kernel

/-- A world state that hashes to two accounts, one of them with two slots, if hashing fills up with zeros. -/
def exHashedPair : List HashedAccount :=
  [⟨exHash (exAddr 1), ⟨1, 10, kEmptyHash, 0⟩, []⟩,
   ⟨exHash (exAddr 2), ⟨0, 7, List.replicate 32 9, 1⟩, [(trieKey [1], 5), (trieKey [2], 300)]⟩]

example : trieRoot exHash (stateTrie exHash exHashedPair) =
    stateRoot exHash [(exAddr 2, ⟨0, 7, List.replicate 32 9, 1⟩, [(trieKey [2], exWord 300), (trieKey [3], exWord 0),
      (trieKey [1], exWord 5)]), (exAddr 1, ⟨1, 10, kEmptyHash, 0⟩, [])] := by
  refine c102_state_root exHash exHash_length exHashedPair ⟨by decide +kernel, by decide +kernel, ?_, by decide +kernel,
    by decide +kernel, by decide +kernel⟩ _ ⟨fun a => if a.key = exHash (exAddr 1) then
      (exAddr 1, ⟨1, 10, kEmptyHash, 0⟩, []) else (exAddr 2, ⟨0, 7, List.replicate 32 9, 1⟩,
        [(trieKey [2], exWord 300), (trieKey [3], exWord 0), (trieKey [1], exWord 5)]), by decide +kernel, by decide +kernel⟩
  have h : ∀ a ∈ exHashedPair, a.account.nonce < 2 ^ 64 ∧ a.account.balance < 2 ^ 256 ∧ a.account.codeHash.length = 32 ∧
      a.account.incarnation < 2 ^ 64 := by decide +kernel
  intro a ha
  obtain ⟨h1, h2, h3, h4⟩ := h a ha
  exact ⟨h1, h2, h3, h4⟩

/-- An account whose record is cut off after the first one. -/
example : regenerateDbTries exDisks toyHash2 none
    { hashedAccounts := [(trieKey [0x11], accountRecord ⟨1, 10, kEmptyHash, 0⟩ false), (trieKey [0x12], [1, 9])] } =
      .err (.db (.rlp .inputTooShort)) := by decide +kernel

/-- The same account with a slot that is too short, and with a location that comes twice. -/
example : regenerateDbTries exDisks toyHash2 none
    { hashedAccounts := [(trieKey [0x11], accountRecord ⟨1, 10, kEmptyHash, 1⟩ false)]
      hashedStorage := [(trieKey [0x11] ++ beFixed 8 1, trieKey [0x10] ++ [5]), (trieKey [0x11] ++ beFixed 8 1, [0x11])] } =
      .err .outOfRange := by decide +kernel
example : regenerateDbTries exDisks toyHash2 none
    { hashedAccounts := [(trieKey [0x11], accountRecord ⟨1, 10, kEmptyHash, 1⟩ false)]
      hashedStorage := [(trieKey [0x11] ++ beFixed 8 1, trieKey [0x10] ++ [5]),
        (trieKey [0x11] ++ beFixed 8 1, trieKey [0x10] ++ [6])] } = .ub := by decide +kernel

/-- The record at `30af`: children 5 and 8, the first of them a branch node. -/
example : ∃ root db' v, regenerateDbTries exDisks toyHash2 none exTrieDb = .ok (root, db') ∧
    db'.trieOfAccounts.find [3, 0, 10, 15] = some ([3, 0, 10, 15], v) ∧
    RecordAt toyHash2 (stateTrie toyHash2 exTrieState) [3, 0, 10, 15] v := by
  obtain ⟨root, db', h, _⟩ := exTrie_result
  obtain ⟨v, hv, _⟩ := (c103_record_exists toyHash2 toyHash2_length rfl exTrieState exTrie_proper).1 _ exTrie_branch
  exact ⟨root, db', v, h, (c103_records exDisks toyHash2 toyHash2_length rfl exTrieDb db' exTrieState exTrie_proper exTrie_tables
    none root h).1 _ v (by decide) hv, hv⟩
example : (match regenerateDbTries exDisks toyHash2 none exTrieDb with
    | .ok (_, db') => decide (db'.trieOfAccounts.map (fun e => e.2.take 6) = [[1, 32, 0, 0, 0, 32], [1, 2, 3]] ∧
        db'.trieOfStorage.map (fun e => (e.2.take 6, e.2.length)) = [([0, 6, 0, 0, 0, 2], 70)])
    | _ => false) = true := by decide +kernel
example : ∃ e ∈ exTrieDb.hashedAccounts, [3, 0, 10, 15] ++ [UInt8.ofNat 8] <+: nibbles e.1 :=
  have ⟨_, ⟨_, _, _, _, _, _, hr, _⟩, _⟩ := (c103_record_exists toyHash2 toyHash2_length rfl exTrieState exTrie_proper).1 _
    exTrie_branch
  c103_state_bits toyHash2 exTrieState exTrieDb exTrie_tables _ _ _ _ _ _ hr 8
    ((hr.state 8).mpr ⟨by decide, _, List.mem_map.mpr ⟨_, List.mem_map.mpr ⟨exTrieState[4], List.getElem_mem _, rfl⟩, rfl⟩,
      by decide +kernel⟩)

/-! ## C104: hashing the state and taking the root -/

/-- The plain state holds this world: accounts under their addresses, slots under address and incarnation; hashes of addresses
do not collide. -/
structure PlainWorld (keccak : Bytes → Bytes) (world : List (Bytes × Account × List (Bytes × Bytes))) (plain : Table) : Prop where
  accounts : ∀ a v, a.length = 20 → ((a, v) ∈ plain ↔ ∃ w ∈ world, w.1 = a ∧ v = accountRecord w.2.1 false)
  slots : ∀ w ∈ world, stored plain (w.1 ++ beFixed 8 w.2.1.incarnation) = w.2.2.map (fun s => s.1 ++ be (fromBe s.2))
  addresses : ∀ w ∈ world, w.1.length = 20 ∧ w.2.1.WF
  hashes : world.Pairwise (fun v w => keccak v.1 ≠ keccak w.1)

/-- C104 as stated: hashing the plain state and regenerating the tries gives the state root. -/
def C104_statement : Prop :=
  ∀ (d : Nat → Disk) (keccak : Bytes → Bytes) (world : List (Bytes × Account × List (Bytes × Bytes))) (db db' db'' : Database)
    (root : Bytes), (∀ x, (keccak x).length = 32) → keccak [0x80] = kEmptyRoot → PlainFits db → NothingHashed db →
    MultiOrdered db.plainState → PlainWorld keccak world db.plainState → stageHashState d keccak db = .ok (.success, db') →
    regenerateDbTries d keccak none db' = .ok (root, db'') → root = stateRoot keccak world

/-- The account in a record. -/
def readAccount (v : Bytes) : Account :=
  match decodeAccountFromStorage v with
  | .ok a => a
  | _ => {}

/-- C104: the root that comes out is that of the world without any storage. -/
theorem c104_storage_ignored (d d' : Nat → Disk) (keccak : Bytes → Bytes) (hk : ∀ x, (keccak x).length = 32)
    (h0 : keccak [0x80] = kEmptyRoot) (world : List (Bytes × Account × List (Bytes × Bytes))) (db db' : Database)
    (hf : PlainFits db) (hn : NothingHashed db) (hw : PlainWorld keccak world db.plainState)
    (h : stageHashState d keccak db = .ok (.success, db')) :
    regenerateDbTries d' keccak none db' = .err (.etl .insufficientDiskSpace) ∨
    ∃ db'', regenerateDbTries d' keccak none db' = .ok (stateRoot keccak (world.map (fun w => (w.1, w.2.1, []))), db'') := by
  have hcol : ∀ e ∈ db.plainState, ∀ f ∈ db.plainState, e.1.length = 20 → f.1.length = 20 → keccak e.1 = keccak f.1 →
      e = f := by
    intro e he f hf' le lf hef
    obtain ⟨v, hv, h1, h2⟩ := (hw.accounts e.1 e.2 le).mp he
    obtain ⟨w, hw', h3, h4⟩ := (hw.accounts f.1 f.2 lf).mp hf'
    have : v = w := by
      by_contra hne
      refine pairwise_mem (fun _ _ h => Ne.symm h) hw.hashes hv hw' hne ?_
      rw [h1, h3]; exact hef
    subst this
    exact Prod.ext (h1.symm.trans h3) (h2.trans h4.symm)
  obtain ⟨a1, a2, a3⟩ := c56_accounts_partial d keccak db db' hk hf hn h hcol
  have s1 := (c56_keys_violated d keccak db db' hk hf hn h).1
  have hmem : ∀ e, e ∈ db'.hashedAccounts ↔ ∃ w ∈ world, e = (keccak w.1, accountRecord w.2.1 false) := by
    intro e
    constructor
    · intro he
      obtain ⟨a, h1, h2, h3⟩ := a2 e he
      obtain ⟨w, h4, h5, h6⟩ := (hw.accounts a e.2 h1).mp h2
      exact ⟨w, h4, Prod.ext (by rw [h3, h5]) h6⟩
    · rintro ⟨w, hw1, rfl⟩
      obtain ⟨h1, _⟩ := hw.addresses w hw1
      have := a1 w.1 _ h1 ((hw.accounts w.1 _ h1).mpr ⟨w, hw1, rfl, rfl⟩)
      exact List.mem_of_find?_eq_some this
  have hread : ∀ w ∈ world, readAccount (accountRecord w.2.1 false) = w.2.1 := by
    intro w hw1
    unfold readAccount
    rw [decode_accountRecord (hw.addresses w hw1).2]
  let state : List HashedAccount := db'.hashedAccounts.map (fun e => ⟨e.1, readAccount e.2, []⟩)
  have hst : ∀ a ∈ state, ∃ w ∈ world, a = ⟨keccak w.1, w.2.1, []⟩ := by
    intro a ha
    obtain ⟨e, he, rfl⟩ := List.mem_map.mp ha
    obtain ⟨w, hw1, rfl⟩ := (hmem e).mp he
    exact ⟨w, hw1, by rw [hread w hw1]⟩
  have hp : ProperState state := by
    refine ⟨?_, ?_, ?_, ?_, ?_, ?_⟩
    · intro a ha
      obtain ⟨w, _, rfl⟩ := hst a ha
      exact hk _
    · show (db'.hashedAccounts.map _).Pairwise _
      rw [List.pairwise_map]
      exact a3.imp fun h => keyLt_iff.mpr ((Etl.lexLt_iff _ _).mpr h)
    · intro a ha
      obtain ⟨w, hw1, rfl⟩ := hst a ha
      exact (hw.addresses w hw1).2
    all_goals
      intro a ha
      obtain ⟨w, _, rfl⟩ := hst a ha
      first
        | exact List.Pairwise.nil
        | (intro s hs; cases hs)
  have ht : InTables state db'.hashedAccounts db'.hashedStorage := by
    refine ⟨?_, ?_, ?_⟩
    · show _ = (db'.hashedAccounts.map _).map _
      rw [List.map_map]
      conv => lhs; rw [← List.map_id db'.hashedAccounts]
      apply List.map_congr_left
      intro e he
      obtain ⟨w, hw1, rfl⟩ := (hmem e).mp he
      simp only [Function.comp_apply, id_eq]
      rw [hread w hw1]
    · intro a ha _
      obtain ⟨w, hw1, rfl⟩ := hst a ha
      show stored _ _ = []
      unfold stored
      rw [List.map_eq_nil_iff, List.filter_eq_nil_iff]
      intro e he hke
      obtain ⟨x, i, h1, h2, _, h3⟩ := s1 e he
      have h4 : e.1 = HashedAccount.storageKey ⟨keccak w.1, w.2.1, []⟩ := by simpa using hke
      have h5 := congrArg List.length (h3.symm.trans h4)
      simp only [HashedAccount.storageKey, List.length_append, List.length_take, hk, h2, List.length_replicate,
        beFixed_length] at h5
      omega
    · intro a ha _
      obtain ⟨w, _, rfl⟩ := hst a ha
      rfl
  have hroot : trieRoot keccak (stateTrie keccak state) = stateRoot keccak (world.map (fun w => (w.1, w.2.1, []))) := by
    unfold stateRoot
    refine trieRoot_perm keccak ?_ (stateTrie_valid hk hp).2.1
    rw [List.map_map]
    have n1 : (stateTrie keccak state).Nodup := by
      refine (stateTrie_valid hk hp).1.imp fun h e => ?_
      rw [e] at h
      have := keyLt_iff.mp h
      rw [Etl.lexLt_iff] at this
      exact List.lt_irrefl _ this
    have n2 : (world.map ((fun e : Bytes × Account × List (Bytes × Bytes) =>
        (keccak e.1, Spec.rlp (accountItem e.2.1 (storageRoot keccak e.2.2)))) ∘ fun w => (w.1, w.2.1, []))).Nodup := by
      unfold List.Nodup
      rw [List.pairwise_map]
      exact hw.hashes.imp fun h e => h (Prod.mk.inj e).1
    rw [List.perm_ext_iff_of_nodup n1 n2]
    intro x
    constructor
    · intro hx
      obtain ⟨a, ha, rfl⟩ := List.mem_map.mp hx
      obtain ⟨w, hw1, rfl⟩ := hst a ha
      exact List.mem_map.mpr ⟨w, hw1, rfl⟩
    · intro hx
      obtain ⟨w, hw1, rfl⟩ := List.mem_map.mp hx
      refine List.mem_map.mpr ⟨⟨keccak w.1, w.2.1, []⟩, ?_, rfl⟩
      refine List.mem_map.mpr ⟨(keccak w.1, accountRecord w.2.1 false), (hmem _).mpr ⟨w, hw1, rfl⟩, ?_⟩
      rw [hread w hw1]
  rcases c102_root d' keccak hk h0 db' state hp ht with hbad | ⟨A, S, hok⟩
  · exact Or.inl hbad
  · exact Or.inr ⟨_, by rw [hok, hroot]⟩

/-- C104 for worlds without storage. Missing: storage. -/
theorem c104_no_storage_partial (d d' : Nat → Disk) (keccak : Bytes → Bytes) (hk : ∀ x, (keccak x).length = 32)
    (h0 : keccak [0x80] = kEmptyRoot) (world : List (Bytes × Account × List (Bytes × Bytes))) (db db' : Database)
    (hf : PlainFits db) (hn : NothingHashed db) (hw : PlainWorld keccak world db.plainState)
    (hs : ∀ w ∈ world, w.2.2 = []) (h : stageHashState d keccak db = .ok (.success, db')) :
    regenerateDbTries d' keccak none db' = .err (.etl .insufficientDiskSpace) ∨
    ∃ db'', regenerateDbTries d' keccak none db' = .ok (stateRoot keccak world, db'') := by
  have : world.map (fun w => (w.1, w.2.1, [])) = world := by
    conv => rhs; rw [← List.map_id world]
    apply List.map_congr_left
    intro w hw1
    exact Prod.ext rfl (Prod.ext rfl (hs w hw1).symm)
  have h1 := c104_storage_ignored d d' keccak hk h0 world db db' hf hn hw h
  rw [this] at h1
  exact h1

/-- A hash function that depends on every byte. -/
def sumHash (b : Bytes) : Bytes :=
  if b = [0x80] then kEmptyRoot else beFixed 32 (b.foldl (fun h x => (h * 257 + x.toNat + 1) % (2 ^ 256 - 189)) 7)

theorem sumHash_length (b : Bytes) : (sumHash b).length = 32 := by
  unfold sumHash
  split
  · decide +kernel
  · exact beFixed_length _ _

/-- A contract with one slot and another account. -/
def exStoredWorld : List (Bytes × Account × List (Bytes × Bytes)) :=
  [(exAddr 1, ⟨0, 7, List.replicate 32 9, 1⟩, [(exWord 5, exWord 55)]), (exAddr 2, ⟨1, 10, kEmptyHash, 0⟩, [])]

/-- The plain state that holds it. -/
def exStoredDb : Database :=
  { plainState := [(exAddr 1, accountRecord ⟨0, 7, List.replicate 32 9, 1⟩ false),
      (exAddr 1 ++ beFixed 8 1, exWord 5 ++ [55]), (exAddr 2, accountRecord ⟨1, 10, kEmptyHash, 0⟩ false)]
    stageProgress := [(ascii "Execution", beFixed 8 3)] }

theorem exStored_world : PlainWorld sumHash exStoredWorld exStoredDb.plainState := by
  refine ⟨fun a v ha => ?_, by decide +kernel, ?_, by decide +kernel⟩
  · constructor
    · intro h
      have h28 : ∀ e ∈ exStoredDb.plainState, e.1.length = 20 →
          ∃ w ∈ exStoredWorld, w.1 = e.1 ∧ e.2 = accountRecord w.2.1 false := by decide +kernel
      exact h28 (a, v) h ha
    · rintro ⟨w, hw, rfl, rfl⟩
      have : ∀ w ∈ exStoredWorld, (w.1, accountRecord w.2.1 false) ∈ exStoredDb.plainState := by decide +kernel
      exact this w hw
  · have h : ∀ w ∈ exStoredWorld, w.1.length = 20 ∧ w.2.1.nonce < 2 ^ 64 ∧ w.2.1.balance < 2 ^ 256 ∧
        w.2.1.codeHash.length = 32 ∧ w.2.1.incarnation < 2 ^ 64 := by decide +kernel
    intro w hw
    obtain ⟨h0, h1, h2, h3, h4⟩ := h w hw
    exact ⟨h0, h1, h2, h3, h4⟩

theorem exStored_fits : PlainFits exStoredDb := ⟨by decide +kernel, by decide +kernel⟩

theorem exStored_nothing : NothingHashed exStoredDb := ⟨by decide +kernel, rfl, rfl, rfl⟩

theorem exStored_hashed : ∃ db' root db'', stageHashState exDisks sumHash exStoredDb = .ok (.success, db') ∧
    regenerateDbTries exDisks sumHash none db' = .ok (root, db'') := by
  have h : (match stageHashState exDisks sumHash exStoredDb with
    | .ok (.success, db') => (match regenerateDbTries exDisks sumHash none db' with
      | .ok _ => true
      | _ => false)
    | _ => false) = true := by decide +kernel
  revert h
  cases stageHashState exDisks sumHash exStoredDb with
  | ok x =>
    obtain ⟨r, db'⟩ := x
    cases r with
    | success =>
      intro h
      dsimp only at h
      cases h1 : regenerateDbTries exDisks sumHash none db' with
      | ok y => exact ⟨db', y.1, y.2, rfl, h1⟩
      | err e => rw [h1] at h; cases h
      | ub => rw [h1] at h; cases h
    | _ => intro h; cases h
  | err e => intro h; cases h
  | ub => intro h; cases h

/-- C104 is violated: the slot has no part in the root. -/
theorem c104_violated : ¬ C104_statement := by
  intro h
  obtain ⟨db', root, db'', h1, h2⟩ := exStored_hashed
  have h3 := h exDisks sumHash exStoredWorld exStoredDb db' db'' root sumHash_length rfl exStored_fits exStored_nothing
    (by decide +kernel) exStored_world h1 h2
  rcases c104_storage_ignored exDisks exDisks sumHash sumHash_length rfl exStoredWorld exStoredDb db' exStored_fits
    exStored_nothing exStored_world h1 with h4 | ⟨x, h4⟩
  · rw [h2] at h4; cases h4
  · rw [h2] at h4
    have h5 := (Prod.mk.inj (Outcome.ok.inj h4)).1
    have h6 : stateRoot sumHash (exStoredWorld.map (fun w => (w.1, w.2.1, []))) ≠ stateRoot sumHash exStoredWorld := by
      decide +kernel
    exact h6 (h5.symm.trans h3)

/-- The same accounts without the slot. -/
example : ∃ db' db'', stageHashState exDisks sumHash
      { plainState := [(exAddr 2, accountRecord ⟨1, 10, kEmptyHash, 0⟩ false)] } = .ok (.success, db') ∧
    regenerateDbTries exDisks sumHash none db' =
      .ok (stateRoot sumHash [(exAddr 2, ⟨1, 10, kEmptyHash, 0⟩, [])], db'') :=
  ⟨{ plainState := [(exAddr 2, accountRecord ⟨1, 10, kEmptyHash, 0⟩ false)]
     hashedAccounts := [(sumHash (exAddr 2), accountRecord ⟨1, 10, kEmptyHash, 0⟩ false)]
     stageProgress := [(ascii "HashState", beFixed 8 0)] },
   { plainState := [(exAddr 2, accountRecord ⟨1, 10, kEmptyHash, 0⟩ false)]
     hashedAccounts := [(sumHash (exAddr 2), accountRecord ⟨1, 10, kEmptyHash, 0⟩ false)]
     stageProgress := [(ascii "HashState", beFixed 8 0)] }, by decide +kernel, by decide +kernel⟩

end Silkworm.Properties
