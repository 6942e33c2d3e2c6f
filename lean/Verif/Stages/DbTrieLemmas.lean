import Verif.Stages.DbTrie
import Verif.Stages.Lemmas
import Verif.Trie.CollectRoot
import Verif.Trie.RecordSize
import Verif.Trie.StateRootLemmas
import Verif.Trie.NodeCodecLemmas
import Verif.Types.AccountLemmas
import Verif.Spec.DbTrie

/-!
# Lemmas on computing the state root from the hashed state
-/

namespace Silkworm.Stages

open Silkworm.Db Silkworm.Etl Silkworm.Trie Silkworm.Rlp Silkworm.Spec

theorem storageLoop_eq (keccak : Bytes → Bytes) : ∀ (vs : List Bytes) (s : HashBuilder), (∀ v ∈ vs, 32 ≤ v.length) →
    storageLoop keccak s vs = liftBuilder (addAll keccak true s (vs.map (fun v => (v.take 32, encodeBytes (v.drop 32)))))
  | [], _, _ => rfl
  | v :: vs, s, h => by
    unfold storageLoop
    rw [if_neg (by have := h v (List.mem_cons_self ..); omega)]
    rw [List.map_cons]
    unfold addAll
    cases add keccak true s (v.take 32) (encodeBytes (v.drop 32)) with
    | ok t => exact storageLoop_eq keccak vs t (fun x hx => h x (List.mem_cons_of_mem _ hx))
    | err e => rfl
    | ub => rfl

theorem liftBuilder_bind {α β : Type} (x : Outcome Empty α) (f : α → Outcome Empty β) :
    (liftBuilder x >>= fun a => liftBuilder (f a)) = liftBuilder (x.bind f) := by
  cases x with
  | ok a => rfl
  | err e => cases e
  | ub => rfl

theorem dropWhile_self {α : Type} {f : α → Bool} {l : List α} (h : ∀ x ∈ l, f x = false) : l.dropWhile f = l := by
  cases l with
  | nil => rfl
  | cons x l => rw [List.dropWhile_cons_of_neg (by simp [h x (List.mem_cons_self ..)])]

theorem valuesFrom_eq {t : Table} {k : Bytes} (h : ∀ v ∈ stored t k, v ≠ []) : valuesFrom t k [0] = stored t k := by
  have e : (t.filter (fun e => e.1 == k)).map (·.2) = stored t k := by
    unfold stored
    congr 1
    apply List.filter_congr
    intro x _
    rw [Bool.eq_iff_iff, beq_iff_eq, decide_eq_true_eq]
  unfold valuesFrom
  rw [e]
  apply dropWhile_self
  intro v hv
  cases v with
  | nil => exact absurd rfl (h [] hv)
  | cons x xs =>
    cases hl : lexLt (x :: xs) [0]
    · rfl
    · have := (Etl.lexLt_iff _ _).mp hl
      rw [List.cons_lt_cons_iff] at this
      rcases this with h1 | ⟨_, h1⟩
      · exact absurd h1 (by simp)
      · exact absurd h1 (List.not_lt_nil _)

/-- The builder of the storage of an account after its root was taken. -/
def storageBuilder (keccak : Bytes → Bytes) (a : HashedAccount) : HashBuilder :=
  match buildRoot keccak true a.storageTrie with
  | .ok r => r.2
  | _ => {}

theorem be_length_le {n : Nat} (h : n < 2 ^ 256) : (be n).length ≤ 32 := by
  rw [spec_be_length]
  exact byteLen_le (by rw [pow256]; exact h)

theorem num_rlp {n : Nat} (h : n < 2 ^ 256) : encodeBytes (be n) = rlp (num n) := by
  have := be_length_le h
  rw [encodeBytes_spec (by omega)]
  rfl

/-- The entries of the storage trie satisfy what the builder asks for. -/
theorem storageTrie_valid {state : List HashedAccount} (hp : ProperState state) {a : HashedAccount} (ha : a ∈ state) :
    Increasing a.storageTrie ∧ PrefixFree a.storageTrie ∧ (∀ e ∈ a.storageTrie, e.1 ≠ []) ∧ Sized a.storageTrie ∧
    (∀ e ∈ a.storageTrie, e.1.length = 32) ∧ a.storageTrie.Pairwise (fun x y => x.1.take 27 ≠ y.1.take 27) := by
  have hl : ∀ e ∈ a.storageTrie, e.1.length = 32 := by
    intro e he
    obtain ⟨s, hs, rfl⟩ := List.mem_map.mp he
    exact hp.locations a ha s hs
  have hd : a.storageTrie.Pairwise (fun x y => x.1.take 27 ≠ y.1.take 27) := by
    unfold HashedAccount.storageTrie
    rw [List.pairwise_map]
    exact (hp.slots a ha).imp fun h => h.2
  refine ⟨?_, ?_, ?_, ?_, hl, hd⟩
  · unfold Increasing HashedAccount.storageTrie
    rw [List.pairwise_map]
    exact (hp.slots a ha).imp fun h => h.1
  · exact prefixFree_of_length hl (hd.imp fun h h0 => h (by rw [h0]))
  · intro e he h0
    have := hl e he
    rw [h0] at this
    cases this
  · intro e he
    have := hl e he
    obtain ⟨s, hs, rfl⟩ := List.mem_map.mp he
    dsimp only at this ⊢
    rw [← num_rlp (hp.values a ha s hs)]
    have h2 := encodeBytes_length_lt (be_length_le (hp.values a ha s hs))
    omega

theorem stateTrie_valid {keccak : Bytes → Bytes} (hk : ∀ x, (keccak x).length = 32) {state : List HashedAccount}
    (hp : ProperState state) : Increasing (stateTrie keccak state) ∧ PrefixFree (stateTrie keccak state) ∧
    (∀ e ∈ stateTrie keccak state, e.1 ≠ []) ∧ Sized (stateTrie keccak state) ∧
    (∀ e ∈ stateTrie keccak state, e.1.length = 32) ∧ (∀ e ∈ stateTrie keccak state, 6 ≤ e.2.length) := by
  have hl : ∀ e ∈ stateTrie keccak state, e.1.length = 32 := by
    intro e he
    obtain ⟨s, hs, rfl⟩ := List.mem_map.mp he
    exact hp.keys s hs
  have hinc : Increasing (stateTrie keccak state) := by
    unfold Increasing stateTrie
    rw [List.pairwise_map]
    exact hp.sorted
  refine ⟨hinc, ?_, ?_, ?_, hl, ?_⟩
  · refine prefixFree_of_length hl (hinc.imp fun h h0 => ?_)
    rw [h0] at h
    have := keyLt_iff.mp h
    rw [Etl.lexLt_iff] at this
    exact List.lt_irrefl _ this
  · intro e he h0
    have := hl e he
    rw [h0] at this
    cases this
  · intro e he
    have := hl e he
    obtain ⟨s, hs, rfl⟩ := List.mem_map.mp he
    dsimp only at this ⊢
    have hr : (trieRoot keccak s.storageTrie).length = 32 := hk _
    have h2 := accountRlp_length (hp.accounts s hs) hr
    rw [← accountRlp_spec (hp.accounts s hs) hr]
    omega
  · intro e he
    obtain ⟨s, hs, rfl⟩ := List.mem_map.mp he
    dsimp only
    have h1 := rlpList_ge [num s.account.nonce, num s.account.balance, .str (trieRoot keccak s.storageTrie),
      .str s.account.codeHash]
    have h2 : (rlpItems [num s.account.nonce, num s.account.balance, .str (trieRoot keccak s.storageTrie),
        .str s.account.codeHash]).length = (rlp (num s.account.nonce)).length + ((rlp (num s.account.balance)).length +
          ((rlp (.str (trieRoot keccak s.storageTrie))).length + (rlp (.str s.account.codeHash)).length)) := by
      simp [rlpItems]
    have h3 := rlpStr_ge (trieRoot keccak s.storageTrie)
    have hr : (trieRoot keccak s.storageTrie).length = 32 := hk _
    show 6 ≤ (rlp (.list _)).length
    omega

theorem build_ok {keccak : Bytes → Bytes} (hk : ∀ x, (keccak x).length = 32) (h0 : keccak [0x80] = kEmptyRoot) {es : Ents}
    (hz : Sized es) (h1 : Increasing es) (h2 : PrefixFree es) (h3 : ∀ e ∈ es, e.1 ≠ []) (hb : BranchesHashed keccak (nib es)) :
    ∃ s, buildRoot keccak true es = .ok (trieRoot keccak es, s) ∧ Coll keccak (nib es) (fun _ => True) s.collected := by
  obtain ⟨r, s, h⟩ := (buildRoot_collect hk hz h1 h2 h3).1 hb
  have hc := ((buildRoot_collect hk hz h1 h2 h3).2 r s h).2
  refine ⟨s, ?_, hc⟩
  by_cases hne : es = []
  · subst hne
    have hroot : trieRoot keccak [] = kEmptyRoot := h0
    rw [hroot]
    cases h
    rfl
  · rw [h, (buildRoot_ok hk hz hne h).1]

/-- Values of 6 bytes make branch nodes long. -/
theorem hashed_of_values {keccak : Bytes → Bytes} (hk : ∀ x, (keccak x).length = 32) {es : Ents} (h2 : PrefixFree es)
    (hv : ∀ e ∈ es, 6 ≤ e.2.length) : BranchesHashed keccak (nib es) := by
  intro p d _ hb
  refine branch_size hk (free_nib h2) ?_ hb fun e he _ => ?_
  · intro e he
    obtain ⟨x, _, rfl⟩ := List.mem_map.mp he
    exact nibbles_path _
  · obtain ⟨x, hx, rfl⟩ := List.mem_map.mp he
    have := hv x hx
    dsimp only
    omega

/-- So do keys of 32 bytes that differ in 27 bytes. -/
theorem hashed_of_keys {keccak : Bytes → Bytes} (hk : ∀ x, (keccak x).length = 32) {es : Ents} (h2 : PrefixFree es)
    (hl : ∀ e ∈ es, e.1.length = 32) (hd : es.Pairwise (fun a b => a.1.take 27 ≠ b.1.take 27)) :
    BranchesHashed keccak (nib es) := by
  intro p d _ hb
  refine branch_size hk (free_nib h2) ?_ hb fun e he hpe => ?_
  · intro e he
    obtain ⟨x, _, rfl⟩ := List.mem_map.mp he
    exact nibbles_path _
  have hlen : (p ++ [d]).length ≤ 53 := by
    by_contra hlong
    obtain ⟨a, b, hab, ⟨x, hx, h3⟩, ⟨y, hy, h4⟩⟩ := hb
    obtain ⟨x', hx', rfl⟩ := List.mem_map.mp hx
    obtain ⟨y', hy', rfl⟩ := List.mem_map.mp hy
    have hne : x' ≠ y' := by
      rintro rfl
      have h5 := List.prefix_of_prefix_length_le h3 h4 (by simp)
      have h6 := h5.eq_of_length (by simp)
      exact hab (by simpa using h6)
    have htake : ∀ z : Bytes, p ++ [d] <+: nibbles z → nibbles (z.take 27) = (p ++ [d]).take 54 := by
      intro z hz
      have e1 : nibbles z = nibbles (z.take 27) ++ nibbles (z.drop 27) := by
        rw [← nibbles_append, List.take_append_drop]
      have hz' : 54 ≤ (nibbles z).length := Nat.le_trans (by omega) hz.length_le
      rw [nibbles_length] at hz'
      have e2 : (nibbles (z.take 27)).length = 54 := by rw [nibbles_length, List.length_take]; omega
      rw [List.prefix_iff_eq_take.mp ((List.take_prefix 54 _).trans hz), e1, List.length_take, Nat.min_eq_left (by omega),
        List.take_left' e2]
    have heq : x'.1.take 27 = y'.1.take 27 := nibbles_inj ((htake _ ((List.prefix_append _ [a]).trans h3)).trans
      (htake _ ((List.prefix_append _ [b]).trans h4)).symm)
    exact pairwise_mem (fun _ _ h => Ne.symm h) hd hx' hy' hne heq
  obtain ⟨x, hx, rfl⟩ := List.mem_map.mp he
  have h7 : (nibbles x.1).length = 64 := by rw [nibbles_length, hl x hx]
  dsimp only
  omega

theorem storageBuilder_ok {keccak : Bytes → Bytes} (hk : ∀ x, (keccak x).length = 32) (h0 : keccak [0x80] = kEmptyRoot)
    {state : List HashedAccount} (hp : ProperState state) {a : HashedAccount} (ha : a ∈ state) :
    buildRoot keccak true a.storageTrie = .ok (trieRoot keccak a.storageTrie, storageBuilder keccak a) ∧
    Coll keccak (nib a.storageTrie) (fun _ => True) (storageBuilder keccak a).collected := by
  obtain ⟨h1, h2, h3, h4, h5, h6⟩ := storageTrie_valid hp ha
  obtain ⟨s, e, hc⟩ := build_ok hk h0 h4 h1 h2 h3 (hashed_of_keys hk h2 h5 h6)
  have : storageBuilder keccak a = s := by unfold storageBuilder; rw [e]
  rw [this]
  exact ⟨e, hc⟩

theorem storageOfAccount_ok {keccak : Bytes → Bytes} (hk : ∀ x, (keccak x).length = 32) (h0 : keccak [0x80] = kEmptyRoot)
    {state : List HashedAccount} (hp : ProperState state) {accounts storage : Table} (ht : InTables state accounts storage)
    {a : HashedAccount} (ha : a ∈ state) : storageOfAccount keccak storage a.key a.account =
      .ok (trieRoot keccak a.storageTrie, storageRecords a.storageKey (storageBuilder keccak a)) := by
  obtain ⟨hb, _⟩ := storageBuilder_ok hk h0 hp ha
  unfold storageOfAccount
  by_cases hi : a.account.incarnation = 0
  · rw [if_pos hi]
    have hs : a.storageTrie = [] := by unfold HashedAccount.storageTrie; rw [ht.none a ha hi]; rfl
    rw [hs] at hb ⊢
    have e : storageBuilder keccak a = {} := by unfold storageBuilder; rw [hs]; rfl
    rw [e]
    have hroot : trieRoot keccak [] = kEmptyRoot := h0
    rw [hroot]
    rfl
  · rw [if_neg hi]
    have hst := ht.storage a ha hi
    have hvs : ∀ v ∈ stored storage a.storageKey, 32 ≤ v.length := by
      intro v hv
      rw [hst] at hv
      obtain ⟨s, hs, rfl⟩ := List.mem_map.mp hv
      rw [List.length_append, hp.locations a ha s hs]
      omega
    have hes : (stored storage a.storageKey).map (fun v => (v.take 32, encodeBytes (v.drop 32))) = a.storageTrie := by
      rw [hst, List.map_map]
      unfold HashedAccount.storageTrie
      apply List.map_congr_left
      intro s hs
      have hl := hp.locations a ha s hs
      simp only [Function.comp_apply, Prod.mk.injEq]
      rw [List.take_left' hl, List.drop_left' hl]
      exact ⟨rfl, num_rlp (hp.values a ha s hs)⟩
    show (do
      let s ← storageLoop keccak {} (valuesFrom storage a.storageKey [0])
      let r ← liftBuilder (rootHash keccak true s)
      Outcome.ok (r.1, storageRecords a.storageKey r.2)) = _
    rw [valuesFrom_eq (fun v hv h => by have := hvs v hv; rw [h] at this; simp at this), storageLoop_eq keccak _ _ hvs, hes]
    unfold buildRoot at hb
    cases hadd : addAll keccak true {} a.storageTrie with
    | ok s =>
      rw [hadd] at hb
      show (do
        let r ← liftBuilder (rootHash keccak true s)
        Outcome.ok (r.1, storageRecords a.storageKey r.2)) = _
      have hb' : rootHash keccak true s = .ok (trieRoot keccak a.storageTrie, storageBuilder keccak a) := hb
      rw [hb']
      rfl
    | err e => cases e
    | ub => rw [hadd] at hb; cases hb

theorem decode_accountRecord {a : Account} (hw : a.WF) : decodeAccountFromStorage (accountRecord a false) = .ok a := by
  have h1 : a.nonce < 256 ^ 8 := by have := hw.nonce; rw [pow256]; exact this
  have h2 : a.balance < 256 ^ 32 := by have := hw.balance; rw [pow256]; exact this
  have h3 : a.incarnation < 256 ^ 8 := by have := hw.incarnation; rw [pow256]; exact this
  have n1 : ∀ x, numField a.nonce = some x → x.length < 256 := fun x hx => by
    have := (numField_length h1 x hx).1; omega
  have n3 : ∀ x, numField a.incarnation = some x → x.length < 256 := fun x hx => by
    have := (numField_length h3 x hx).1; omega
  rw [← List.append_nil (accountRecord a false)]
  unfold accountRecord
  rw [decode_record (by decide) n1 (numField_length h2) n3 (by
    intro x hx
    split at hx
    · cases hx
    · cases hx; have := hw.codeHash; omega)]
  rw [numField_read h1, numField_read h3, numField_value h2]
  simp only [Outcome.ok_bind]
  by_cases h : a.codeHash = kEmptyHash
  · simp only [h, true_or, if_true, Outcome.ok_bind, codeField]
    rw [← h]
  · simp only [h, Bool.false_eq_true, or_self, if_false, Outcome.ok_bind, hw.codeHash, if_true, codeField]

theorem accountLoop_ok {keccak : Bytes → Bytes} (hk : ∀ x, (keccak x).length = 32) (h0 : keccak [0x80] = kEmptyRoot)
    {state : List HashedAccount} (hp : ProperState state) {accounts storage : Table} (ht : InTables state accounts storage) :
    ∀ (l : List HashedAccount) (hb t : HashBuilder), (∀ a ∈ l, a ∈ state) → addAll keccak true hb (stateTrie keccak l) = .ok t →
    accountLoop keccak storage hb (l.map (fun a => (a.key, accountRecord a.account false))) =
      .ok (t, l.flatMap (fun a => storageRecords a.storageKey (storageBuilder keccak a)))
  | [], hb, t, _, h => by cases h; rfl
  | a :: l, hb, t, hl, h => by
    have ha := hl a (List.mem_cons_self ..)
    rw [List.map_cons]
    unfold accountLoop
    dsimp only
    rw [decode_accountRecord (hp.accounts a ha)]
    show (do
      let r ← storageOfAccount keccak storage a.key a.account
      let hb ← liftBuilder (add keccak true hb a.key (a.account.rlp r.1))
      let rest ← accountLoop keccak storage hb (l.map (fun (a : HashedAccount) => (a.key, accountRecord a.account false)))
      Outcome.ok (rest.1, r.2 ++ rest.2)) = _
    rw [storageOfAccount_ok hk h0 hp ht ha]
    show (do
      let hb ← liftBuilder (add keccak true hb a.key (a.account.rlp (trieRoot keccak a.storageTrie)))
      let rest ← accountLoop keccak storage hb (l.map (fun (a : HashedAccount) => (a.key, accountRecord a.account false)))
      Outcome.ok (rest.1, storageRecords a.storageKey (storageBuilder keccak a) ++ rest.2)) = _
    rw [accountRlp_spec (hp.accounts a ha) (show (trieRoot keccak a.storageTrie).length = 32 from hk _)]
    have h' : (add keccak true hb a.key (rlp (accountItem a.account (trieRoot keccak a.storageTrie)))).bind
      (fun s => addAll keccak true s (stateTrie keccak l)) = .ok t := h
    rw [bind_ok] at h'
    obtain ⟨s1, e1, e2⟩ := h'
    rw [e1]
    show (do
      let rest ← accountLoop keccak storage s1 (l.map (fun (a : HashedAccount) => (a.key, accountRecord a.account false)))
      Outcome.ok (rest.1, storageRecords a.storageKey (storageBuilder keccak a) ++ rest.2)) = _
    rw [accountLoop_ok hk h0 hp ht l s1 t (fun x hx => hl x (List.mem_cons_of_mem _ hx)) e2]
    rfl

theorem calculateRoot_ok {keccak : Bytes → Bytes} (hk : ∀ x, (keccak x).length = 32) (h0 : keccak [0x80] = kEmptyRoot)
    {state : List HashedAccount} (hp : ProperState state) {db : Database}
    (ht : InTables state db.hashedAccounts db.hashedStorage) :
    ∃ s, Coll keccak (nib (stateTrie keccak state)) (fun _ => True) s.collected ∧ calculateRoot keccak db =
      .ok (trieRoot keccak (stateTrie keccak state), accountRecords s,
        state.flatMap (fun a => storageRecords a.storageKey (storageBuilder keccak a))) := by
  obtain ⟨h1, h2, h3, h4, h5, h6⟩ := stateTrie_valid hk hp
  obtain ⟨s, e, hc⟩ := build_ok hk h0 h4 h1 h2 h3 (hashed_of_values hk h2 h6)
  refine ⟨s, hc, ?_⟩
  unfold buildRoot at e
  rw [bind_ok] at e
  obtain ⟨t, e1, e2⟩ := e
  unfold calculateRoot
  rw [ht.accounts, accountLoop_ok hk h0 hp ht state {} t (fun _ h => h) e1]
  show (do
    let root ← liftBuilder (rootHash keccak true t)
    Outcome.ok (root.1, accountRecords root.2, _)) = _
  rw [e2]
  rfl

/-! ## Records -/

theorem marshal_record (n : Node) (h1 : n.stateMask < 2 ^ 16) (h2 : n.treeMask < 2 ^ 16) (h3 : n.hashMask < 2 ^ 16) :
    marshalNode n = recordBytes n.stateMask n.treeMask n.hashMask n.hashes n.rootHash := by
  have e : ∀ m, m < 2 ^ 16 → beFixed 2 m = twoBytes m := by
    intro m hm
    simp only [beFixed, twoBytes, List.nil_append, List.cons_append]
    rw [Nat.mod_eq_of_lt (show m / 256 < 256 by omega)]
  unfold marshalNode recordBytes
  rw [e _ h1, e _ h2, e _ h3]

/-- Loading entries into a table by `upsert`. -/
theorem load_upsert (d : Disk) (flushSize : Nat) (es : List Entry) (t : Table) (hfit : ∀ e ∈ es, Etl.Fits e)
    (hne : ∀ e ∈ es, e.size ≠ 0) (hu : ∀ e ∈ es, ∀ f ∈ es, e.key = f.key → e = f) :
    etlLoad d flushSize es (putEntry false) t = .err (.etl .insufficientDiskSpace) ∨
    ∃ t', etlLoad d flushSize es (putEntry false) t = .ok t' ∧
      (∀ e ∈ es, t'.find e.key = some (e.key, e.value)) ∧ (∀ k, (∀ e ∈ es, e.key ≠ k) → t'.find k = t.find k) := by
  rcases etlLoad_cases d flushSize es (putEntry false) t hfit hne with h | ⟨L, hp, _, h⟩
  · exact Or.inl h
  · refine Or.inr ⟨_, h.trans (foldlM_putEntry false L t), ?_, ?_⟩
    · intro e he
      simp only [put, Bool.false_eq_true, if_false]
      rw [find_upsertAll]
      rcases hx : List.find? (fun f => f.key == e.key) L.reverse with _ | x
      · exact absurd (by simp) (List.find?_eq_none.mp hx e (List.mem_reverse.mpr (hp.mem_iff.mpr he)))
      · have h1 := List.mem_of_find?_eq_some hx
        have h2 : x.key = e.key := by simpa using List.find?_some hx
        have h3 := hu x (hp.mem_iff.mp (List.mem_reverse.mp h1)) e he h2
        rw [hx, h3]
        rfl
    · intro k hk
      simp only [put, Bool.false_eq_true, if_false]
      rw [find_upsertAll, List.find?_eq_none.mpr]
      · rfl
      · intro x hx
        have := hk x (hp.mem_iff.mp (List.mem_reverse.mp hx))
        simpa using this

theorem mask_lt {m : Nat} {P : Nat → Prop} (h : ∀ i, m.testBit i = true ↔ i < 16 ∧ P i) : m < 2 ^ 16 := by
  apply Nat.lt_pow_two_of_testBit
  intro i hi
  by_contra h0
  have := ((h i).mp (by simpa using h0)).1
  omega

/-- A collected node is the record, and its sizes. -/
theorem collected_record {keccak : Bytes → Bytes} (hk : ∀ x, (keccak x).length = 32) {es : Ents} {l : List (Bytes × Node)}
    (hc : Coll keccak (nib es) (fun _ => True) l) (hl : ∀ e ∈ es, e.1.length = 32) {p : Bytes} {n : Node} (h : (p, n) ∈ l) :
    RecordAt keccak es p (marshalNode n) ∧ p.length < 64 ∧ 6 ≤ (marshalNode n).length ∧ (marshalNode n).length < 1000 := by
  obtain ⟨_, h1, h2⟩ := hc.sound p n h
  have h2' : IsRecord keccak (nib es) p n.stateMask n.treeMask n.hashMask n.hashes n.rootHash := h2
  have e := marshal_record n (mask_lt h2'.state) (mask_lt h2'.tree) (mask_lt h2'.hash)
  refine ⟨⟨h1, _, _, _, _, _, h2', e⟩, ?_, ?_, ?_⟩
  · obtain ⟨⟨a, _, _, ⟨x, hx, hp⟩, _⟩, _⟩ := h1
    obtain ⟨y, hy, rfl⟩ := List.mem_map.mp hx
    have := hp.length_le
    dsimp only at this
    rw [nibbles_length, hl y hy, List.length_append, List.length_singleton] at this
    omega
  · rw [e]
    simp [recordBytes, twoBytes]
  · have r1 : (n.rootHash.getD []).length ≤ 32 := by
      rw [h2'.root]
      split
      · simp [hk]
      · simp
    have r2 : n.hashes.flatten.length ≤ 512 := by
      rw [List.length_flatten]
      have h3 : ∀ x ∈ n.hashes.map List.length, x = 32 := by
        intro x hx
        obtain ⟨y, hy, rfl⟩ := List.mem_map.mp hx
        rw [h2'.hashes] at hy
        obtain ⟨i, _, rfl⟩ := List.mem_map.mp hy
        exact hk _
      have h4 : n.hashes.map List.length = List.replicate n.hashes.length 32 := by
        rw [List.eq_replicate_iff]
        exact ⟨by simp, h3⟩
      have h5 : n.hashes.length ≤ 16 := by
        rw [h2'.hashes, List.length_map]
        exact (List.length_filter_le _ _).trans (by simp)
      have h6 : ∀ k, (List.replicate k 32).sum = 32 * k := by
        intro k
        induction k with
        | zero => rfl
        | succ k ih => rw [List.replicate_succ, List.sum_cons, ih]; omega
      rw [h4, h6]
      omega
    rw [e]
    simp only [recordBytes, twoBytes, List.length_append, List.length_cons, List.length_nil]
    omega

/-- There is only one record at a path. -/
theorem recordAt_unique {keccak : Bytes → Bytes} {es : Ents} {p v w : Bytes} (h1 : RecordAt keccak es p v)
    (h2 : RecordAt keccak es p w) : v = w := by
  have bits : ∀ {a b : Nat}, (∀ i, a.testBit i = true ↔ b.testBit i = true) → a = b := by
    intro a b h
    apply Nat.eq_of_testBit_eq
    intro i
    rw [Bool.eq_iff_iff]
    exact h i
  obtain ⟨_, a, b, c, d, e, hm, rfl⟩ := h1
  obtain ⟨_, a', b', c', d', e', hn, rfl⟩ := h2
  have e1 := bits (fun i => (hm.state i).trans (hn.state i).symm)
  have e2 := bits (fun i => (hm.tree i).trans (hn.tree i).symm)
  have e3 := bits (fun i => (hm.hash i).trans (hn.hash i).symm)
  have e4 := hm.hashes
  rw [e3, ← hn.hashes] at e4
  have e5 := hm.root.trans hn.root.symm
  subst e1 e2 e3 e4 e5
  rfl

theorem nodup_fst {α β : Type} {l : List (α × β)} (h : (l.map Prod.fst).Nodup) {p : α} {m n : β} (h1 : (p, m) ∈ l)
    (h2 : (p, n) ∈ l) : m = n := by
  by_contra hne
  have hp : l.Pairwise (fun x y => x.1 ≠ y.1) := by rw [← List.pairwise_map (f := Prod.fst) (R := (· ≠ ·))]; exact h
  exact pairwise_mem (fun _ _ h => Ne.symm h) hp h1 h2 (fun e => hne (Prod.mk.inj e).2) rfl

/-- The outcome of loading the records of the accounts. -/
theorem load_accountRecords {keccak : Bytes → Bytes} (hk : ∀ x, (keccak x).length = 32) {es : Ents} {s : HashBuilder}
    (hc : Coll keccak (nib es) (fun _ => True) s.collected) (hl : ∀ e ∈ es, e.1.length = 32) (d : Disk) (flushSize : Nat)
    (t : Table) :
    etlLoad d flushSize (accountRecords s) (putEntry false) t = .err (.etl .insufficientDiskSpace) ∨
    ∃ t', etlLoad d flushSize (accountRecords s) (putEntry false) t = .ok t' ∧
      (∀ p v, p ≠ [] → RecordAt keccak es p v → t'.find p = some (p, v)) ∧
      (∀ p, p = [] ∨ ¬ HasRecord es p → t'.find p = t.find p) := by
  have hmem : ∀ e, e ∈ accountRecords s ↔ ∃ p n, (p, n) ∈ s.collected ∧ p ≠ [] ∧ e = ⟨p, marshalNode n⟩ := by
    intro e
    unfold accountRecords
    constructor
    · intro h
      obtain ⟨⟨p, n⟩, h1, rfl⟩ := List.mem_map.mp h
      obtain ⟨h2, h3⟩ := List.mem_filter.mp h1
      exact ⟨p, n, List.mem_reverse.mp h2, by simpa using h3, rfl⟩
    · rintro ⟨p, n, h1, h2, rfl⟩
      exact List.mem_map.mpr ⟨(p, n), List.mem_filter.mpr ⟨List.mem_reverse.mpr h1, by simpa using h2⟩, rfl⟩
  have hfit : ∀ e ∈ accountRecords s, Etl.Fits e := by
    intro e he
    obtain ⟨q, n, h3, _, rfl⟩ := (hmem e).mp he
    obtain ⟨_, a, _, b⟩ := collected_record hk hc hl h3
    exact ⟨show q.length < 2 ^ 32 by omega, show (marshalNode n).length < 2 ^ 32 by omega⟩
  have hsize : ∀ e ∈ accountRecords s, e.size ≠ 0 := by
    intro e he
    obtain ⟨q, n, h3, _, rfl⟩ := (hmem e).mp he
    obtain ⟨_, _, b, _⟩ := collected_record hk hc hl h3
    show q.length + (marshalNode n).length ≠ 0
    omega
  have huniq : ∀ e ∈ accountRecords s,
      ∀ f ∈ accountRecords s, e.key = f.key → e = f := by
    intro e he f hf hef
    obtain ⟨q, n, h3, _, rfl⟩ := (hmem e).mp he
    obtain ⟨r, m, h4, _, rfl⟩ := (hmem f).mp hf
    change q = r at hef
    subst hef
    rw [nodup_fst hc.keys h3 h4]
  rcases load_upsert d flushSize (accountRecords s) t hfit hsize huniq with h | ⟨t', h, h1, h2⟩
  · exact Or.inl h
  · refine Or.inr ⟨t', h, ?_, ?_⟩
    · intro p v hp hv
      obtain ⟨n, hn⟩ := hc.complete p trivial hv.1
      have := h1 ⟨p, marshalNode n⟩ ((hmem _).mpr ⟨p, n, hn, hp, rfl⟩)
      rw [recordAt_unique hv (collected_record hk hc hl hn).1]
      exact this
    · intro p hp
      apply h2
      intro e he hkey
      obtain ⟨q, n, h3, h4, rfl⟩ := (hmem e).mp he
      change q = p at hkey
      subst hkey
      rcases hp with hp | hp
      · exact h4 hp
      · exact hp (hc.sound q n h3).2.1

theorem storageKey_length {state : List HashedAccount} (hp : ProperState state) {a : HashedAccount} (ha : a ∈ state) :
    a.storageKey.length = 40 := by
  unfold HashedAccount.storageKey
  rw [List.length_append, hp.keys a ha, beFixed_length]

/-- The hash is at the beginning of the key of a record, so records of different accounts have different keys. -/
theorem storageKey_inj {state : List HashedAccount} (hp : ProperState state) {a b : HashedAccount} (ha : a ∈ state)
    (hb : b ∈ state) {p q : Bytes} (h : a.storageKey ++ p = b.storageKey ++ q) : a = b ∧ p = q := by
  have hl := (storageKey_length hp ha).trans (storageKey_length hp hb).symm
  obtain ⟨h1, h2⟩ := List.append_inj h hl
  refine ⟨?_, h2⟩
  have h3 : a.key = b.key := (List.append_inj h1 ((hp.keys a ha).trans (hp.keys b hb).symm)).1
  by_contra hne
  have hpw : state.Pairwise (fun a b => a.key ≠ b.key) := hp.sorted.imp fun h h0 => by
    rw [h0] at h
    have := keyLt_iff.mp h
    rw [Etl.lexLt_iff] at this
    exact List.lt_irrefl _ this
  exact pairwise_mem (fun _ _ h => Ne.symm h) hpw ha hb hne h3

/-- The outcome of loading the records of the storage. -/
theorem load_storageRecords {keccak : Bytes → Bytes} (hk : ∀ x, (keccak x).length = 32) (h0 : keccak [0x80] = kEmptyRoot)
    {state : List HashedAccount} (hp : ProperState state) (d : Disk) (flushSize : Nat) (t : Table) :
    etlLoad d flushSize (state.flatMap (fun a => storageRecords a.storageKey (storageBuilder keccak a))) (putEntry false) t =
      .err (.etl .insufficientDiskSpace) ∨
    ∃ t', etlLoad d flushSize (state.flatMap (fun a => storageRecords a.storageKey (storageBuilder keccak a))) (putEntry false)
        t = .ok t' ∧
      (∀ a ∈ state, ∀ p v, RecordAt keccak a.storageTrie p v → t'.find (a.storageKey ++ p) = some (a.storageKey ++ p, v)) ∧
      (∀ k, (∀ a ∈ state, ∀ p, HasRecord a.storageTrie p → k ≠ a.storageKey ++ p) → t'.find k = t.find k) := by
  have hmem : ∀ e, e ∈ state.flatMap (fun a => storageRecords a.storageKey (storageBuilder keccak a)) ↔
      ∃ a ∈ state, ∃ p n, (p, n) ∈ (storageBuilder keccak a).collected ∧ e = ⟨a.storageKey ++ p, marshalNode n⟩ := by
    intro e
    rw [List.mem_flatMap]
    unfold storageRecords
    constructor
    · rintro ⟨a, ha, h⟩
      obtain ⟨⟨p, n⟩, h1, rfl⟩ := List.mem_map.mp h
      exact ⟨a, ha, p, n, List.mem_reverse.mp h1, rfl⟩
    · rintro ⟨a, ha, p, n, h1, rfl⟩
      exact ⟨a, ha, List.mem_map.mpr ⟨(p, n), List.mem_reverse.mpr h1, rfl⟩⟩
  have hcoll : ∀ a ∈ state, Coll keccak (nib a.storageTrie) (fun _ => True) (storageBuilder keccak a).collected :=
    fun a ha => (storageBuilder_ok hk h0 hp ha).2
  have hlen : ∀ a ∈ state, ∀ e ∈ a.storageTrie, e.1.length = 32 := fun a ha => (storageTrie_valid hp ha).2.2.2.2.1
  have hfit : ∀ e ∈ state.flatMap (fun a => storageRecords a.storageKey (storageBuilder keccak a)), Etl.Fits e := by
    intro e he
    obtain ⟨a, ha, q, n, h3, rfl⟩ := (hmem e).mp he
    obtain ⟨_, x, _, b⟩ := collected_record hk (hcoll a ha) (hlen a ha) h3
    refine ⟨show (a.storageKey ++ q).length < 2 ^ 32 from ?_, show (marshalNode n).length < 2 ^ 32 by omega⟩
    rw [List.length_append, storageKey_length hp ha]
    omega
  have hsize : ∀ e ∈ state.flatMap (fun a => storageRecords a.storageKey (storageBuilder keccak a)), e.size ≠ 0 := by
    intro e he
    obtain ⟨a, ha, q, n, h3, rfl⟩ := (hmem e).mp he
    obtain ⟨_, _, b, _⟩ := collected_record hk (hcoll a ha) (hlen a ha) h3
    show (a.storageKey ++ q).length + (marshalNode n).length ≠ 0
    omega
  have huniq : ∀ e ∈ state.flatMap (fun a => storageRecords a.storageKey (storageBuilder keccak a)),
      ∀ f ∈ state.flatMap (fun a => storageRecords a.storageKey (storageBuilder keccak a)), e.key = f.key → e = f := by
    intro e he f hf hef
    obtain ⟨a, ha, q, n, h3, rfl⟩ := (hmem e).mp he
    obtain ⟨b, hb, r, m, h4, rfl⟩ := (hmem f).mp hf
    obtain ⟨rfl, rfl⟩ := storageKey_inj hp ha hb hef
    rw [nodup_fst (hcoll a ha).keys h3 h4]
  rcases load_upsert d flushSize _ t hfit hsize huniq with h | ⟨t', h, h1, h2⟩
  · exact Or.inl h
  · refine Or.inr ⟨t', h, ?_, ?_⟩
    · intro a ha p v hv
      obtain ⟨n, hn⟩ := (hcoll a ha).complete p trivial hv.1
      have := h1 ⟨a.storageKey ++ p, marshalNode n⟩ ((hmem _).mpr ⟨a, ha, p, n, hn, rfl⟩)
      rw [recordAt_unique hv (collected_record hk (hcoll a ha) (hlen a ha) hn).1]
      exact this
    · intro k hkey
      apply h2
      intro e he hk'
      obtain ⟨a, ha, q, n, h3, rfl⟩ := (hmem e).mp he
      exact hkey a ha q ((hcoll a ha).sound q n h3).2.1 hk'.symm

theorem addAll_key {keccak : Bytes → Bytes} {c : Bool} : ∀ (es : Ents) (e : Bytes × Bytes) (b s : HashBuilder),
    addAll keccak c b (es ++ [e]) = .ok s → s.key = unpackNibbles e.1
  | [], e, b, s, h => by
    have h' : (add keccak c b e.1 e.2).bind (fun s => .ok s) = .ok s := h
    rw [bind_ok] at h'
    obtain ⟨t, h1, h2⟩ := h'
    cases h2
    unfold add at h1
    dsimp only at h1
    split at h1
    · cases h1
    · rw [bind_ok] at h1
      obtain ⟨u, _, h3⟩ := h1
      cases h3
      rfl
  | x :: es, e, b, s, h => by
    have h' : (add keccak c b x.1 x.2).bind (fun s => addAll keccak c s (es ++ [e])) = .ok s := h
    rw [bind_ok] at h'
    obtain ⟨t, _, h2⟩ := h'
    exact addAll_key es e t s h2

/-- A key that was just added is refused. -/
theorem add_same {keccak : Bytes → Bytes} {c : Bool} {s : HashBuilder} {k v : Bytes} (h : s.key = unpackNibbles k) :
    add keccak c s k v = .ub := by
  unfold add
  dsimp only
  rw [h, if_pos]
  intro h1
  rw [Etl.lexLt_iff] at h1
  exact List.lt_irrefl _ h1

end Silkworm.Stages
