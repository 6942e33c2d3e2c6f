import Verif.Properties.Cbor
import Verif.Properties.DbBlocks
import Verif.Properties.DbState
import Verif.Properties.DbKeys

/-!
# C83, C93, C94: single records of the database, blocks in a buffer, receipts and logs
-/

namespace Silkworm.Properties

open Silkworm.Db Silkworm.Spec

/-! ## C83 -/

/-- C83: a stored header is read back; without a record there is none. -/
theorem c83_header (db : Database) (n : Nat) (hash : Bytes) (h : BlockHeader) (ho : Ordered db.headers) (hw : h.WF) :
    ((beFixed 8 n ++ hash, rlp (headerItem h)) ∈ db.headers → Db.readHeader db n hash = .ok (some h)) ∧
    ((∀ e ∈ db.headers, e.1 ≠ beFixed 8 n ++ hash) → Db.readHeader db n hash = .ok none) := by
  constructor
  · intro hm
    have hd := decHeader hw []
    rw [List.append_nil] at hd
    unfold Db.readHeader
    rw [show db.headers.find (blockHashKey n hash) = _ from find_of_mem ho hm]
    dsimp only
    rw [hd]
    rfl
  · intro hm
    unfold Db.readHeader
    rw [show db.headers.find (blockHashKey n hash) = none from find_of_absent fun v hv => hm _ hv rfl]

/-- C83: a stored total difficulty is read back; without a record there is none. -/
theorem c83_difficulty (db : Database) (n : Nat) (hash : Bytes) (td : Nat) (ho : Ordered db.difficulty) (ht : td < 2 ^ 256) :
    ((beFixed 8 n ++ hash, rlp (num td)) ∈ db.difficulty → Db.readTotalDifficulty db n hash = .ok (some td)) ∧
    ((∀ e ∈ db.difficulty, e.1 ≠ beFixed 8 n ++ hash) → Db.readTotalDifficulty db n hash = .ok none) := by
  have h256 : td < 256 ^ 32 := by
    have : (256 : Nat) ^ 32 = 2 ^ 256 := by decide
    omega
  constructor
  · intro hm
    have hd := Rlp.decodeUint_roundTrip (k := 32) (by decide) h256 []
    rw [List.append_nil, Rlp.encodeUint_spec (by decide) h256] at hd
    unfold Db.readTotalDifficulty
    rw [show db.difficulty.find (blockHashKey n hash) = _ from find_of_mem ho hm]
    dsimp only
    rw [hd]
    rfl
  · intro hm
    unfold Db.readTotalDifficulty
    rw [show db.difficulty.find (blockHashKey n hash) = none from find_of_absent fun v hv => hm _ hv rfl]

/-- C83: a stored account is read back, with the code hash of a contract from its own table if the record leaves it out. -/
theorem c83_account (r : Bytes → Option (List Nat)) (db : Database) (a : Bytes) (x : Account) (hw : x.WF)
    (hp : stored db.plainState a = [x.encodeForStorage true])
    (hc : if x.incarnation = 0 then x.codeHash = kEmptyHash
      else stored db.plainContractCode (a ++ beFixed 8 x.incarnation) = [x.codeHash]) :
    Db.readAccount r db a none = .ok (some x) := by
  have hdec := (c16_account_roundtrip x hw).2
  have hcons : ∃ y ys, x.encodeForStorage true = y :: ys := by
    cases h : x.encodeForStorage true with
    | nil =>
      unfold Account.encodeForStorage at h
      exact absurd h (by simp)
    | cons y ys => exact ⟨y, ys, rfl⟩
  obtain ⟨y, ys, hy⟩ := hcons
  unfold Db.readAccount
  simp only [Outcome.ok_bind]
  rw [find_stored, hp]
  rw [hy] at hdec
  simp only [List.head?_cons, Option.map_some, hy, hdec, liftDec, Outcome.ok_bind]
  unfold restoreCodeHash
  by_cases hi : x.incarnation = 0
  · rw [if_pos hi] at hc
    rw [if_neg (by dsimp only; omega), ← hc]
  · rw [if_neg hi] at hc
    rw [if_pos ⟨by dsimp only; omega, rfl⟩]
    dsimp only
    rw [show storagePrefix a x.incarnation = a ++ beFixed 8 x.incarnation from rfl, find_stored, hc]
    simp only [List.head?_cons, Option.map_some]
    rw [if_pos hw.codeHash]

/-- C83: an account whose record contains the code hash is read back as it is; absent and empty records are no account. -/
theorem c83_account_hash (r : Bytes → Option (List Nat)) (db : Database) (a : Bytes) (x : Account) (hw : x.WF) :
    (stored db.plainState a = [x.encodeForStorage false] → x.codeHash ≠ kEmptyHash → Db.readAccount r db a none = .ok (some x)) ∧
    (stored db.plainState a = [] ∨ stored db.plainState a = [[]] → Db.readAccount r db a none = .ok none) := by
  constructor
  · intro hp hne
    have hdec := (c16_account_roundtrip x hw).1
    obtain ⟨y, ys, hy⟩ := encodeForStorage_cons x
    unfold Db.readAccount
    simp only [Outcome.ok_bind]
    rw [find_stored, hp]
    rw [hy] at hdec
    simp only [List.head?_cons, Option.map_some, hy, hdec, liftDec, Outcome.ok_bind]
    unfold restoreCodeHash
    rw [if_neg fun h => hne h.2]
  · intro h
    unfold Db.readAccount
    simp only [Outcome.ok_bind]
    rw [find_stored]
    rcases h with h | h <;> rw [h] <;> rfl

/-- C83: the previous incarnation of an account is the stored one, zero without a record. At historical blocks it is zero. -/
theorem c83_incarnation (db : Database) (a : Bytes) (n : Nat) (hn : n < 2 ^ 64) (block : Nat) :
    (stored db.incarnationMap a = [beFixed 8 n] → Db.Buffer.previousIncarnation db none {} a = .ok n) ∧
    (stored db.incarnationMap a = [] → Db.Buffer.previousIncarnation db none {} a = .ok 0) ∧
    Db.Buffer.previousIncarnation db (some block) {} a = .ok 0 := by
  refine ⟨fun h => ?_, fun h => ?_, rfl⟩
  · unfold Db.Buffer.previousIncarnation
    show (Db.Buffer.noexcept (Db.readPreviousIncarnation db a none) >>= _) = _
    unfold Db.readPreviousIncarnation
    simp only
    rw [find_stored, h]
    simp only [List.head?_cons, Option.map_some, beFixed_length, if_true, Db.Buffer.noexcept, Outcome.ok_bind, Option.getD_some]
    rw [beToNat_beFixed (u64 hn)]
  · unfold Db.Buffer.previousIncarnation
    show (Db.Buffer.noexcept (Db.readPreviousIncarnation db a none) >>= _) = _
    unfold Db.readPreviousIncarnation
    simp only
    rw [find_stored, h]
    rfl

/-- C48, storage, in terms of the tables: if the index has an entry for exactly the number of the block, and the first block
of its bitmap from there on is `c`, then the value recorded by `c` is read. -/
theorem c48_lookup_partial (r : Bytes → Option (List Nat)) (db : Database) (a : Bytes) (i : Nat) (loc : Bytes) (n c : Nat)
    (bitmap : List Nat) (chunk v : Bytes) (ha : a.length = 20) (hloc : loc.length = 32)
    (hh : stored db.storageHistory (a ++ loc ++ beFixed 8 n) = [chunk]) (hb : r chunk = some bitmap)
    (hc : bitmap.find? (fun x => decide (n ≤ x)) = some c)
    (hs : stored db.storageChangeSet (beFixed 8 c ++ a ++ beFixed 8 i) = [loc ++ v]) (hv : v.length ≤ 32) :
    Db.readStorage r db a i loc (some n) = .ok (List.replicate (32 - v.length) 0 ++ v) := by
  have hk1 : (storageHistoryKey a loc n).take 20 = a := by
    unfold storageHistoryKey
    rw [List.append_assoc, ← ha, List.take_left]
  have hk2 : ((storageHistoryKey a loc n).drop 20).take 32 = loc := by
    unfold storageHistoryKey
    rw [List.append_assoc, ← ha, List.drop_left, ← hloc, List.take_left]
  have hf : findValueSuffix db.storageChangeSet (storageChangeKey c a i) loc = some v := by
    rw [Db.Buffer.findValueSuffix_stored, show storageChangeKey c a i = beFixed 8 c ++ a ++ beFixed 8 i from rfl, hs]
    simp [Db.Buffer.not_lexLt_append, Db.Buffer.isPrefixOf_append_self]
  unfold Db.readStorage historicalStorage
  simp only
  rw [show storageHistoryKey a loc n = a ++ loc ++ beFixed 8 n from rfl] at hk1 hk2 ⊢
  rw [find_stored, hh]
  simp only [List.head?_cons, Option.map_some, hk1, hk2, ne_eq, not_true_eq_false, or_self, if_false, hb]
  unfold bitmapSeek
  simp only [hc, Outcome.ok_bind, hf]
  show (if v.length ≤ 32 then _ else _) = _
  rw [if_pos hv]

/-! ## C93 -/

theorem blockHashKey_eq {m n : Nat} {a b : Bytes} (hm : m < 2 ^ 64) (hn : n < 2 ^ 64) (h : blockHashKey m a = blockHashKey n b) :
    m = n ∧ a = b := by
  unfold blockHashKey at h
  obtain ⟨h1, h2⟩ := List.append_inj h (by rw [beFixed_length, beFixed_length])
  exact ⟨beFixed_inj (u64 hm) (u64 hn) h1, h2⟩

/-- C93: after inserting a block its header and body are read through the buffer, and all other blocks as before. -/
theorem c93_insert (db : Database) (b b' : Db.Buffer) (block : Block) (hash : Bytes) (hn : block.header.number < 2 ^ 64)
    (h : Db.Buffer.insertBlock db b block hash = .ok b') :
    Db.Buffer.readHeader db b' block.header.number hash = .ok (some block.header) ∧
    Db.Buffer.readBody db b' block.header.number hash = .ok (some { transactions := block.transactions, ommers := block.ommers }) ∧
    ∀ n k, n < 2 ^ 64 → (n, k) ≠ (block.header.number, hash) →
      Db.Buffer.readHeader db b' n k = Db.Buffer.readHeader db b n k ∧
      Db.Buffer.readBody db b' n k = Db.Buffer.readBody db b n k ∧
      Db.Buffer.totalDifficulty db b' n k = Db.Buffer.totalDifficulty db b n k := by
  obtain ⟨p, h⟩ : ∃ p, ({ b with
      headers := b.headers.set (blockHashKey block.header.number hash) block.header
      bodies := b.bodies.set (blockHashKey block.header.number hash) block.toBlockBody
      difficulty := b.difficulty.set (blockHashKey block.header.number hash) p } : Db.Buffer) = b' := by
    unfold Db.Buffer.insertBlock at h
    dsimp only at h
    split at h
    · exact ⟨_, Outcome.ok.inj h⟩
    · obtain ⟨d, _, h⟩ := Outcome.bind_eq_ok.mp h
      exact ⟨_, Outcome.ok.inj h⟩
  subst h
  refine ⟨?_, ?_, fun n k hk hne => ?_⟩
  · unfold Db.Buffer.readHeader
    simp only [AMap.get?_set_self]
  · unfold Db.Buffer.readBody
    simp only [AMap.get?_set_self]
  · have hkey : blockHashKey n k ≠ blockHashKey block.header.number hash := by
      intro he
      obtain ⟨h1, h2⟩ := blockHashKey_eq hk hn he
      exact hne (by rw [h1, h2])
    unfold Db.Buffer.readHeader Db.Buffer.readBody Db.Buffer.totalDifficulty
    simp only [AMap.get?_set_ne _ hkey, and_self]

/-- C93: the total difficulty of an inserted block is that of its parent, zero for the genesis block or if the parent is
unknown, plus its own, modulo 2^256. -/
theorem c93_difficulty (db : Database) (b : Db.Buffer) (block : Block) (hash : Bytes) (parent : Option Nat)
    (hp : block.header.number ≠ 0 → Db.Buffer.totalDifficulty db b (block.header.number - 1) block.header.parentHash = .ok parent) :
    ∃ b', Db.Buffer.insertBlock db b block hash = .ok b' ∧
      Db.Buffer.totalDifficulty db b' block.header.number hash =
        .ok (some (((if block.header.number = 0 then 0 else parent.getD 0) + block.header.difficulty) % 2 ^ 256)) := by
  unfold Db.Buffer.insertBlock
  by_cases h0 : block.header.number = 0
  · simp only [h0, if_true, Outcome.ok_bind]
    refine ⟨_, rfl, ?_⟩
    unfold Db.Buffer.totalDifficulty
    simp only [AMap.get?_set_self]
  · have hp := hp h0
    have hp' : Db.Buffer.totalDifficulty db { b with
        headers := b.headers.set (blockHashKey block.header.number hash) block.header
        bodies := b.bodies.set (blockHashKey block.header.number hash) block.toBlockBody } (block.header.number - 1)
        block.header.parentHash = .ok parent := hp
    simp only [h0, if_false, hp', Outcome.ok_bind]
    refine ⟨_, rfl, ?_⟩
    unfold Db.Buffer.totalDifficulty
    simp only [AMap.get?_set_self]

/-- Blocks with their hashes, each the child of the one before it. -/
def Linked : Nat → Bytes → List (Block × Bytes) → Prop
  | _, _, [] => True
  | n, parent, (b, hash) :: rest => b.header.number = n ∧ b.header.parentHash = parent ∧ Linked (n + 1) hash rest

/-- C93: inserting the children of a block one after another gives the last one the sum of all difficulties. -/
theorem c93_chain (db : Database) : ∀ (blocks : List (Block × Bytes)) (b : Db.Buffer) (n td : Nat) (parent : Bytes) (last : Block × Bytes),
    Linked (n + 1) parent blocks → n + blocks.length < 2 ^ 64 → Db.Buffer.totalDifficulty db b n parent = .ok (some td) →
    td + (blocks.map fun x => x.1.header.difficulty).sum < 2 ^ 256 → blocks.getLast? = some last →
    ∃ b', blocks.foldlM (fun b x => Db.Buffer.insertBlock db b x.1 x.2) b = .ok b' ∧
      Db.Buffer.totalDifficulty db b' (n + blocks.length) last.2 = .ok (some (td + (blocks.map fun x => x.1.header.difficulty).sum)) := by
  intro blocks
  induction blocks with
  | nil => intro b n td parent last _ _ _ _ h; cases h
  | cons x xs ih =>
    intro b n td parent last hl hn hp hs hlast
    obtain ⟨h1, h2, h3⟩ := hl
    obtain ⟨b1, hb1, ht1⟩ := c93_difficulty db b x.1 x.2 (some td) (fun _ => by rw [h1, h2]; exact hp)
    rw [List.map_cons, List.sum_cons] at hs
    rw [h1, if_neg (by omega), Option.getD_some, Nat.mod_eq_of_lt (by omega)] at ht1
    cases xs with
    | nil =>
      have hlast : x = last := by simpa using hlast
      subst hlast
      exact ⟨b1, by rw [List.foldlM_cons, hb1]; rfl, by simpa using ht1⟩
    | cons y ys =>
      rw [List.getLast?_cons_cons] at hlast
      obtain ⟨b', k1, k2⟩ := ih b1 (n + 1) (td + x.1.header.difficulty) x.2 last h3
        (by rw [List.length_cons] at hn; omega) ht1 (by omega) hlast
      refine ⟨b', by rw [List.foldlM_cons, hb1]; exact k1, ?_⟩
      rw [List.length_cons, List.map_cons, List.sum_cons]
      rw [show n + 1 + (y :: ys).length = n + ((y :: ys).length + 1) by omega,
        show td + x.1.header.difficulty + ((y :: ys).map fun x => x.1.header.difficulty).sum =
          td + (x.1.header.difficulty + ((y :: ys).map fun x => x.1.header.difficulty).sum) by omega] at k2
      exact k2

/-! ## C94 -/

theorem logKey_eq {n i m j : Nat} (hn : n < 2 ^ 64) (hm : m < 2 ^ 64) (hi : i < 2 ^ 32) (hj : j < 2 ^ 32)
    (h : logKey n i = logKey m j) : n = m ∧ i = j := by
  unfold logKey at h
  obtain ⟨h1, h2⟩ := List.append_inj h (by rw [beFixed_length, beFixed_length])
  have h32 : (256 : Nat) ^ 4 = 2 ^ 32 := by decide
  exact ⟨beFixed_inj (u64 hn) (u64 hm) h1, beFixed_inj (by omega) (by omega) h2⟩

theorem insertLogs_spec (n : Nat) (hn : n < 2 ^ 64) : ∀ (rs : List Receipt) (b : Db.Buffer) (i : Nat), i + rs.length ≤ 2 ^ 32 →
    (b.insertLogs n i rs).receipts = b.receipts ∧ (AMap.WF b.logs → AMap.WF (b.insertLogs n i rs).logs) ∧
    (∀ j r, rs[j]? = some r → r.logs ≠ [] →
      (b.insertLogs n i rs).logs.get? (logKey n (i + j)) = some (Cbor.encodeLogs r.logs)) ∧
    (∀ k, (∀ j r, rs[j]? = some r → r.logs ≠ [] → k ≠ logKey n (i + j)) →
      (b.insertLogs n i rs).logs.get? k = b.logs.get? k) := by
  intro rs
  induction rs with
  | nil => intro b i _; exact ⟨rfl, id, fun j r h => by simp at h, fun _ _ => rfl⟩
  | cons x xs ih =>
    intro b i hi
    rw [List.length_cons] at hi
    have hidx : ∀ j, i + 1 + j = i + (j + 1) := by omega
    unfold Db.Buffer.insertLogs
    by_cases he : x.logs.isEmpty = true
    · rw [if_pos he]
      obtain ⟨h1, h2, h3, h4⟩ := ih b (i + 1) (by omega)
      refine ⟨h1, h2, fun j r hj hr => ?_, fun k hk => h4 k fun j r hj hr => ?_⟩
      · cases j with
        | zero =>
          have : x = r := by simpa using hj
          rw [← this] at hr
          exact absurd (List.isEmpty_iff.mp he) hr
        | succ j =>
          have := h3 j r (by simpa using hj) hr
          rw [hidx] at this
          exact this
      · rw [hidx]
        exact hk (j + 1) r (by simpa using hj) hr
    · rw [if_neg he]
      dsimp only
      obtain ⟨h1, h2, h3, h4⟩ := ih { b with
          logs := b.logs.set (logKey n i) (Cbor.encodeLogs x.logs)
          batchSize := Db.Buffer.bump b.batchSize (b.logs.get? (logKey n i)).isNone (logKey n i).length
            (Cbor.encodeLogs x.logs).length } (i + 1) (by omega)
      refine ⟨h1, fun hw => h2 (AMap.WF_set hw _ _), fun j r hj hr => ?_, fun k hk => ?_⟩
      · cases j with
        | zero =>
          have hx : x = r := by simpa using hj
          subst hx
          have hg := h4 (logKey n i) fun j r hj hr he => by
            have hlt : j < xs.length := by
              rw [List.getElem?_eq_some_iff] at hj
              exact hj.1
            have := (logKey_eq hn hn (by omega) (by omega) he).2
            omega
          exact hg.trans (AMap.get?_set_self _ _ _)
        | succ j =>
          have := h3 j r (by simpa using hj) hr
          rw [hidx] at this
          exact this
      · rw [h4 k fun j r hj hr => by rw [hidx]; exact hk (j + 1) r (by simpa using hj) hr]
        refine AMap.get?_set_ne _ ?_ _
        have := hk 0 x rfl (by simpa using he)
        rwa [Nat.add_zero] at this

/-- C94: receipts that were inserted are written under the number of their block, and the logs of every receipt that has any
under the number of the block and its index, as CBOR items. Nothing else is written. -/
theorem c94_receipts (db : Database) (b : Db.Buffer) (n : Nat) (rs : List Receipt) (hn : n < 2 ^ 64) (hrs : rs.length ≤ 2 ^ 32)
    (hwl : AMap.WF b.logs) (hwr : AMap.WF b.receipts) :
    ((b.insertReceipts n rs).writeToDb db).blockReceipts.find (beFixed 8 n) = some (beFixed 8 n, cbor (receiptsCbor rs)) ∧
    (∀ i r, rs[i]? = some r → r.logs ≠ [] → ((b.insertReceipts n rs).writeToDb db).logs.find (beFixed 8 n ++ beFixed 4 i) =
      some (beFixed 8 n ++ beFixed 4 i, cbor (logsCbor r.logs))) ∧
    (∀ k, k ≠ beFixed 8 n →
      ((b.insertReceipts n rs).writeToDb db).blockReceipts.find k = (b.writeToDb db).blockReceipts.find k) ∧
    (∀ k, (∀ i r, rs[i]? = some r → r.logs ≠ [] → k ≠ beFixed 8 n ++ beFixed 4 i) →
      ((b.insertReceipts n rs).writeToDb db).logs.find k = (b.writeToDb db).logs.find k) := by
  obtain ⟨h1, h2, h3, h4⟩ := insertLogs_spec n hn rs b 0 (by omega)
  have fr : ∀ (b : Db.Buffer) k, AMap.WF b.receipts → (b.writeToDb db).blockReceipts.find k = match b.receipts.get? k with
      | some v => some (k, v)
      | none => db.blockReceipts.find k := fun b k hw => upsertAll_find _ _ hw k
  have fl : ∀ (b : Db.Buffer) k, AMap.WF b.logs → (b.writeToDb db).logs.find k = match b.logs.get? k with
      | some v => some (k, v)
      | none => db.logs.find k := fun b k hw => upsertAll_find _ _ hw k
  have hr : (b.insertReceipts n rs).receipts = b.receipts.set (beFixed 8 n) (Cbor.encodeReceipts rs) := by
    unfold Db.Buffer.insertReceipts
    dsimp only
    rw [h1]
    rfl
  have hl : (b.insertReceipts n rs).logs = (b.insertLogs n 0 rs).logs := rfl
  have hwr' : AMap.WF (b.insertReceipts n rs).receipts := by rw [hr]; exact AMap.WF_set hwr _ _
  have hwl' : AMap.WF (b.insertReceipts n rs).logs := h2 hwl
  refine ⟨?_, fun i r hi hne => ?_, fun k hk => ?_, fun k hk => ?_⟩
  · rw [fr _ _ hwr', hr, AMap.get?_set_self, c92_encoding.2]
  · have := h3 i r hi hne
    rw [Nat.zero_add] at this
    rw [fl _ _ hwl', hl, show beFixed 8 n ++ beFixed 4 i = logKey n i from rfl, this, c92_encoding.1]
  · rw [fr _ _ hwr', fr _ _ hwr, hr, AMap.get?_set_ne _ hk]
  · rw [fl _ _ hwl', fl _ _ hwl, hl, h4 k fun j r hj hr => by rw [Nat.zero_add]; exact hk j r hj hr]

/-! ## Examples -/

def exContract : Account := { nonce := 1, balance := 300, codeHash := exWord 77, incarnation := 2 }

/-- The database of block five with a contract whose record leaves out the code hash. -/
def exReadsDb : Database :=
  { exBlockDb with
    difficulty := [(beFixed 8 5 ++ List.replicate 32 0xaa, rlp (num (2 ^ 70)))]
    plainState := [(exAddr 7, exContract.encodeForStorage true), (exAddr 8, [])]
    plainContractCode := [(exAddr 7 ++ beFixed 8 2, exWord 77)]
    incarnationMap := [(exAddr 9, beFixed 8 4)] }

example : Db.readHeader exReadsDb 5 (List.replicate 32 0xaa) = .ok (some exBlockStored.header) :=
  (c83_header exReadsDb 5 (List.replicate 32 0xaa) exBlockStored.header exBlock_stored.ordered.2.1 exBlock_stored.headerWF).1
    exBlock_stored.header
example : Db.readHeader exReadsDb 5 (exWord 1) = .ok none := by decide +kernel
example : Db.readTotalDifficulty exReadsDb 5 (List.replicate 32 0xaa) = .ok (some (2 ^ 70)) :=
  (c83_difficulty exReadsDb 5 (List.replicate 32 0xaa) (2 ^ 70) (List.pairwise_singleton _ _) (by decide)).1
    (List.mem_singleton.mpr rfl)
example : Db.readAccount exNoBitmap exReadsDb (exAddr 7) none = .ok (some exContract) :=
  c83_account _ _ _ _ ⟨by decide, by decide, by decide, by decide⟩ (by decide +kernel) (by decide +kernel)
example : Db.readAccount exNoBitmap exReadsDb (exAddr 8) none = .ok none := by decide +kernel
example : Db.Buffer.previousIncarnation exReadsDb none {} (exAddr 9) = .ok 4 :=
  (c83_incarnation _ _ 4 (by decide) 0).1 (by decide +kernel)

/-- Two children of the genesis block in a chain. -/
def exLinkedChild (n : Nat) (parent : Bytes) : Block :=
  { exBlock1 with header := { exHeader1 with number := n, parentHash := parent, difficulty := 10 + n } }

example : ∃ b', [(exLinkedChild 1 (exWord 9), exWord 11), (exLinkedChild 2 (exWord 11), exWord 12)].foldlM
      (fun b x => Db.Buffer.insertBlock {} b x.1 x.2) exInserted = .ok b' ∧
    Db.Buffer.totalDifficulty {} b' 2 (exWord 12) = .ok (some (17 + 23)) :=
  c93_chain {} [(exLinkedChild 1 (exWord 9), exWord 11), (exLinkedChild 2 (exWord 11), exWord 12)] exInserted 0 17 (exWord 9) _ ⟨rfl, rfl, rfl, rfl, trivial⟩ (by decide) (by decide +kernel) (by decide) rfl

/-- The second of three receipts has no logs. -/
def exReceipts : List Receipt := [exReceipt, { exReceipt with logs := [] }, { exReceipt with logs := [exLog] }]

example : ((Db.Buffer.insertReceipts {} 6 exReceipts).writeToDb {}).logs.map (·.1) =
    [beFixed 8 6 ++ beFixed 4 0, beFixed 8 6 ++ beFixed 4 2] := by decide +kernel
example : ((Db.Buffer.insertReceipts {} 6 exReceipts).writeToDb {}).logs.find (beFixed 8 6 ++ beFixed 4 2) =
    some (beFixed 8 6 ++ beFixed 4 2, cbor (logsCbor [exLog])) :=
  (c94_receipts {} {} 6 exReceipts (by decide) (by decide) AMap.WF_nil AMap.WF_nil).2.1 2 _ rfl (by decide)

end Silkworm.Properties
