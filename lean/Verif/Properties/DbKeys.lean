import Verif.Db.UtilLemmas
import Verif.Properties.Block

/-!
# Properties C46, C60, C61, C69: keys and small records of the database
-/

namespace Silkworm.Properties

open Silkworm Silkworm.Rlp Silkworm.Db

/-! ## C46 -/

theorem u64 {n : Nat} (h : n < 2 ^ 64) : n < 256 ^ 8 := by rw [pow256]; exact h
theorem u32 {n : Nat} (h : n < 2 ^ 32) : n < 256 ^ 4 := by rw [pow256]; exact h

/-- C46: number keys are ordered like the numbers. -/
theorem c46_block_key_order (m n : Nat) (hm : m < 2 ^ 64) (hn : n < 2 ^ 64) :
    (lexLt (blockKey m) (blockKey n) = true ↔ m < n) ∧ (blockKey m = blockKey n ↔ m = n) ∧ beToNat (blockKey m) = m :=
  ⟨lexLt_beFixed (u64 hm) (u64 hn), ⟨beFixed_inj (u64 hm) (u64 hn), fun h => by rw [h]⟩, beToNat_beFixed (u64 hm)⟩

/-- C46: number-and-hash keys are ordered by number, then by hash, and give back both. -/
theorem c46_block_hash_key_order (m n : Nat) (a b : Bytes) (hm : m < 2 ^ 64) (hn : n < 2 ^ 64) :
    (lexLt (blockHashKey m a) (blockHashKey n b) = true ↔ m < n ∨ (m = n ∧ lexLt a b = true)) ∧
    (blockHashKey m a = blockHashKey n b ↔ m = n ∧ a = b) ∧
    beToNat ((blockHashKey m a).take 8) = m ∧ (blockHashKey m a).drop 8 = a := by
  unfold blockHashKey
  refine ⟨?_, ?_, ?_, ?_⟩
  · rw [lexLt_append (by simp), lexLt_beFixed (u64 hm) (u64 hn)]
    constructor
    · rintro (h | ⟨h, h'⟩)
      · exact Or.inl h
      · exact Or.inr ⟨beFixed_inj (u64 hm) (u64 hn) h, h'⟩
    · rintro (h | ⟨h, h'⟩)
      · exact Or.inl h
      · exact Or.inr ⟨by rw [h], h'⟩
  · constructor
    · intro h
      obtain ⟨h1, h2⟩ := List.append_inj h (by simp)
      exact ⟨beFixed_inj (u64 hm) (u64 hn) h1, h2⟩
    · rintro ⟨rfl, rfl⟩; rfl
  · rw [List.take_append_of_le_length (by simp), List.take_of_length_le (by simp), beToNat_beFixed (u64 hm)]
  · rw [List.drop_append_of_le_length (by simp), List.drop_of_length_le (by simp)]; rfl

/-- C46: a storage prefix gives back the address and the incarnation; the incarnations of an address are in order, and
addresses of equal length come in their own order. -/
theorem c46_storage_prefix_order (a b : Bytes) (m n : Nat) (hl : a.length = b.length) (hm : m < 2 ^ 64) (hn : n < 2 ^ 64) :
    (lexLt (storagePrefix a m) (storagePrefix b n) = true ↔ lexLt a b = true ∨ (a = b ∧ m < n)) ∧
    (storagePrefix a m = storagePrefix b n ↔ a = b ∧ m = n) := by
  unfold storagePrefix
  refine ⟨?_, ?_⟩
  · rw [lexLt_append hl, lexLt_beFixed (u64 hm) (u64 hn)]
  · constructor
    · intro h
      obtain ⟨h1, h2⟩ := List.append_inj h hl
      exact ⟨h1, beFixed_inj (u64 hm) (u64 hn) h2⟩
    · rintro ⟨rfl, rfl⟩; rfl

/-- C46: a plain storage prefix (28 bytes) is never a hashed one (40 bytes). -/
theorem c46_storage_prefix_kinds (a b : Bytes) (m n : Nat) (ha : a.length = 20) (hb : b.length = 32) :
    storagePrefix a m ≠ storagePrefix b n := by
  intro h
  have := congrArg List.length h
  simp only [storagePrefix, List.length_append, beFixed_length] at this
  omega

/-- C46: storage change keys are ordered by block, address and incarnation, and differ if one of them does. -/
theorem c46_storage_change_key_order (m n : Nat) (a b : Bytes) (i j : Nat) (hm : m < 2 ^ 64) (hn : n < 2 ^ 64)
    (ha : a.length = 20) (hb : b.length = 20) (hi : i < 2 ^ 64) (hj : j < 2 ^ 64) :
    (lexLt (storageChangeKey m a i) (storageChangeKey n b j) = true ↔
      m < n ∨ (m = n ∧ (lexLt a b = true ∨ (a = b ∧ i < j)))) ∧
    (storageChangeKey m a i = storageChangeKey n b j ↔ m = n ∧ a = b ∧ i = j) := by
  have e : ∀ m a i, storageChangeKey m a i = blockHashKey m (storagePrefix a i) := fun m a i => by
    simp [storageChangeKey, blockHashKey, storagePrefix, List.append_assoc]
  obtain ⟨h1, h2, -⟩ := c46_block_hash_key_order m n (storagePrefix a i) (storagePrefix b j) hm hn
  obtain ⟨h3, h4⟩ := c46_storage_prefix_order a b i j (by omega) hi hj
  rw [e, e, h1, h2, h3, h4]
  exact ⟨Iff.rfl, Iff.rfl⟩

/-- C46: the history keys of an address are ordered by block number and keys of different addresses differ. -/
theorem c46_account_history_key_order (a b : Bytes) (m n : Nat) (ha : a.length = 20) (hb : b.length = 20)
    (hm : m < 2 ^ 64) (hn : n < 2 ^ 64) :
    (lexLt (accountHistoryKey a m) (accountHistoryKey b n) = true ↔ lexLt a b = true ∨ (a = b ∧ m < n)) ∧
    (accountHistoryKey a m = accountHistoryKey b n ↔ a = b ∧ m = n) :=
  c46_storage_prefix_order a b m n (by omega) hm hn

/-- C46: the history keys of a storage slot are ordered by block number, and keys of different slots differ. -/
theorem c46_storage_history_key_order (a b x y : Bytes) (m n : Nat) (ha : a.length = 20) (hb : b.length = 20)
    (hx : x.length = 32) (hy : y.length = 32) (hm : m < 2 ^ 64) (hn : n < 2 ^ 64) :
    (lexLt (storageHistoryKey a x m) (storageHistoryKey b y n) = true ↔
      lexLt a b = true ∨ (a = b ∧ (lexLt x y = true ∨ (x = y ∧ m < n)))) ∧
    (storageHistoryKey a x m = storageHistoryKey b y n ↔ a = b ∧ x = y ∧ m = n) := by
  obtain ⟨h3, h4⟩ := c46_storage_prefix_order x y m n (by omega) hm hn
  have e : ∀ a x m, storageHistoryKey a x m = a ++ storagePrefix x m := fun a x m => by
    simp [storageHistoryKey, storagePrefix, List.append_assoc]
  rw [e, e, lexLt_append (by omega), h3]
  refine ⟨Iff.rfl, ?_⟩
  constructor
  · intro h
    obtain ⟨h1, h2⟩ := List.append_inj h (by omega)
    exact ⟨h1, h4.mp h2⟩
  · rintro ⟨rfl, rfl, rfl⟩; rfl

/-- C46: log keys are ordered by block number, then by transaction. -/
theorem c46_log_key_order (m n i j : Nat) (hm : m < 2 ^ 64) (hn : n < 2 ^ 64) (hi : i < 2 ^ 32) (hj : j < 2 ^ 32) :
    (lexLt (logKey m i) (logKey n j) = true ↔ m < n ∨ (m = n ∧ i < j)) ∧ (logKey m i = logKey n j ↔ m = n ∧ i = j) := by
  obtain ⟨h1, h2, -⟩ := c46_block_hash_key_order m n (beFixed 4 i) (beFixed 4 j) hm hn
  have e : ∀ m i, logKey m i = blockHashKey m (beFixed 4 i) := fun _ _ => rfl
  rw [e, e, h1, h2, lexLt_beFixed (u32 hi) (u32 hj)]
  exact ⟨Iff.rfl, ⟨fun h => ⟨h.1, beFixed_inj (u32 hi) (u32 hj) h.2⟩, fun h => ⟨h.1, by rw [h.2]⟩⟩⟩

example : lexLt (blockKey 255) (blockKey 256) = true ∧ lexLt (blockKey 256) (blockKey 255) = false := by decide +kernel
example : lexLt (blockHashKey 7 (List.replicate 32 9)) (blockHashKey 8 (List.replicate 32 1)) = true :=
  (c46_block_hash_key_order 7 8 _ _ (by decide) (by decide)).1.mpr (Or.inl (by decide))
example : storageChangeKey 1 (List.replicate 20 2) 3 =
    [0, 0, 0, 0, 0, 0, 0, 1] ++ List.replicate 20 2 ++ [0, 0, 0, 0, 0, 0, 0, 3] := by decide +kernel

/-! ## C60 -/

/-- C60: a stored body is read back, and the rest of the input is left over. -/
theorem c60_stored_body_roundtrip (b : BlockBodyForStorage) (hw : b.WF) (rest : Bytes) :
    decodeStoredBlockBody (b.encode ++ rest) = .ok (b, rest) := by
  rw [storedBody_spec hw]
  exact decStoredBody hw rest

/-- C60: what is read was written: the record is the encoding of the result. -/
theorem c60_stored_body_canonical (v : Bytes) (hv : v.length < 2 ^ 63) (b : BlockBodyForStorage) (rest : Bytes)
    (e : decodeStoredBlockBody v = .ok (b, rest)) : b.WF ∧ v = b.encode ++ rest := by
  obtain ⟨h1, h2⟩ := decStoredBody_inv hv e
  exact ⟨h2, by rw [storedBody_spec h2]; exact h1⟩

/-- C60: the record is the list of the two numbers and the list of the ommers. -/
theorem c60_stored_body_spec (b : BlockBodyForStorage) (hw : b.WF) :
    b.encode = Spec.rlp (.list [Spec.num b.baseTxnId, Spec.num b.txnCount, .list (b.ommers.map Spec.headerItem)]) :=
  storedBody_spec hw

/-- C60: no input makes the decoder misbehave. -/
theorem c60_stored_body_safe (v : Bytes) : decodeStoredBlockBody v ≠ .ub := decodeStoredBlockBody_safe v

/-- A stored body with two ommers. -/
def exStored : BlockBodyForStorage := ⟨2 ^ 64 - 1, 300, [exHeader, { exHeader with baseFeePerGas := none }]⟩

theorem exStored_wf : exStored.WF := by
  refine ⟨by decide +kernel, by decide +kernel, ?_, by decide +kernel⟩
  intro h hh
  simp only [exStored, List.mem_cons, List.not_mem_nil, or_false] at hh
  rcases hh with rfl | rfl
  · exact exHeader_wf
  · exact { exHeader_wf with baseFee := by intro f hf; cases hf }

example : decodeStoredBlockBody (exStored.encode ++ [7]) = .ok (exStored, [7]) := c60_stored_body_roundtrip _ exStored_wf _
-- A record with a trailing item inside the list is rejected.
example : decodeStoredBlockBody [0xc4, 0x01, 0x02, 0xc0, 0x05] = .err .listLengthMismatch := by decide +kernel

/-! ## C61 -/

/-- C61: the printed form of an initialized mode is parsed back to the mode. -/
theorem c61_mode_roundtrip (m : StorageMode) (h : m.initialized = true) : parseStorageMode m.toText = some m := by
  obtain ⟨i, a, b, c, d, e⟩ := m
  simp only at h
  subst h
  revert a b c d e
  decide +kernel

/-- C61: an uninitialized mode prints as the name of the default mode. -/
theorem c61_mode_uninitialized (m : StorageMode) (h : m.initialized = false) :
    parseStorageMode m.toText = some kDefaultStorageMode := by
  unfold StorageMode.toText parseStorageMode
  rw [h]
  rfl

theorem parseLetters_iff (m r : StorageMode) (s : Bytes) : parseLetters m s = some r ↔
    (∀ c ∈ s, c ∈ ascii "hrtce") ∧
    r = { m with history := m.history || s.contains 0x68, receipts := m.receipts || s.contains 0x72,
                 txIndex := m.txIndex || s.contains 0x74, callTraces := m.callTraces || s.contains 0x63,
                 tevm := m.tevm || s.contains 0x65 } := by
  have hl : ascii "hrtce" = [0x68, 0x72, 0x74, 0x63, 0x65] := by decide +kernel
  rw [hl]
  induction s generalizing m with
  | nil =>
    simp only [parseLetters, Option.some.injEq, List.not_mem_nil, false_implies, implies_true, List.contains_nil, Bool.or_false,
      true_and]
    exact eq_comm
  | cons c s ih =>
    simp only [parseLetters]
    by_cases h1 : c = 0x68
    · subst h1; rw [if_pos rfl]; refine (ih _).trans ?_; simp
    rw [if_neg h1]
    by_cases h2 : c = 0x72
    · subst h2; rw [if_pos rfl]; refine (ih _).trans ?_; simp
    rw [if_neg h2]
    by_cases h3 : c = 0x74
    · subst h3; rw [if_pos rfl]; refine (ih _).trans ?_; simp
    rw [if_neg h3]
    by_cases h4 : c = 0x63
    · subst h4; rw [if_pos rfl]; refine (ih _).trans ?_; simp
    rw [if_neg h4]
    by_cases h5 : c = 0x65
    · subst h5; rw [if_pos rfl]; refine (ih _).trans ?_; simp
    rw [if_neg h5]
    simp [h1, h2, h3, h4, h5]

/-- C61: a text other than "default" is accepted exactly if all its letters are among h, r, t, c, e, and a flag is set
exactly if its letter occurs. -/
theorem c61_mode_parse (s : Bytes) (hs : s ≠ ascii "default") (r : StorageMode) : parseStorageMode s = some r ↔
    (∀ c ∈ s, c ∈ ascii "hrtce") ∧
    r = ⟨true, s.contains 0x68, s.contains 0x72, s.contains 0x74, s.contains 0x63, s.contains 0x65⟩ := by
  unfold parseStorageMode
  rw [if_neg hs, parseLetters_iff]
  simp

example : (⟨true, true, false, true, false, false⟩ : StorageMode).toText = ascii "ht" ∧
    parseStorageMode (ascii "ht") = some ⟨true, true, false, true, false, false⟩ ∧ parseStorageMode (ascii "hx") = none ∧
    parseStorageMode (ascii "default") = some ⟨true, true, true, true, true, false⟩ := by decide +kernel

/-! ## C69 -/

/-- Numbers fit 32 bits. -/
def VersionFits (v : Version) : Prop := v.major < 2 ^ 32 ∧ v.minor < 2 ^ 32 ∧ v.patch < 2 ^ 32

/-- C69: versions are ordered lexicographically. -/
theorem c69_version_order (a b : Version) :
    (a.lt b = true ↔ a.major < b.major ∨ (a.major = b.major ∧ (a.minor < b.minor ∨ (a.minor = b.minor ∧ a.patch < b.patch)))) ∧
    (a.gt b = b.lt a) ∧ (a.lt b = true ∨ a = b ∨ b.lt a = true) := by
  obtain ⟨a1, a2, a3⟩ := a
  obtain ⟨b1, b2, b3⟩ := b
  refine ⟨?_, ?_, ?_⟩
  · simp only [Version.lt]
    by_cases h1 : a1 < b1
    · simp [h1]
    · by_cases h2 : a1 = b1
      · subst h2
        by_cases h3 : a2 < b2
        · simp [h3]
        · by_cases h4 : a2 = b2
          · subst h4; simp
          · simp [h3, h4]
      · simp [h1, h2]
  · simp only [Version.lt, Version.gt, gt_iff_lt, eq_comm]
  · simp only [Version.lt, Version.mk.injEq]
    by_cases h1 : a1 < b1
    · simp [h1]
    · by_cases h2 : a1 = b1
      · subst h2
        by_cases h3 : a2 < b2
        · simp [h3]
        · by_cases h4 : a2 = b2
          · subst h4
            simp
            omega
          · have : b2 < a2 := by omega
            simp [h3, h4, this]
      · have : b1 < a1 := by omega
        simp [this]

theorem getSchemaVersion_upsert (info : Table) (v : Version) (hv : VersionFits v) :
    getSchemaVersion (info.upsert (ascii "dbVersion") (beFixed 4 v.major ++ beFixed 4 v.minor ++ beFixed 4 v.patch)) =
      .ok (some v) := by
  unfold getSchemaVersion
  rw [Table.find_upsert_same]
  simp only
  rw [if_pos (by simp)]
  have t1 : (beFixed 4 v.major ++ beFixed 4 v.minor ++ beFixed 4 v.patch).take 4 = beFixed 4 v.major := by
    rw [List.append_assoc, List.take_append_of_le_length (by simp), List.take_of_length_le (by simp)]
  have t2 : ((beFixed 4 v.major ++ beFixed 4 v.minor ++ beFixed 4 v.patch).drop 4).take 4 = beFixed 4 v.minor := by
    rw [List.append_assoc, List.drop_append_of_le_length (by simp), List.drop_of_length_le (by simp), List.nil_append,
      List.take_append_of_le_length (by simp), List.take_of_length_le (by simp)]
  have t3 : ((beFixed 4 v.major ++ beFixed 4 v.minor ++ beFixed 4 v.patch).drop 8).take 4 = beFixed 4 v.patch := by
    rw [List.drop_append_of_le_length (by simp), List.drop_of_length_le (by simp), List.nil_append,
      List.take_of_length_le (by simp)]
  rw [t1, t2, t3, beToNat_beFixed (u32 hv.1), beToNat_beFixed (u32 hv.2.1), beToNat_beFixed (u32 hv.2.2)]

/-- C69: setting a schema version succeeds exactly if no newer one is stored, and then that version is read back. -/
theorem c69_schema_version (info : Table) (v : Version) (hv : VersionFits v) (old : Option Version)
    (ho : getSchemaVersion info = .ok old) :
    if (∃ o, old = some o ∧ v.lt o = true) then setSchemaVersion info v = .err ()
    else ∃ info', setSchemaVersion info v = .ok info' ∧ getSchemaVersion info' = .ok (some v) := by
  have h := getSchemaVersion_upsert info v hv
  unfold setSchemaVersion
  rw [ho]
  simp only [Outcome.ok_bind]
  cases old with
  | none =>
    rw [if_neg (by simp)]
    exact ⟨_, rfl, h⟩
  | some o =>
    by_cases hvo : v = o
    · subst hvo
      have hlt : v.lt v = false := by simp [Version.lt]
      rw [if_neg (by simp [hlt])]
      simp only [if_true]
      exact ⟨info, rfl, ho⟩
    · simp only [if_neg hvo]
      by_cases hlt : v.lt o = true
      · rw [if_pos ⟨o, rfl, hlt⟩, if_pos hlt]
      · rw [if_neg (by simp [hlt]), if_neg hlt]
        exact ⟨_, rfl, h⟩

theorem find_writeFlag_same (info : Table) (key : String) (on : Bool) : readFlag (writeFlag info key on) key = on := by
  unfold readFlag writeFlag
  rw [Table.find_upsert_same]
  cases on <;> rfl

theorem find_writeFlag_other (info : Table) {key key2 : String} (on : Bool) (h : ascii key2 ≠ ascii key) :
    readFlag (writeFlag info key on) key2 = readFlag info key2 := by
  unfold readFlag writeFlag
  rw [Table.find_upsert_other _ _ h]

/-- C69: a stored mode is read back. -/
theorem c69_storage_mode (info : Table) (m : StorageMode) :
    getStorageMode (setStorageMode info m) = { m with initialized := true } := by
  unfold getStorageMode setStorageMode
  simp only
  rw [find_writeFlag_same _ "smTEVM"]
  rw [find_writeFlag_other _ _ (show ascii "smHistory" ≠ ascii "smTEVM" by decide +kernel),
    find_writeFlag_other _ _ (show ascii "smHistory" ≠ ascii "smCallTraces" by decide +kernel),
    find_writeFlag_other _ _ (show ascii "smHistory" ≠ ascii "smTxIndex" by decide +kernel),
    find_writeFlag_other _ _ (show ascii "smHistory" ≠ ascii "smReceipts" by decide +kernel),
    find_writeFlag_same _ "smHistory"]
  rw [find_writeFlag_other _ _ (show ascii "smReceipts" ≠ ascii "smTEVM" by decide +kernel),
    find_writeFlag_other _ _ (show ascii "smReceipts" ≠ ascii "smCallTraces" by decide +kernel),
    find_writeFlag_other _ _ (show ascii "smReceipts" ≠ ascii "smTxIndex" by decide +kernel),
    find_writeFlag_same _ "smReceipts"]
  rw [find_writeFlag_other _ _ (show ascii "smTxIndex" ≠ ascii "smTEVM" by decide +kernel),
    find_writeFlag_other _ _ (show ascii "smTxIndex" ≠ ascii "smCallTraces" by decide +kernel),
    find_writeFlag_same _ "smTxIndex"]
  rw [find_writeFlag_other _ _ (show ascii "smCallTraces" ≠ ascii "smTEVM" by decide +kernel),
    find_writeFlag_same _ "smCallTraces"]

/-- C69: the mode and the version do not disturb each other. -/
theorem c69_info_independent (info : Table) (m : StorageMode) (v : Version) :
    getSchemaVersion (setStorageMode info m) = getSchemaVersion info ∧
    ∀ info', setSchemaVersion info v = .ok info' → getStorageMode info' = getStorageMode info := by
  constructor
  · unfold getSchemaVersion setStorageMode writeFlag
    simp only
    rw [Table.find_upsert_other _ _ (show ascii "dbVersion" ≠ ascii "smTEVM" by decide +kernel),
      Table.find_upsert_other _ _ (show ascii "dbVersion" ≠ ascii "smCallTraces" by decide +kernel),
      Table.find_upsert_other _ _ (show ascii "dbVersion" ≠ ascii "smTxIndex" by decide +kernel),
      Table.find_upsert_other _ _ (show ascii "dbVersion" ≠ ascii "smReceipts" by decide +kernel),
      Table.find_upsert_other _ _ (show ascii "dbVersion" ≠ ascii "smHistory" by decide +kernel)]
  · intro info' h
    have key : ∀ x, getStorageMode (info.upsert (ascii "dbVersion") x) = getStorageMode info := by
      intro x
      unfold getStorageMode readFlag
      rw [Table.find_upsert_other _ _ (show ascii "smHistory" ≠ ascii "dbVersion" by decide +kernel),
        Table.find_upsert_other _ _ (show ascii "smReceipts" ≠ ascii "dbVersion" by decide +kernel),
        Table.find_upsert_other _ _ (show ascii "smTxIndex" ≠ ascii "dbVersion" by decide +kernel),
        Table.find_upsert_other _ _ (show ascii "smCallTraces" ≠ ascii "dbVersion" by decide +kernel),
        Table.find_upsert_other _ _ (show ascii "smTEVM" ≠ ascii "dbVersion" by decide +kernel)]
    unfold setSchemaVersion at h
    obtain ⟨old, -, h⟩ := Outcome.bind_eq_ok.mp h
    cases old with
    | none => cases h; exact key _
    | some o =>
      simp only at h
      split at h
      · cases h; rfl
      · split at h
        · cases h
        · cases h; exact key _

-- A fresh table, an upgrade and a refused downgrade.
example : setSchemaVersion [] ⟨1, 2, 3⟩ = .ok [(ascii "dbVersion", [0, 0, 0, 1, 0, 0, 0, 2, 0, 0, 0, 3])] ∧
    setSchemaVersion [(ascii "dbVersion", [0, 0, 0, 1, 0, 0, 0, 2, 0, 0, 0, 3])] ⟨1, 1, 9⟩ = .err () := by decide +kernel
example : getStorageMode (setStorageMode [] ⟨true, true, false, true, false, true⟩) = ⟨true, true, false, true, false, true⟩ :=
  c69_storage_mode _ _

end Silkworm.Properties
