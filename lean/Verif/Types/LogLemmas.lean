import Verif.Types.TransactionLemmas
import Verif.Spec.Receipt

/-! Helper lemmas for logs, receipts and blooms. -/

namespace Silkworm

open Rlp Spec

theorem lengthItems2 (a b : Item) : (rlpItems [a, b]).length = (rlp a).length + (rlp b).length := by
  simp only [rlpItems, List.append_nil, List.length_append]

theorem lengthItems3 (a b c : Item) :
    (rlpItems [a, b, c]).length = (rlp a).length + (rlp b).length + (rlp c).length := by
  simp only [rlpItems, List.append_nil, List.length_append]; omega

theorem lengthItems4 (a b c d : Item) :
    (rlpItems [a, b, c, d]).length = (rlp a).length + (rlp b).length + (rlp c).length + (rlp d).length := by
  simp only [rlpItems, List.append_nil, List.length_append]; omega

theorem keys_items_length {ks : List Bytes} (h : ∀ k ∈ ks, k.length = 32) :
    33 * ks.length = (rlpItems (ks.map .str)).length := by
  rw [rlpItems_keys_length h]

theorem log_spec {l : Log} (hw : l.WF) (h64 : (rlp (logItem l)).length < 2 ^ 64) :
    encodeLog l = rlp (logItem l) ∧ lengthLog l = (rlp (logItem l)).length := by
  have g := rlp_list_length_ge [.str l.address, .list (l.topics.map .str), .str l.data]
  have gt := rlp_list_length_ge (l.topics.map .str)
  have gd := rlpStr_length_ge l.data
  rw [← show rlp (.str l.data) = rlpStr l.data by rw [rlp]] at gd
  have g3 := lengthItems3 (.str l.address) (.list (l.topics.map .str)) (.str l.data)
  have gk := keys_items_length hw.topics
  unfold logItem at h64 ⊢
  have wa := hw.address
  obtain ⟨k1, k2⟩ := keys_spec hw.topics (by omega)
  have ea := encStr (s := l.address) (by omega)
  have la := lenArr (s := l.address) (by omega) (by omega)
  have ed := encStr (s := l.data) (by omega)
  have ld := lenStr (s := l.data) (by omega)
  have hp : (logHeader l).payloadLength =
      (rlpItems [.str l.address, .list (l.topics.map .str), .str l.data]).length := by
    unfold logHeader
    simp only
    omega
  constructor
  · unfold encodeLog
    rw [show logHeader l = ⟨true, (logHeader l).payloadLength⟩ from rfl, ← encList hp (by omega), ea, k1, ed]
    simp only [rlpItems, List.append_nil, List.append_assoc]
  · unfold lengthLog
    rw [hp, lenList (by omega)]

theorem receipt_spec {r : Receipt} (hw : r.WF) (h64 : (rlp (receiptItem r)).length < 2 ^ 64) :
    encodeReceipt r = receiptBytes r := by
  have g := rlp_list_length_ge [num r.success.toNat, num r.cumulativeGasUsed, .str r.bloom, .list (r.logs.map logItem)]
  have gl := rlp_list_length_ge (r.logs.map logItem)
  have g4 := lengthItems4 (num r.success.toNat) (num r.cumulativeGasUsed) (.str r.bloom) (.list (r.logs.map logItem))
  have hi : receiptItem r =
    .list [num r.success.toNat, num r.cumulativeGasUsed, .str r.bloom, .list (r.logs.map logItem)] := rfl
  rw [hi] at h64
  have wb := hw.bloom
  have hl : ∀ l ∈ r.logs, encodeLog l = rlp (logItem l) ∧ lengthLog l = (rlp (logItem l)).length := by
    intro l h
    apply log_spec (hw.logs l h)
    have := rlp_le_rlpItems (f := logItem) h
    omega
  obtain ⟨k1, k2⟩ := encVec (f := logItem) (fun l h => (hl l h).1) (fun l h => (hl l h).2) (by omega)
  have eb := encStr (s := r.bloom) (by omega)
  have lb := lenStr (s := r.bloom) (by omega)
  have eg := encU8 hw.gas
  have lg := lenU8 hw.gas
  have es := encodeBool_spec r.success
  have ls : (rlp (num r.success.toNat)).length = 1 := by
    rw [← es]; cases r.success <;> decide
  have hp : (receiptHeader r).payloadLength = (rlpItems
      [num r.success.toNat, num r.cumulativeGasUsed, .str r.bloom, .list (r.logs.map logItem)]).length := by
    unfold receiptHeader
    simp only
    omega
  have hbody : encodeHeader (receiptHeader r) ++ encodeBool r.success ++ encodeUint 8 r.cumulativeGasUsed ++
      encodeBytes r.bloom ++ encodeVector lengthLog encodeLog r.logs = rlp (receiptItem r) := by
    rw [hi, show receiptHeader r = ⟨true, (receiptHeader r).payloadLength⟩ from rfl, ← encList hp (by omega), es, eg, eb, k1]
    simp only [rlpItems, List.append_nil, List.append_assoc]
  unfold encodeReceipt receiptBytes
  simp only [List.append_assoc] at hbody ⊢
  rw [hbody]
  cases r.type <;> rfl

theorem logItem_inj {a b : Log} (h : logItem a = logItem b) : a = b := by
  unfold logItem at h
  injection h with h
  simp only [List.cons.injEq, Item.str.injEq, Item.list.injEq, and_true] at h
  obtain ⟨h1, h2, h3⟩ := h
  have h2 := (List.map_inj_right (fun x y h => by injection h)).mp h2
  cases a; cases b
  simp only at *
  subst h1 h2 h3
  rfl

theorem num_bool_inj {a b : Bool} (h : num a.toNat = num b.toNat) : a = b := by
  have := num_inj h
  cases a <;> cases b <;> first | rfl | (simp at this)

theorem receiptItem_inj {a b : Receipt} (h : receiptItem a = receiptItem b) :
    a.success = b.success ∧ a.cumulativeGasUsed = b.cumulativeGasUsed ∧ a.bloom = b.bloom ∧ a.logs = b.logs := by
  unfold receiptItem at h
  injection h with h
  simp only [List.cons.injEq, Item.str.injEq, Item.list.injEq, and_true] at h
  obtain ⟨h1, h2, h3, h4⟩ := h
  exact ⟨num_bool_inj h1, num_inj h2, h3, (List.map_inj_right (fun x y h => logItem_inj h)).mp h4⟩

/-! ### Blooms -/

theorem testBit_beToNat (b : Bytes) (k : Nat) (h : k < 8 * b.length) :
    (beToNat b).testBit k = (b.getD (b.length - 1 - k / 8) 0).toNat.testBit (k % 8) := by
  induction b with
  | nil => simp at h
  | cons x xs ih =>
    have hlt : beToNat xs < 2 ^ (8 * xs.length) := by
      rw [← pow256]; exact beToNat_lt xs
    rw [beToNat_cons, pow256, Nat.mul_comm, Nat.testBit_two_pow_mul_add _ hlt]
    rw [List.length_cons] at h ⊢
    split
    · rename_i hk
      rw [ih hk]
      obtain ⟨j, hj⟩ : ∃ j, xs.length - 1 - k / 8 = j := ⟨_, rfl⟩
      have : xs.length + 1 - 1 - k / 8 = j + 1 := by omega
      rw [this, hj, List.getD_cons_succ]
    · rename_i hk
      have h1 : xs.length + 1 - 1 - k / 8 = 0 := by omega
      have h2 : k - 8 * xs.length = k % 8 := by omega
      rw [h1, h2, List.getD_cons_zero]

theorem bloomHas_eq {b : Bytes} (hb : b.length = 256) {k : Nat} (hk : k < 2048) :
    bloomHas b k = (b.getD (255 - k / 8) 0).toNat.testBit (k % 8) := by
  unfold bloomHas
  rw [testBit_beToNat b k (by omega), hb]

theorem setBloomBit_length {b : Bytes} {bit : Nat} : (setBloomBit b bit).length = b.length := by
  simp [setBloomBit]

theorem testBit_mask (bit k : Nat) (hb : bit < 8) (hk : k < 8) :
    (UInt8.ofNat (1 <<< bit)).toNat.testBit k = decide (bit = k) := by
  rw [uint8_ofNat_toNat _ (by
    rw [Nat.one_shiftLeft]
    exact Nat.lt_of_lt_of_le (Nat.pow_lt_pow_right (by decide) hb) (by decide)), Nat.one_shiftLeft, Nat.testBit_two_pow]

theorem bloomHas_set {b : Bytes} (hb : b.length = 256) {bit k : Nat} (hbit : bit < 2048) (hk : k < 2048) :
    bloomHas (setBloomBit b bit) k = (bloomHas b k || decide (bit = k)) := by
  rw [bloomHas_eq (by rw [setBloomBit_length, hb]) hk, bloomHas_eq hb hk]
  unfold setBloomBit
  simp only [List.getD_eq_getElem?_getD, List.getElem?_modify]
  have hi : 255 - k / 8 < b.length := by omega
  rw [List.getElem?_eq_getElem hi]
  by_cases he : 256 - 1 - bit / 8 = 255 - k / 8
  · simp only [he, if_true, Option.map_eq_map, Option.map_some, Option.getD_some]
    rw [UInt8.toNat_or, Nat.testBit_or, testBit_mask _ _ (by omega) (by omega)]
    congr 1
    apply decide_eq_decide.mpr
    omega
  · simp only [he, if_false, Option.map_eq_map, Option.map_some, Option.getD_some, id_eq]
    have : ¬ bit = k := by intro h; subst h; exact he rfl
    simp [this]

theorem bloomBit_eq (hash : Bytes) (i : Nat) (h : i + 1 < hash.length) :
    bloomBit hash i = beToNat ((hash.drop i).take 2) % 2048 := by
  have e : (hash.drop i).take 2 = [hash[i], hash[i + 1]] := by
    rw [List.drop_eq_getElem_cons (by omega), List.drop_eq_getElem_cons h]
    rfl
  unfold bloomBit
  rw [e, List.getD_eq_getElem?_getD, List.getD_eq_getElem?_getD, List.getElem?_eq_getElem h,
    List.getElem?_eq_getElem (show i < hash.length by omega)]
  simp only [Option.getD_some, beToNat_cons, List.length_cons, List.length_nil, beToNat_nil]
  rw [show (0x7FF : Nat) = 2 ^ 11 - 1 from rfl, Nat.and_two_pow_sub_one_eq_mod, Nat.shiftLeft_eq]
  congr 1
  omega

theorem bloomBit_lt (hash : Bytes) (i : Nat) : bloomBit hash i < 2048 := by
  unfold bloomBit
  rw [show (0x7FF : Nat) = 2 ^ 11 - 1 from rfl, Nat.and_two_pow_sub_one_eq_mod]
  exact Nat.mod_lt _ (by decide)

theorem m3_length (keccak : Bytes → Bytes) (b x : Bytes) : (m3_2048 keccak b x).length = b.length := by
  simp only [m3_2048, setBloomBit_length]

theorem m3_spec {keccak : Bytes → Bytes} {x : Bytes} (hk : (keccak x).length = 32) {b : Bytes} (hb : b.length = 256)
    {k : Nat} (h : k < 2048) :
    bloomHas (m3_2048 keccak b x) k = (bloomHas b k || decide (k ∈ bloomIndices (keccak x))) := by
  unfold m3_2048
  rw [bloomHas_set (by simp only [setBloomBit_length, hb]) (bloomBit_lt _ _) h,
    bloomHas_set (by simp only [setBloomBit_length, hb]) (bloomBit_lt _ _) h, bloomHas_set hb (bloomBit_lt _ _) h]
  unfold bloomIndices
  rw [← bloomBit_eq _ 0 (by omega), ← bloomBit_eq _ 2 (by omega), ← bloomBit_eq _ 4 (by omega)]
  simp only [List.mem_cons, List.not_mem_nil, or_false, Bool.or_assoc]
  congr 1
  rw [Bool.eq_iff_iff]
  simp only [Bool.or_eq_true, decide_eq_true_eq]
  constructor
  · rintro (h | h | h)
    · exact .inl h.symm
    · exact .inr (.inl h.symm)
    · exact .inr (.inr h.symm)
  · rintro (h | h | h)
    · exact .inl h.symm
    · exact .inr (.inl h.symm)
    · exact .inr (.inr h.symm)

/-- Adding a list of entries. -/
theorem m3_fold {keccak : Bytes → Bytes} (hk : ∀ x, (keccak x).length = 32) (xs : List Bytes) {b : Bytes}
    (hb : b.length = 256) : (xs.foldl (m3_2048 keccak) b).length = 256 ∧ ∀ k, k < 2048 →
      (bloomHas (xs.foldl (m3_2048 keccak) b) k = true ↔
        bloomHas b k = true ∨ ∃ x ∈ xs, k ∈ bloomIndices (keccak x)) := by
  induction xs generalizing b with
  | nil => exact ⟨hb, by simp⟩
  | cons x xs ih =>
    obtain ⟨h1, h2⟩ := ih (b := m3_2048 keccak b x) (by rw [m3_length, hb])
    refine ⟨h1, fun k hkk => ?_⟩
    rw [List.foldl_cons, h2 k hkk, m3_spec (hk x) hb hkk]
    simp only [Bool.or_eq_true, decide_eq_true_eq, List.mem_cons, exists_eq_or_imp, or_assoc]

theorem logsBloom_eq (keccak : Bytes → Bytes) (logs : List Log) (b : Bytes) :
    logs.foldl (fun bloom l => l.topics.foldl (m3_2048 keccak) (m3_2048 keccak bloom l.address)) b =
      (logEntries logs).foldl (m3_2048 keccak) b := by
  induction logs generalizing b with
  | nil => rfl
  | cons l ls ih =>
    simp only [List.foldl_cons, logEntries, List.flatMap_cons, List.foldl_append]
    exact ih _

theorem bloomHas_zero (k : Nat) : bloomHas (List.replicate 256 0) k = false := by
  unfold bloomHas
  have := beToNat_replicate_zero 256 []
  rw [List.append_nil] at this
  rw [this]
  simp

/-- Blooms of 256 bytes are determined by their bits. -/
theorem bloom_ext {a b : Bytes} (ha : a.length = 256) (hb : b.length = 256)
    (h : ∀ k, k < 2048 → bloomHas a k = bloomHas b k) : a = b := by
  apply beToNat_inj (by rw [ha, hb])
  apply Nat.eq_of_testBit_eq
  intro k
  by_cases hk : k < 2048
  · exact h k hk
  · have la := beToNat_lt a
    have lb := beToNat_lt b
    rw [ha, pow256] at la
    rw [hb, pow256] at lb
    have : 2 ^ (8 * 256) ≤ 2 ^ k := Nat.pow_le_pow_right (by decide) (by omega)
    rw [Nat.testBit_lt_two_pow (Nat.lt_of_lt_of_le la this), Nat.testBit_lt_two_pow (Nat.lt_of_lt_of_le lb this)]

theorem joinBloom_length {a b : Bytes} (ha : a.length = 256) (hb : b.length = 256) : (joinBloom a b).length = 256 := by
  simp [joinBloom, ha, hb]

theorem bloomHas_join {a b : Bytes} (ha : a.length = 256) (hb : b.length = 256) {k : Nat} (hk : k < 2048) :
    bloomHas (joinBloom a b) k = (bloomHas a k || bloomHas b k) := by
  rw [bloomHas_eq (joinBloom_length ha hb) hk, bloomHas_eq ha hk, bloomHas_eq hb hk]
  unfold joinBloom
  have h1 : 255 - k / 8 < a.length := by omega
  have h2 : 255 - k / 8 < b.length := by omega
  simp only [List.getD_eq_getElem?_getD, List.getElem?_zipWith, List.getElem?_eq_getElem h1, List.getElem?_eq_getElem h2,
    Option.getD_some, UInt8.toNat_or, Nat.testBit_or]

end Silkworm
