import Verif.Db.Util
import Verif.Types.BlockLemmas
import Mathlib.Tactic.Linarith

/-!
# Lemmas about tables, keys and stored records
-/

namespace Silkworm.Db

open Silkworm.Rlp Silkworm.Spec

/-! ## The order of keys -/

theorem lexLt_append {a b : Bytes} (hl : a.length = b.length) (c d : Bytes) :
    lexLt (a ++ c) (b ++ d) = true ↔ lexLt a b = true ∨ (a = b ∧ lexLt c d = true) := by
  induction a generalizing b with
  | nil =>
    cases b with
    | nil => simp [lexLt]
    | cons _ _ => simp at hl
  | cons x a ih =>
    cases b with
    | nil => simp at hl
    | cons y b =>
      simp only [List.length_cons, Nat.add_right_cancel_iff] at hl
      simp only [List.cons_append, lexLt, List.cons.injEq]
      by_cases h1 : x < y
      · simp [h1]
      · by_cases h2 : y < x
        · have : x ≠ y := by rintro rfl; exact h1 h2
          simp [h1, h2, this]
        · have hxy : x = y := by
            apply uint8_ext
            rw [UInt8.lt_iff_toNat_lt] at h1 h2
            omega
          subst hxy
          simp [ih hl]

/-- Keys of equal length are ordered like the numbers they represent. -/
theorem lexLt_iff_toNat {a b : Bytes} (hl : a.length = b.length) : lexLt a b = true ↔ beToNat a < beToNat b := by
  induction a generalizing b with
  | nil =>
    cases b with
    | nil => simp [lexLt]
    | cons _ _ => simp at hl
  | cons x a ih =>
    cases b with
    | nil => simp at hl
    | cons y b =>
      simp only [List.length_cons, Nat.add_right_cancel_iff] at hl
      rw [beToNat_cons, beToNat_cons, hl]
      simp only [lexLt]
      have ha := beToNat_lt a
      have hb := beToNat_lt b
      rw [hl] at ha
      simp only [UInt8.lt_iff_toNat_lt]
      by_cases h1 : x.toNat < y.toNat
      · simp only [h1, if_true, true_iff]
        generalize 256 ^ b.length = P at *
        nlinarith
      · by_cases h2 : y.toNat < x.toNat
        · simp only [h1, h2, if_true, if_false, Bool.false_eq_true, false_iff, Nat.not_lt]
          generalize 256 ^ b.length = P at *
          nlinarith
        · have : x.toNat = y.toNat := by omega
          simp only [h1, h2, if_false]
          rw [ih hl, this]
          omega

theorem lexLt_beFixed {k m n : Nat} (hm : m < 256 ^ k) (hn : n < 256 ^ k) : lexLt (beFixed k m) (beFixed k n) = true ↔ m < n := by
  rw [lexLt_iff_toNat (by simp), beToNat_beFixed hm, beToNat_beFixed hn]

/-! ## Tables -/

theorem Table.find_upsert_same (t : Table) (k v : Bytes) : (t.upsert k v).find k = some (k, v) := by
  induction t with
  | nil => simp [Table.upsert, Table.find]
  | cons e t ih =>
    obtain ⟨k', v'⟩ := e
    simp only [Table.upsert]
    by_cases h : k' = k
    · simp [h, Table.find]
    · rw [if_neg h]
      by_cases h2 : lexLt k k' = true
      · rw [if_pos h2]; simp [Table.find]
      · rw [if_neg h2]
        unfold Table.find at *
        rw [List.find?_cons_of_neg (by simpa using h)]
        exact ih

theorem Table.find_upsert_other (t : Table) {k k2 : Bytes} (v : Bytes) (hk : k2 ≠ k) : (t.upsert k v).find k2 = t.find k2 := by
  induction t with
  | nil => simp [Table.upsert, Table.find, Ne.symm hk]
  | cons e t ih =>
    obtain ⟨k', v'⟩ := e
    simp only [Table.upsert]
    by_cases h : k' = k
    · subst h
      simp only [if_true]
      unfold Table.find
      rw [List.find?_cons_of_neg (by simpa using Ne.symm hk), List.find?_cons_of_neg (by simpa using Ne.symm hk)]
    · rw [if_neg h]
      by_cases h2 : lexLt k k' = true
      · rw [if_pos h2]
        unfold Table.find
        rw [List.find?_cons_of_neg (by simpa using Ne.symm hk)]
      · rw [if_neg h2]
        unfold Table.find at *
        rw [List.find?_cons, List.find?_cons, ih]

/-! ## Stored bodies -/

/-- The items of a stored body, as Erigon defines the record. -/
def storedBodyItem (b : BlockBodyForStorage) : Item := .list [num b.baseTxnId, num b.txnCount, .list (b.ommers.map headerItem)]

/-- The fields fit their types and the ommers are well-formed. -/
structure BlockBodyForStorage.WF (b : BlockBodyForStorage) : Prop where
  baseTxnId : b.baseTxnId < 2 ^ 64
  txnCount : b.txnCount < 2 ^ 64
  ommers : ∀ h ∈ b.ommers, h.WF
  size : (rlp (storedBodyItem b)).length < 2 ^ 64

theorem storedBody_spec {b : BlockBodyForStorage} (hw : b.WF) : b.encode = rlp (storedBodyItem b) := by
  have g := rlp_list_length_ge [num b.baseTxnId, num b.txnCount, .list (b.ommers.map headerItem)]
  have g2 := rlp_list_length_ge (b.ommers.map headerItem)
  have h64 := hw.size
  unfold storedBodyItem at h64 ⊢
  have g' : (rlpItems [num b.baseTxnId, num b.txnCount, .list (b.ommers.map headerItem)]).length =
      0 + (rlp (num b.baseTxnId)).length + (rlp (num b.txnCount)).length + (rlp (.list (b.ommers.map headerItem))).length := by
    simp only [rlpItems, List.append_nil, List.length_append]
    omega
  obtain ⟨w1, w2⟩ := encVec (f := headerItem) (enc := (encodeBlockHeader · false)) (len := lengthBlockHeader)
    (fun h hh => header_spec (hw.ommers h hh) false) (fun h hh => header_length (hw.ommers h hh)) (by omega)
  unfold BlockBodyForStorage.encode
  rw [w1, w2, encU8 hw.baseTxnId, encU8 hw.txnCount, lenU8 hw.baseTxnId, lenU8 hw.txnCount]
  conv => rhs; rw [rlp_list_eq (by omega), g']
  simp only [rlpItems, List.append_nil, List.append_assoc]

theorem decStoredBody {b : BlockBodyForStorage} (hw : b.WF) (rest : Bytes) :
    decodeStoredBlockBody (rlp (storedBodyItem b) ++ rest) = .ok (b, rest) := by
  have g := rlp_list_length_ge [num b.baseTxnId, num b.txnCount, .list (b.ommers.map headerItem)]
  have g2 := rlp_list_length_ge (b.ommers.map headerItem)
  have h64 := hw.size
  have h1 := hw.baseTxnId
  have h2 := hw.txnCount
  unfold storedBodyItem at h64 ⊢
  have g' : (rlpItems [num b.baseTxnId, num b.txnCount, .list (b.ommers.map headerItem)]).length =
      (rlp (num b.baseTxnId)).length + ((rlp (num b.txnCount)).length + (rlp (.list (b.ommers.map headerItem))).length) := by
    simp only [rlpItems, List.append_nil, List.length_append]
  unfold decodeStoredBlockBody
  rw [decodeHeader_rlp_list (by omega)]
  simp only [Outcome.ok_bind, Bool.not_true, Bool.false_eq_true, if_false]
  rw [List.length_append, Nat.add_sub_cancel_left]
  simp only [rlpItems, List.append_nil, List.append_assoc]
  rw [decU8 h1]
  simp only [Outcome.ok_bind]
  rw [decU8 h2]
  simp only [Outcome.ok_bind]
  rw [decHeaders hw.ommers (by omega)]
  simp

theorem decHeaders_inv {v rest : Bytes} {hs : List BlockHeader} (hv : v.length < 2 ^ 63)
    (e : decodeVector decodeBlockHeader v = .ok (hs, rest)) :
    v = rlp (.list (hs.map headerItem)) ++ rest ∧ ∀ h ∈ hs, h.WF := by
  have h1 := decodeVector_canonical (enc := fun h => rlp (headerItem h)) (len := fun h => (rlp (headerItem h)).length)
    (dec := decodeBlockHeader) (fun _ _ _ e => (decHeader_inv e).1) (fun _ _ _ _ => rfl) _ _ _ e
  have h2 := decodeVector_forall (P := fun h : BlockHeader => (h.extraData.length < 2 ^ 63 → h.WF) ∧
    h.extraData.length ≤ (rlp (headerItem h)).length) (fun _ _ _ e => (decHeader_inv e).2) e
  have hl : (rlpItems (hs.map headerItem)).length ≤ v.length := by
    rw [h1]
    unfold encodeVector
    simp only [List.length_append]
    rw [← rlpItems_map headerItem hs]
    omega
  have h3 := (encVec (v := hs) (f := headerItem) (enc := fun h => rlp (headerItem h)) (len := fun h => (rlp (headerItem h)).length)
    (fun _ _ => rfl) (fun _ _ => rfl) (by omega)).1
  rw [h3] at h1
  refine ⟨h1, fun h hh => (h2 h hh).1 ?_⟩
  have h4 := (h2 h hh).2
  have h5 : (rlp (headerItem h)).length ≤ (rlpItems (hs.map headerItem)).length := rlp_le_rlpItems hh
  omega

theorem decStoredBody_inv {v rest : Bytes} {b : BlockBodyForStorage} (hv : v.length < 2 ^ 63)
    (e : decodeStoredBlockBody v = .ok (b, rest)) : v = rlp (storedBodyItem b) ++ rest ∧ b.WF := by
  unfold decodeStoredBlockBody at e
  obtain ⟨⟨hd, r⟩, eh, e⟩ := Outcome.bind_eq_ok.mp e
  dsimp only at e
  split at e
  · cases e
  rename_i hl
  have hl : hd.list = true := by simpa using hl
  obtain ⟨⟨n, r1⟩, e1, e⟩ := Outcome.bind_eq_ok.mp e
  dsimp only at e
  obtain ⟨⟨m, r2⟩, e2, e⟩ := Outcome.bind_eq_ok.mp e
  dsimp only at e
  obtain ⟨⟨o, r3⟩, e3, e⟩ := Outcome.bind_eq_ok.mp e
  dsimp only at e
  obtain ⟨hlen, e⟩ := Outcome.ite_err_eq_ok.mp e
  simp only [Outcome.ok.injEq, Prod.mk.injEq] at e
  obtain ⟨rfl, rfl⟩ := e
  have hlen := Classical.not_not.mp hlen
  obtain ⟨b1, c1⟩ := decU8_inv e1
  obtain ⟨b2, c2⟩ := decU8_inv e2
  have hr := (decodeHeader_length eh).1
  have l1 := congrArg List.length c1
  have l2 := congrArg List.length c2
  rw [List.length_append] at l1 l2
  obtain ⟨c3, b3⟩ := decHeaders_inv (by omega) e3
  have hi := decList_inv (l := [num n, num m, .list (o.map headerItem)]) eh hl (rest := r3) (by
    simp only [rlpItems, List.append_nil, List.append_assoc]
    rw [c1, c2, c3]) hlen
  refine ⟨hi.1, b1, b2, b3, ?_⟩
  have := congrArg List.length hi.1
  rw [List.length_append] at this
  unfold storedBodyItem
  dsimp only
  omega

theorem decodeStoredBlockBody_safe : Safe decodeStoredBlockBody := by
  intro v
  unfold decodeStoredBlockBody
  apply Outcome.bind_ne_ub (decodeHeader_ne_ub _)
  intro ⟨h, r⟩ _
  dsimp only
  split
  · simp
  · apply Outcome.bind_ne_ub (decodeUint_safe _ _)
    intro ⟨n, r⟩ _
    dsimp only
    apply Outcome.bind_ne_ub (decodeUint_safe _ _)
    intro ⟨m, r⟩ _
    dsimp only
    apply Outcome.bind_ne_ub (decodeVector_safe decodeBlockHeader_safe decodeBlockHeader_consumes _)
    intro ⟨m, r⟩ _
    dsimp only
    split <;> simp

end Silkworm.Db
