import Verif.Types.TransactionLemmas
import Verif.Spec.Account

/-! Helper lemmas for account records. -/

namespace Silkworm

open Rlp Spec

theorem flags_bits : ∀ (j : Fin 16) (c i b n : Bool),
    let f := UInt8.ofNat (16 * j.val + 8 * c.toNat + 4 * i.toNat + 2 * b.toNat + n.toNat)
    hasField f 1 = n ∧ hasField f 2 = b ∧ hasField f 4 = i ∧ hasField f 8 = c := by
  decide

theorem decodeField_record {c : Option Bytes} (hc : ∀ x, c = some x → x.length < 256) (tail : Bytes) :
    decodeField c.isSome (recordField c ++ tail) =
      match c with
      | none => .ok (0, tail)
      | some x => readUint 8 x >>= fun n => .ok (n, tail) := by
  cases c with
  | none => simp [decodeField, recordField]
  | some x =>
    have hx := hc x rfl
    unfold decodeField recordField
    simp only [Option.isSome_some, if_true, List.cons_append, byteAt, List.getElem?_cons_zero, Outcome.ok_bind,
      List.drop_succ_cons, List.drop_zero]
    rw [uint8_ofNat_toNat _ hx, if_neg (by rw [List.length_append]; omega), List.take_left, List.drop_left]

theorem skipField_record {c : Option Bytes} (hc : ∀ x, c = some x → x.length < 256) (tail : Bytes) :
    skipField c.isSome (recordField c ++ tail) = .ok tail := by
  cases c with
  | none => simp [skipField, recordField]
  | some x =>
    have hx := hc x rfl
    unfold skipField recordField
    simp only [Option.isSome_some, if_true, List.cons_append, byteAt, List.getElem?_cons_zero, Outcome.ok_bind,
      List.drop_succ_cons, List.drop_zero]
    rw [uint8_ofNat_toNat _ hx, List.drop_left]

theorem decodeBalance_record {c : Option Bytes} (hc : ∀ x, c = some x → x.length ≤ 32 ∧ x ≠ []) (tail : Bytes) :
    decodeBalanceField c.isSome (recordField c ++ tail) = .ok (beToNat (c.getD []), tail) := by
  cases c with
  | none => simp [decodeBalanceField, recordField]
  | some x =>
    obtain ⟨hx, h0⟩ := hc x rfl
    unfold decodeBalanceField recordField
    simp only [Option.isSome_some, if_true, List.cons_append, byteAt, List.getElem?_cons_zero, Outcome.ok_bind,
      List.drop_succ_cons, List.drop_zero]
    rw [uint8_ofNat_toNat _ (by omega), if_neg (by rw [List.length_append]; omega), if_neg (by omega), List.take_left,
      List.drop_left, beToNat_replicate_zero]
    cases x with
    | nil => exact absurd rfl h0
    | cons y ys => simp

theorem decodeCodeHash_record {c : Option Bytes} (hc : ∀ x, c = some x → x.length < 256) (tail : Bytes) :
    decodeCodeHashField c.isSome (recordField c ++ tail) =
      match c with
      | none => .ok kEmptyHash
      | some x => if x.length = 32 then .ok x else .err .unexpectedLength := by
  cases c with
  | none => simp [decodeCodeHashField, recordField]
  | some x =>
    have hx := hc x rfl
    unfold decodeCodeHashField recordField
    simp only [Option.isSome_some, if_true, List.cons_append, byteAt, List.getElem?_cons_zero, Outcome.ok_bind,
      List.drop_succ_cons, List.drop_zero]
    rw [uint8_ofNat_toNat _ hx]
    by_cases h : x.length = 32
    · rw [if_neg (by omega), if_neg (by rw [List.length_append]; omega), if_pos h, ← h, List.take_left]
    · rw [if_pos h, if_neg h]

/-- The value of an integer field. -/
def readField : Option Bytes → Dec Nat
  | none => .ok 0
  | some x => readUint 8 x

/-- The value of a code hash field. -/
def codeField : Option Bytes → Dec Bytes
  | none => .ok kEmptyHash
  | some x => if x.length = 32 then .ok x else .err .unexpectedLength

/-- What decoding a complete record amounts to. -/
theorem decode_record {junk : Nat} (hj : junk < 16) {n b i c : Option Bytes}
    (hn : ∀ x, n = some x → x.length < 256) (hb : ∀ x, b = some x → x.length ≤ 32 ∧ x ≠ [])
    (hi : ∀ x, i = some x → x.length < 256) (hc : ∀ x, c = some x → x.length < 256) (extra : Bytes) :
    decodeAccountFromStorage (record junk n b i c ++ extra) =
      readField n >>= fun nonce => readField i >>= fun inc => codeField c >>= fun ch =>
      .ok ⟨nonce, beToNat (b.getD []), ch, inc⟩ := by
  have hf := flags_bits ⟨junk, hj⟩ c.isSome i.isSome b.isSome n.isSome
  simp only at hf
  obtain ⟨f1, f2, f3, f4⟩ := hf
  unfold decodeAccountFromStorage record
  simp only [List.cons_append]
  rw [f1, f2, f3, f4]
  simp only [List.append_assoc]
  rw [decodeField_record hn]
  cases n with
  | none =>
    simp only [Outcome.ok_bind, readField]
    rw [decodeBalance_record hb]
    simp only [Outcome.ok_bind]
    rw [decodeField_record hi]
    cases i with
    | none =>
      simp only [Outcome.ok_bind]
      rw [decodeCodeHash_record hc]
      cases c <;> rfl
    | some x =>
      simp only [Outcome.bind_assoc, Outcome.ok_bind]
      cases readUint 8 x with
      | ok m =>
        simp only [Outcome.ok_bind]
        rw [decodeCodeHash_record hc]
        cases c <;> rfl
      | err _ => rfl
      | ub => rfl
  | some y =>
    simp only [Outcome.bind_assoc, Outcome.ok_bind, readField]
    cases readUint 8 y with
    | err _ => rfl
    | ub => rfl
    | ok k =>
      simp only [Outcome.ok_bind]
      rw [decodeBalance_record hb]
      simp only [Outcome.ok_bind]
      rw [decodeField_record hi]
      cases i with
      | none =>
        simp only [Outcome.ok_bind]
        rw [decodeCodeHash_record hc]
        cases c <;> rfl
      | some x =>
        simp only [Outcome.bind_assoc, Outcome.ok_bind]
        cases readUint 8 x with
        | ok m =>
          simp only [Outcome.ok_bind]
          rw [decodeCodeHash_record hc]
          cases c <;> rfl
        | err _ => rfl
        | ub => rfl

theorem extract_record {junk : Nat} (hj : junk < 16) {n b i c : Option Bytes}
    (hn : ∀ x, n = some x → x.length < 256) (hb : ∀ x, b = some x → x.length < 256)
    (hi : ∀ x, i = some x → x.length < 256) (extra : Bytes) :
    extractIncarnation (record junk n b i c ++ extra) =
      readField i := by
  have hf := flags_bits ⟨junk, hj⟩ c.isSome i.isSome b.isSome n.isSome
  simp only at hf
  obtain ⟨f1, f2, f3, f4⟩ := hf
  unfold extractIncarnation record
  simp only [List.cons_append, byteAt, List.getElem?_cons_zero, Outcome.ok_bind, List.drop_succ_cons, List.drop_zero]
  rw [f1, f2, f3]
  simp only [List.append_assoc]
  rw [skipField_record hn]
  simp only [Outcome.ok_bind]
  rw [skipField_record hb]
  simp only [Outcome.ok_bind]
  cases i with
  | none => simp [readField]
  | some x =>
    have hx := hi x rfl
    simp only [readField, Option.isSome_some, if_true, recordField, List.cons_append, List.getElem?_cons_zero, Outcome.ok_bind,
      List.drop_succ_cons, List.drop_zero]
    rw [uint8_ofNat_toNat _ hx, List.take_left]

theorem numField_be {k n : Nat} (h : n < 256 ^ k) :
    (if n ≠ 0 then storageField (bigEndian k n) else []) = recordField (numField n) := by
  unfold numField recordField storageField
  by_cases h0 : n = 0
  · simp [h0]
  · simp [h0, bigEndian_spec h]

theorem encode_record {a : Account} (hw : a.WF) (omitCodeHash : Bool) :
    a.encodeForStorage omitCodeHash = accountRecord a omitCodeHash := by
  have h1 : a.nonce < 256 ^ 8 := by have := hw.nonce; rw [pow256]; exact this
  have h2 : a.balance < 256 ^ 32 := by have := hw.balance; rw [pow256]; exact this
  have h3 : a.incarnation < 256 ^ 8 := by have := hw.incarnation; rw [pow256]; exact this
  unfold Account.encodeForStorage accountRecord record
  rw [numField_be h1, numField_be h2, numField_be h3]
  have hc : (if a.codeHash ≠ kEmptyHash ∧ omitCodeHash = false then UInt8.ofNat 32 :: a.codeHash else []) =
      recordField (if a.codeHash = kEmptyHash ∨ omitCodeHash = true then none else some a.codeHash) := by
    by_cases h : a.codeHash = kEmptyHash ∨ omitCodeHash = true
    · rw [if_pos h, if_neg (by
        rintro ⟨g1, g2⟩
        rcases h with h | h
        · exact g1 h
        · rw [h] at g2; cases g2)]
      rfl
    · rw [if_neg h, if_pos ⟨fun g => h (.inl g), by simpa using fun g => h (.inr g)⟩]
      simp only [recordField]
      rw [hw.codeHash]
  rw [hc]
  congr 2
  have e : ∀ n : Nat, (numField n).isSome.toNat = if n ≠ 0 then 1 else 0 := by
    intro n
    unfold numField
    by_cases h : n = 0 <;> simp [h]
  rw [e, e, e]
  have ec : (if a.codeHash = kEmptyHash ∨ omitCodeHash = true then (none : Option Bytes) else some a.codeHash).isSome.toNat
      = if a.codeHash ≠ kEmptyHash ∧ omitCodeHash = false then 1 else 0 := by
    by_cases h : a.codeHash = kEmptyHash <;> cases omitCodeHash <;> simp [h]
  rw [ec]
  split <;> split <;> split <;> split <;> rfl

theorem numField_length {n k : Nat} (h : n < 256 ^ k) : ∀ x, numField n = some x → x.length ≤ k ∧ x ≠ [] := by
  intro x hx
  unfold numField at hx
  split at hx
  · cases hx
  · rename_i h0
    cases hx
    rw [← bigEndian_spec h]
    exact ⟨by rw [bigEndian_length h]; exact byteLen_le h, bigEndian_ne_nil h h0⟩

theorem numField_value {n k : Nat} (h : n < 256 ^ k) : beToNat ((numField n).getD []) = n := by
  unfold numField
  by_cases h0 : n = 0
  · simp [h0]
  · simp only [h0, if_false, Option.getD_some]
    rw [← bigEndian_spec h, beToNat_bigEndian h]

theorem numField_read {n : Nat} (h : n < 256 ^ 8) :
    readField (numField n) = .ok n := by
  unfold readField numField
  by_cases h0 : n = 0
  · simp [h0]
  · simp only [h0, if_false]
    rw [← bigEndian_spec h, readUint_bigEndian h]

/-! ### Agreement of the two decoders -/

theorem decodeField_skip {present : Bool} {v rest : Bytes} {n : Nat} (e : decodeField present v = .ok (n, rest)) :
    skipField present v = .ok rest := by
  unfold decodeField at e
  unfold skipField
  cases present with
  | false => cases e; rfl
  | true =>
    simp only [if_true] at e ⊢
    obtain ⟨len, e1, e⟩ := Outcome.bind_eq_ok.mp e
    rw [e1]
    split at e
    · cases e
    · obtain ⟨m, _, e⟩ := Outcome.bind_eq_ok.mp e
      cases e
      rfl

theorem decodeBalance_skip {present : Bool} {v rest : Bytes} {n : Nat}
    (e : decodeBalanceField present v = .ok (n, rest)) : skipField present v = .ok rest := by
  unfold decodeBalanceField at e
  unfold skipField
  cases present with
  | false => cases e; rfl
  | true =>
    simp only [if_true] at e ⊢
    obtain ⟨len, e1, e⟩ := Outcome.bind_eq_ok.mp e
    rw [e1]
    split at e
    · cases e
    split at e
    · cases e
    obtain ⟨m, _, e⟩ := Outcome.bind_eq_ok.mp e
    cases e
    rfl

theorem decodeField_extract {present : Bool} {v rest : Bytes} {n : Nat} (e : decodeField present v = .ok (n, rest)) :
    (if present then (byteAt v 0 >>= fun len => readUint 8 ((v.drop 1).take len.toNat) : Dec Nat) else .ok 0) = .ok n := by
  unfold decodeField at e
  cases present with
  | false => cases e; rfl
  | true =>
    simp only [if_true] at e ⊢
    obtain ⟨len, e1, e⟩ := Outcome.bind_eq_ok.mp e
    rw [e1]
    split at e
    · cases e
    · obtain ⟨m, e2, e⟩ := Outcome.bind_eq_ok.mp e
      cases e
      exact e2

theorem accountRlp_spec {a : Account} (hw : a.WF) {root : Bytes} (hr : root.length = 32) :
    a.rlp root = Spec.rlp (accountItem a root) := by
  have e1 := encU8 hw.nonce
  have e2 := encU32 hw.balance
  have e3 := encArr (s := root) (by omega) (by omega)
  have e4 := encArr (s := a.codeHash) (by rw [hw.codeHash]; decide) (by rw [hw.codeHash]; decide)
  have l1 := lenU8 hw.nonce
  have l2 := lenU32 hw.balance
  have l3 := lenArr (s := root) (by omega) (by omega)
  have l4 := lenArr (s := a.codeHash) (by rw [hw.codeHash]; decide) (by rw [hw.codeHash]; decide)
  have b1 := num_length_le (n := a.nonce) (by have := hw.nonce; omega)
  have b2 := num_length_le hw.balance
  rw [hr] at l3
  rw [hw.codeHash] at l4
  have hp : lengthUint 8 a.nonce + lengthUint 32 a.balance + (32 + 1) + (32 + 1) =
      (rlpItems [num a.nonce, num a.balance, .str root, .str a.codeHash]).length := by
    simp only [rlpItems, List.append_nil, List.length_append]
    omega
  unfold Account.rlp accountItem
  rw [← encList hp (by omega), e1, e2, e3, e4]
  simp only [rlpItems, List.append_nil, List.append_assoc]

end Silkworm
