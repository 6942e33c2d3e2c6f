import Verif.Types.AccountLemmas

/-!
# Properties C16, C17, C66: accounts
-/

namespace Silkworm.Properties

open Silkworm Silkworm.Rlp

/-- An account used in the examples. -/
def exAccount : Account := ⟨2 ^ 64 - 1, 2 ^ 255 + 1, List.replicate 32 7, 1⟩

theorem exAccount_wf : exAccount.WF :=
  ⟨by decide +kernel, by decide +kernel, List.length_replicate, by decide +kernel⟩

/-! ## C16 -/

/-- C16: decoding the storage encoding of an account returns it; if the code hash was omitted it reads as the hash of
the empty code and everything else is preserved. -/
theorem c16_account_roundtrip (a : Account) (hw : a.WF) :
    decodeAccountFromStorage (a.encodeForStorage false) = .ok a ∧
    decodeAccountFromStorage (a.encodeForStorage true) = .ok { a with codeHash := kEmptyHash } := by
  have h1 : a.nonce < 256 ^ 8 := by have := hw.nonce; rw [pow256]; exact this
  have h2 : a.balance < 256 ^ 32 := by have := hw.balance; rw [pow256]; exact this
  have h3 : a.incarnation < 256 ^ 8 := by have := hw.incarnation; rw [pow256]; exact this
  have n1 : ∀ x, Spec.numField a.nonce = some x → x.length < 256 := fun x hx => by
    have := (numField_length h1 x hx).1; omega
  have n3 : ∀ x, Spec.numField a.incarnation = some x → x.length < 256 := fun x hx => by
    have := (numField_length h3 x hx).1; omega
  have key : ∀ o : Bool, decodeAccountFromStorage (a.encodeForStorage o) =
      .ok { a with codeHash := if a.codeHash = kEmptyHash ∨ o = true then kEmptyHash else a.codeHash } := by
    intro o
    rw [encode_record hw, ← List.append_nil (Spec.accountRecord a o)]
    unfold Spec.accountRecord
    rw [decode_record (by decide) n1 (numField_length h2) n3 (by
      intro x hx
      split at hx
      · cases hx
      · cases hx; have := hw.codeHash; omega)]
    rw [numField_read h1, numField_read h3, numField_value h2]
    simp only [Outcome.ok_bind]
    by_cases h : a.codeHash = kEmptyHash ∨ o = true
    · simp only [h, if_true, Outcome.ok_bind, codeField]
    · simp only [h, if_false, Outcome.ok_bind, hw.codeHash, if_true, codeField]
  constructor
  · rw [key]
    by_cases h : a.codeHash = kEmptyHash
    · simp [← h]
    · simp [h]
  · rw [key]
    simp

/-- C16: the encoding is a record with exactly the non-default fields. -/
theorem c16_account_spec (a : Account) (hw : a.WF) (omitCodeHash : Bool) :
    a.encodeForStorage omitCodeHash = Spec.accountRecord a omitCodeHash := encode_record hw omitCodeHash

/-- C16: the predicted length is exact. -/
theorem c16_account_length (a : Account) (hw : a.WF) :
    a.encodingLengthForStorage = (a.encodeForStorage false).length := by
  have hc := hw.codeHash
  unfold Account.encodingLengthForStorage Account.encodeForStorage storageField
  simp only [List.length_cons, List.length_append, and_true]
  have e : ∀ (p : Prop) [Decidable p] (l : Bytes), (if p then l else []).length = if p then l.length else 0 := by
    intro p _ l
    split <;> rfl
  rw [e, e, e, e]
  simp only [List.length_cons, hc]
  have g : ∀ n : Nat, n + 1 = 1 + n := fun n => Nat.add_comm n 1
  simp only [g]
  omega

/-- C16: distinct accounts have distinct encodings. -/
theorem c16_account_injective (a b : Account) (ha : a.WF) (hb : b.WF)
    (e : a.encodeForStorage false = b.encodeForStorage false) : a = b := by
  have h1 := (c16_account_roundtrip a ha).1
  rw [e, (c16_account_roundtrip b hb).1] at h1
  cases h1
  rfl

example : decodeAccountFromStorage (exAccount.encodeForStorage false) = .ok exAccount :=
  (c16_account_roundtrip _ exAccount_wf).1

/-! ## C17 -/

/-- C17, in full: neither decoder misbehaves. -/
def C17_statement : Prop :=
  (∀ v : Bytes, decodeAccountFromStorage v ≠ .ub) ∧ (∀ v : Bytes, extractIncarnation v ≠ .ub)

/-- C17 is violated: the length byte of an announced field is read without checking that it exists. -/
theorem c17_safe_violated : ¬ C17_statement := fun h => h.1 [1] (by decide +kernel)

/-- C17 is violated: a balance longer than 32 bytes is copied in front of the target. -/
theorem c17_long_balance_violated : ¬ C17_statement :=
  fun h => h.1 (2 :: 33 :: List.replicate 33 0) (by decide +kernel)

/-- C17 is violated: the incarnation of the empty record (a valid encoding of the default account) is read out of
bounds. -/
theorem c17_empty_violated : ¬ C17_statement := fun h => h.2 [] (by decide +kernel)

/-- C17, partial: on complete records (every announced field is present, the balance has 1 to 32 bytes) with any
contents and any trailing bytes, neither decoder misbehaves, and the result is determined by the fields.
Missing: records that are truncated or announce longer balances. -/
theorem c17_safe_partial (junk : Nat) (hj : junk < 16) (n b i c : Option Bytes) (extra : Bytes)
    (hn : ∀ x, n = some x → x.length < 256) (hb : ∀ x, b = some x → x.length ≤ 32 ∧ x ≠ [])
    (hi : ∀ x, i = some x → x.length < 256) (hc : ∀ x, c = some x → x.length < 256) :
    decodeAccountFromStorage (Spec.record junk n b i c ++ extra) ≠ .ub ∧
    extractIncarnation (Spec.record junk n b i c ++ extra) ≠ .ub ∧
    (∀ a, decodeAccountFromStorage (Spec.record junk n b i c ++ extra) = .ok a →
      a.nonce = beToNat (n.getD []) ∧ a.balance = beToNat (b.getD []) ∧ a.incarnation = beToNat (i.getD []) ∧
      a.codeHash = c.getD kEmptyHash) := by
  have hr : ∀ o : Option Bytes, readField o ≠ .ub := by
    intro o
    cases o with
    | none => simp [readField]
    | some x => exact readUint_ne_ub _ _ _
  have hv : ∀ (o : Option Bytes) (m : Nat), readField o = .ok m → m = beToNat (o.getD []) := by
    intro o m h
    cases o with
    | none => cases h; rfl
    | some x =>
      obtain ⟨_, h1, h2⟩ := readUint_inv h
      rw [Option.getD_some, ← h2, beToNat_bigEndian h1]
  rw [decode_record hj hn hb hi hc, extract_record hj hn (fun x hx => by have := (hb x hx).1; omega) hi]
  refine ⟨?_, hr i, ?_⟩
  · refine Outcome.bind_ne_ub (hr n) fun _ _ => Outcome.bind_ne_ub (hr i) fun _ _ => Outcome.bind_ne_ub ?_ ?_
    · cases c with
      | none => simp [codeField]
      | some x => unfold codeField; dsimp only; split <;> simp
    · intro _ _; simp
  · intro a e
    obtain ⟨n', e1, e⟩ := Outcome.bind_eq_ok.mp e
    obtain ⟨i', e2, e⟩ := Outcome.bind_eq_ok.mp e
    obtain ⟨c', e3, e⟩ := Outcome.bind_eq_ok.mp e
    cases e
    refine ⟨hv n n' e1, rfl, hv i i' e2, ?_⟩
    cases c with
    | none => cases e3; rfl
    | some x =>
      unfold codeField at e3
      dsimp only at e3
      split at e3
      · cases e3; rfl
      · cases e3

/-- C17: whenever full decoding of a non-empty record succeeds, extracting the incarnation gives the same value. -/
theorem c17_extract_agrees (v : Bytes) (hv : v ≠ []) (a : Account) (e : decodeAccountFromStorage v = .ok a) :
    extractIncarnation v = .ok a.incarnation := by
  cases v with
  | nil => exact absurd rfl hv
  | cons f rest =>
    unfold decodeAccountFromStorage at e
    obtain ⟨⟨n, r1⟩, e1, e⟩ := Outcome.bind_eq_ok.mp e
    obtain ⟨⟨b, r2⟩, e2, e⟩ := Outcome.bind_eq_ok.mp e
    obtain ⟨⟨i, r3⟩, e3, e⟩ := Outcome.bind_eq_ok.mp e
    obtain ⟨c, e4, e⟩ := Outcome.bind_eq_ok.mp e
    cases e
    unfold extractIncarnation
    simp only [byteAt, List.getElem?_cons_zero, Outcome.ok_bind, List.drop_succ_cons, List.drop_zero]
    rw [decodeField_skip e1]
    simp only [Outcome.ok_bind]
    rw [decodeBalance_skip e2]
    simp only [Outcome.ok_bind]
    exact decodeField_extract e3

example : extractIncarnation (exAccount.encodeForStorage true) = .ok 1 := by decide +kernel

/-! ## C66: accounts in the state trie -/

/-- C66: the trie encoding of an account is the Yellow Paper's. -/
theorem c66_account_rlp_spec (a : Account) (hw : a.WF) (root : Bytes) (hr : root.length = 32) :
    a.rlp root = Spec.rlp (Spec.accountItem a root) := accountRlp_spec hw hr

/-- C66: it determines nonce, balance, storage root and code hash, and nothing else. -/
theorem c66_account_rlp_injective (a b : Account) (ha : a.WF) (hb : b.WF) (r s : Bytes) (hr : r.length = 32)
    (hs : s.length = 32) :
    a.rlp r = b.rlp s ↔ a.nonce = b.nonce ∧ a.balance = b.balance ∧ r = s ∧ a.codeHash = b.codeHash := by
  constructor
  · intro e
    rw [accountRlp_spec ha hr, accountRlp_spec hb hs] at e
    have fit : ∀ (a : Account) (r : Bytes), a.WF → r.length = 32 → Spec.fits (Spec.accountItem a r) := by
      intro a r ha hr
      have b1 := num_length_le (n := a.nonce) (by have := ha.nonce; omega)
      have b2 := num_length_le ha.balance
      have b3 := rlp_str_length_le (s := r) (by omega)
      have b4 := rlp_str_length_le (s := a.codeHash) (by rw [ha.codeHash]; decide)
      have b5 := ha.codeHash
      have hl : (Spec.rlpItems [Spec.num a.nonce, Spec.num a.balance, .str r, .str a.codeHash]).length < 2 ^ 64 := by
        simp only [Spec.rlpItems, List.append_nil, List.length_append]
        omega
      exact ⟨hl, fitsItems_of_length _ hl⟩
    have h := Spec.rlp_inj (fit a r ha hr) (fit b s hb hs) e
    unfold Spec.accountItem at h
    injection h with h
    simp only [List.cons.injEq, Spec.Item.str.injEq, and_true] at h
    exact ⟨Spec.num_inj h.1, Spec.num_inj h.2.1, h.2.2.1, h.2.2.2⟩
  · rintro ⟨h1, h2, h3, h4⟩
    unfold Account.rlp
    rw [h1, h2, h3, h4]

example : exAccount.rlp (List.replicate 32 1) = Spec.rlp (Spec.accountItem exAccount (List.replicate 32 1)) :=
  c66_account_rlp_spec _ exAccount_wf _ List.length_replicate

end Silkworm.Properties
