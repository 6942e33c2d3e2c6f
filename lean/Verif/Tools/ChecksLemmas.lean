import Verif.Tools.Checks
import Verif.Spec.Checks
import Verif.Stages.TxLookupLemmas
import Verif.Db.BlockLemmas
import Verif.Db.ChangeSetLemmas

/-!
# Lemmas about the commands that check a database
-/

namespace Silkworm.Tools

open Silkworm.Db Silkworm.Stages Silkworm.Spec

theorem mem_of_find {t : Table} {k : Bytes} {e : Bytes × Bytes} (h : t.find k = some e) : e ∈ t ∧ e.1 = k := by
  unfold Table.find at h
  exact ⟨List.mem_of_find?_eq_some h, by simpa using List.find?_some h⟩

/-- Looking up a key of a table with one value per key. -/
theorem find_iff {t : Table} (ho : Ordered t) {k v : Bytes} : (∃ e, t.find k = some e ∧ e.2 = v) ↔ (k, v) ∈ t := by
  constructor
  · rintro ⟨e, h, rfl⟩
    obtain ⟨h1, rfl⟩ := mem_of_find h
    exact h1
  · intro h
    exact ⟨_, find_of_mem ho h, rfl⟩

theorem after_eq_empty {cs : List Complaint} {r : Report} : r.after cs = {} ↔ cs = [] ∧ r = {} := by
  unfold Report.after
  cases r with
  | mk c t =>
    constructor
    · intro h
      have h1 := congrArg Report.complaints h
      have h2 := congrArg Report.thrown h
      dsimp only at h1 h2
      obtain ⟨h3, h4⟩ := List.append_eq_nil_iff.mp h1
      exact ⟨h3, by rw [h4, h2]⟩
    · rintro ⟨rfl, h⟩
      have h1 := congrArg Report.complaints h
      have h2 := congrArg Report.thrown h
      dsimp only at h1 h2
      rw [h1, h2]
      rfl

theorem checkAccounts_spec (keccak : Bytes → Bytes) {hashed : Table} (ho : Ordered hashed) : ∀ t : Table,
    ∃ r, checkAccounts keccak hashed t = .ok r ∧ (r = {} ↔ ∀ e ∈ t, e.1.length = 20 → (keccak e.1, e.2) ∈ hashed)
  | [] => ⟨{}, rfl, by simp⟩
  | e :: t => by
    obtain ⟨r, h1, h2⟩ := checkAccounts_spec keccak ho t
    unfold checkAccounts
    by_cases hl : e.1.length = 20
    · rw [if_neg (not_not.mpr hl)]
      cases hf : hashed.find (keccak e.1) with
      | none =>
        refine ⟨_, rfl, ⟨fun h => absurd (congrArg Report.thrown h) (by decide), fun h => ?_⟩⟩
        rw [find_of_mem ho (h e List.mem_cons_self hl)] at hf
        cases hf
      | some a =>
        dsimp only
        by_cases hv : a.2 = e.2
        · rw [if_neg (not_not.mpr hv)]
          refine ⟨r, h1, h2.trans ⟨fun h f hfm hl' => ?_, fun h f hfm => h f (List.mem_cons_of_mem _ hfm)⟩⟩
          rcases List.mem_cons.mp hfm with rfl | hfm
          · exact (find_iff ho).mp ⟨a, hf, hv⟩
          · exact h f hfm hl'
        · rw [if_pos hv]
          refine ⟨_, rfl, ⟨fun h => absurd (congrArg Report.complaints h) (by simp), fun h => ?_⟩⟩
          rw [find_of_mem ho (h e List.mem_cons_self hl)] at hf
          rw [← Option.some.inj hf] at hv
          exact absurd rfl hv
    · rw [if_pos hl]
      refine ⟨r, h1, h2.trans ⟨fun h f hfm hl' => ?_, fun h f hfm => h f (List.mem_cons_of_mem _ hfm)⟩⟩
      rcases List.mem_cons.mp hfm with rfl | hfm
      · exact absurd hl' hl
      · exact h f hfm hl'

theorem checkCode_spec (keccak : Bytes → Bytes) {hashed : Table} (ho : Ordered hashed) : ∀ t : Table,
    ∃ r, checkCode keccak hashed t = .ok r ∧ r.thrown = false ∧
      (r = {} ↔ ∀ e ∈ t, e.1.length = 28 → (keccak (e.1.take 20) ++ e.1.drop 20, e.2) ∈ hashed)
  | [] => ⟨{}, rfl, rfl, by simp⟩
  | e :: t => by
    obtain ⟨r, h1, h3, h2⟩ := checkCode_spec keccak ho t
    unfold checkCode
    by_cases hl : e.1.length = 28
    · rw [if_neg (not_not.mpr hl)]
      cases hf : hashed.find (keccak (e.1.take 20) ++ e.1.drop 20) with
      | none =>
        rw [h1]
        refine ⟨_, rfl, h3, ⟨fun h => absurd (after_eq_empty.mp h).1 (by simp), fun h => ?_⟩⟩
        rw [find_of_mem ho (h e List.mem_cons_self hl)] at hf
        cases hf
      | some a =>
        dsimp only
        by_cases hv : a.2 = e.2
        · rw [if_neg (not_not.mpr hv)]
          refine ⟨r, h1, h3, h2.trans ⟨fun h f hfm hl' => ?_, fun h f hfm => h f (List.mem_cons_of_mem _ hfm)⟩⟩
          rcases List.mem_cons.mp hfm with rfl | hfm
          · exact (find_iff ho).mp ⟨a, hf, hv⟩
          · exact h f hfm hl'
        · rw [if_pos hv]
          refine ⟨_, rfl, rfl, ⟨fun h => absurd (congrArg Report.complaints h) (by simp), fun h => ?_⟩⟩
          rw [find_of_mem ho (h e List.mem_cons_self hl)] at hf
          rw [← Option.some.inj hf] at hv
          exact absurd rfl hv
    · rw [if_pos hl]
      refine ⟨r, h1, h3, h2.trans ⟨fun h f hfm hl' => ?_, fun h f hfm => h f (List.mem_cons_of_mem _ hfm)⟩⟩
      rcases List.mem_cons.mp hfm with rfl | hfm
      · exact absurd hl' hl
      · exact h f hfm hl'

theorem checkStorage_spec : ∀ t : Table,
    ((∃ e ∈ t, e.1.length = 20) → checkStorage t = .ub) ∧ ((∀ e ∈ t, e.1.length ≠ 20) → checkStorage t = .ok {})
  | [] => ⟨fun ⟨_, h, _⟩ => (by cases h), fun _ => rfl⟩
  | e :: t => by
    obtain ⟨h1, h2⟩ := checkStorage_spec t
    unfold checkStorage
    by_cases hl : e.1.length = 20
    · rw [if_neg (not_not.mpr hl)]
      exact ⟨fun _ => rfl, fun h => absurd hl (h e List.mem_cons_self)⟩
    · rw [if_pos hl]
      refine ⟨fun ⟨f, hf, h⟩ => h1 ?_, fun h => h2 fun f hf => h f (List.mem_cons_of_mem _ hf)⟩
      rcases List.mem_cons.mp hf with rfl | hf
      · exact absurd h hl
      · exact ⟨f, hf, h⟩

/-- One canonical hash. -/
theorem checkHash_spec {numbers : Table} (ho : Ordered numbers) (hn : ∀ f ∈ numbers, 8 ≤ f.2.length) (e : Bytes × Bytes)
    (he : 8 ≤ e.1.length) : ∃ cs, checkHash numbers e = .ok cs ∧ (cs = [] ↔ (e.2, e.1) ∈ numbers) ∧
      ∀ c ∈ cs, (c = .hashMissing e.2 (beToNat (e.1.take 8)) ∧ ∀ v, (e.2, v) ∉ numbers) ∨
        ∃ v, (e.2, v) ∈ numbers ∧ v ≠ e.1 ∧ c = .hashElsewhere e.2 (beToNat (e.1.take 8)) (beToNat (v.take 8)) := by
  unfold checkHash loadNumber
  cases hf : numbers.find e.2 with
  | none =>
    dsimp only
    rw [if_pos he]
    have hno : ∀ v, (e.2, v) ∉ numbers := by
      intro v h
      rw [find_of_mem ho h] at hf
      cases hf
    refine ⟨_, rfl, ⟨fun h => absurd h (by simp), fun h => absurd h (hno _)⟩, fun c hc => Or.inl ⟨?_, hno⟩⟩
    exact List.mem_singleton.mp hc
  | some f =>
    dsimp only
    obtain ⟨h1, h2⟩ := mem_of_find hf
    have hm : (e.2, f.2) ∈ numbers := by rw [← h2]; exact h1
    by_cases hv : f.2 = e.1
    · rw [if_neg (not_not.mpr hv)]
      exact ⟨_, rfl, ⟨fun _ => by rw [← hv]; exact hm, fun _ => rfl⟩, fun c hc => by cases hc⟩
    · rw [if_pos hv, if_pos he, if_pos (hn f h1)]
      refine ⟨_, rfl, ⟨fun h => absurd h (by simp), fun h => ?_⟩, fun c hc => Or.inr ⟨f.2, hm, hv, List.mem_singleton.mp hc⟩⟩
      rw [find_of_mem ho h] at hf
      rw [← Option.some.inj hf] at hv
      exact absurd rfl hv

theorem checkHashes_spec {numbers : Table} (ho : Ordered numbers) (hn : ∀ f ∈ numbers, 8 ≤ f.2.length) : ∀ t : Table,
    (∀ e ∈ t, 8 ≤ e.1.length) → ∃ r, checkHashes numbers t = .ok r ∧ r.thrown = false ∧
      (r.complaints = [] ↔ ∀ e ∈ t, (e.2, e.1) ∈ numbers) ∧
      ∀ c ∈ r.complaints, ∃ e ∈ t, (c = .hashMissing e.2 (beToNat (e.1.take 8)) ∧ ∀ v, (e.2, v) ∉ numbers) ∨
        ∃ v, (e.2, v) ∈ numbers ∧ v ≠ e.1 ∧ c = .hashElsewhere e.2 (beToNat (e.1.take 8)) (beToNat (v.take 8))
  | [], _ => ⟨{}, rfl, rfl, by simp, fun c hc => by cases hc⟩
  | e :: t, h => by
    obtain ⟨r, h1, h2, h3, h4⟩ := checkHashes_spec ho hn t fun f hf => h f (List.mem_cons_of_mem _ hf)
    obtain ⟨cs, g1, g2, g3⟩ := checkHash_spec ho hn e (h e List.mem_cons_self)
    unfold checkHashes
    rw [g1, h1]
    refine ⟨_, rfl, h2, ?_, fun c hc => ?_⟩
    · show cs ++ r.complaints = [] ↔ _
      rw [List.append_eq_nil_iff, g2, h3, List.forall_mem_cons]
    · rcases List.mem_append.mp hc with hc | hc
      · exact ⟨e, List.mem_cons_self, g3 c hc⟩
      · obtain ⟨f, hf, hh⟩ := h4 c hc
        exact ⟨f, List.mem_cons_of_mem _ hf, hh⟩

/-- One transaction. -/
theorem checkTransaction_spec (keccak : Bytes → Bytes) {lookup : Table} (ho : Ordered lookup) (h8 : ∀ e ∈ lookup, e.2.length ≤ 8)
    (block expected index : Nat) (x : Bytes) : checkTransaction keccak lookup block expected index x = [] ↔
      ∃ v, (keccak x, v) ∈ lookup ∧ beToNat v = expected := by
  unfold checkTransaction
  cases hf : lookup.find (keccak x) with
  | none =>
    refine ⟨fun h => absurd h (by simp), fun ⟨v, h, _⟩ => ?_⟩
    rw [find_of_mem ho h] at hf
    cases hf
  | some l =>
    dsimp only
    obtain ⟨h1, h2⟩ := mem_of_find hf
    rw [List.take_of_length_le (by have := h8 l h1; simp; omega), beToNat_replicate_zero]
    constructor
    · intro h
      refine ⟨l.2, by rw [← h2]; exact h1, ?_⟩
      by_contra hne
      rw [if_pos hne] at h
      cases h
    · rintro ⟨v, hv, he⟩
      rw [find_of_mem ho hv] at hf
      rw [← Option.some.inj hf]
      exact if_neg (not_not.mpr he)

theorem checkTransactions_spec (keccak : Bytes → Bytes) {lookup : Table} (ho : Ordered lookup) (h8 : ∀ e ∈ lookup, e.2.length ≤ 8)
    (block expected : Nat) : ∀ (count index : Nat) (t : Table),
    ((checkTransactions keccak lookup block expected index count t).1 = [] ↔
      ∀ e ∈ t.take count, ∃ v, (keccak e.2, v) ∈ lookup ∧ beToNat v = expected) ∧
    (checkTransactions keccak lookup block expected index count t).2 = index + (t.take count).length
  | 0, index, t => by simp [checkTransactions]
  | count + 1, index, [] => by simp [checkTransactions]
  | count + 1, index, e :: t => by
    obtain ⟨h1, h2⟩ := checkTransactions_spec keccak ho h8 block expected count (index + 1) t
    unfold checkTransactions
    dsimp only
    rw [List.append_eq_nil_iff, checkTransaction_spec keccak ho h8, h1, h2, List.take_succ_cons, List.forall_mem_cons]
    exact ⟨Iff.rfl, by rw [List.length_cons]; omega⟩

/-- The transactions of a body whose records are all there. -/
theorem checkBody_spec (keccak : Bytes → Bytes) {ethTx lookup : Table} (ho : Ordered lookup) (h8 : ∀ e ∈ lookup, e.2.length ≤ 8)
    (hx : Ordered ethTx) (hk : ∀ e ∈ ethTx, e.1.length = 8) (raw : Nat → Bytes) (block expected : Nat) (b : BlockBodyForStorage)
    (hr : b.baseTxnId + b.txnCount < 2 ^ 64) (hm : ∀ j, j < b.txnCount → (beFixed 8 (b.baseTxnId + j), raw (b.baseTxnId + j)) ∈ ethTx) :
    checkBody keccak ethTx lookup block expected b = [] ↔
      ∀ i, b.baseTxnId ≤ i → i < b.baseTxnId + b.txnCount → ∃ v, (keccak (raw i), v) ∈ lookup ∧ beToNat v = expected := by
  unfold checkBody
  by_cases h0 : b.txnCount = 0
  · rw [if_pos h0, h0]
    exact ⟨fun _ i h1 h2 => by omega, fun _ => rfl⟩
  · rw [if_neg h0]
    dsimp only
    have htake : (fromKey ethTx (beFixed 8 b.baseTxnId)).take b.txnCount =
        (List.range' b.baseTxnId b.txnCount).map fun i => (beFixed 8 i, raw i) := by
      have h1 := hm 0 (by omega)
      rw [Nat.add_zero] at h1
      obtain ⟨d1, d2, d3, d4⟩ := dropWhile_ordered hx h1
      have key : ∀ j, j < b.txnCount → beToNat (beFixed 8 (b.baseTxnId + j)) = b.baseTxnId + j := fun j hj =>
        beToNat_beFixed (by have : (256 : Nat) ^ 8 = 2 ^ 64 := by decide
                            omega)
      have k0 := key 0 (by omega)
      rw [Nat.add_zero] at k0
      rw [fromKey, take_consecutive b.txnCount _ b.baseTxnId raw d1 (fun e he => hk e (d2 e he)) (fun e he => ?_) (by omega)
        (fun j hj => d4 _ (hm j hj) ?_)]
      · rcases d3 e he with h | h
        · rw [h, k0]
        · rw [key_lt (beFixed_length _ _) (hk e (d2 e he)), k0] at h
          omega
      · rw [← List.not_lt]
        dsimp only
        rw [key_lt (beFixed_length _ _) (beFixed_length _ _), key j hj, k0]
        omega
    obtain ⟨h1, h2⟩ := checkTransactions_spec keccak ho h8 block expected b.txnCount 0 (fromKey ethTx (beFixed 8 b.baseTxnId))
    rw [h2, htake, List.length_map, List.length_range', if_neg (by omega), List.append_nil, h1, htake]
    constructor
    · intro h i hi1 hi2
      exact h _ (List.mem_map.mpr ⟨i, List.mem_range'_1.mpr ⟨hi1, hi2⟩, rfl⟩)
    · intro h e he
      obtain ⟨i, hi, rfl⟩ := List.mem_map.mp he
      obtain ⟨hi1, hi2⟩ := List.mem_range'_1.mp hi
      exact h i hi1 hi2

theorem checkBodies_spec (keccak : Bytes → Bytes) {ethTx lookup : Table} (ho : Ordered lookup) (h8 : ∀ e ∈ lookup, e.2.length ≤ 8)
    (hx : Ordered ethTx) (hk : ∀ e ∈ ethTx, e.1.length = 8) (raw : Nat → Bytes) : ∀ (t : Table) (expected : Nat),
    (∀ e ∈ t, 8 ≤ e.1.length ∧ ∃ b : BlockBodyForStorage, b.WF ∧ e.2 = rlp (storedBodyItem b) ∧
      b.baseTxnId + b.txnCount < 2 ^ 64 ∧ ∀ j, j < b.txnCount → (beFixed 8 (b.baseTxnId + j), raw (b.baseTxnId + j)) ∈ ethTx) →
    ∃ r, checkBodies keccak ethTx lookup expected t = .ok r ∧ r.thrown = false ∧
      (r.complaints = [] ↔ ∀ k e, t[k]? = some e → ∀ i, BodyHas e.2 i →
        ∃ v, (keccak (raw i), v) ∈ lookup ∧ beToNat v = expected + k)
  | [], expected, _ => ⟨{}, rfl, rfl, by simp⟩
  | e :: t, expected, h => by
    obtain ⟨r, h1, h2, h3⟩ := checkBodies_spec keccak ho h8 hx hk raw t (expected + 1) fun f hf => h f (List.mem_cons_of_mem _ hf)
    obtain ⟨hl, b, hw, hb, hr, hm⟩ := h e List.mem_cons_self
    have hd := decStoredBody hw []
    rw [List.append_nil, ← hb] at hd
    have huniq : ∀ b' : BlockBodyForStorage, b'.WF → e.2 = rlp (storedBodyItem b') → b' = b := by
      intro b' hw' hb'
      have hd' := decStoredBody hw' []
      rw [List.append_nil, ← hb', hd] at hd'
      exact (Prod.mk.inj (Outcome.ok.inj hd')).1.symm
    unfold checkBodies loadNumber
    rw [if_pos hl]
    simp only [hd, h1]
    refine ⟨_, rfl, h2, ?_⟩
    show _ ++ r.complaints = [] ↔ _
    rw [List.append_eq_nil_iff, checkBody_spec keccak ho h8 hx hk raw _ _ b hr hm, h3]
    constructor
    · rintro ⟨g1, g2⟩ k f hf i hi
      cases k with
      | zero =>
        rw [List.getElem?_cons_zero] at hf
        have := Option.some.inj hf
        subst this
        obtain ⟨b', w1, w2, w3, w4⟩ := hi
        rw [huniq b' w1 w2] at w3 w4
        exact g1 i w3 w4
      | succ k =>
        rw [List.getElem?_cons_succ] at hf
        obtain ⟨v, hv1, hv2⟩ := g2 k f hf i hi
        exact ⟨v, hv1, by omega⟩
    · intro g
      refine ⟨fun i hi1 hi2 => g 0 e rfl i ⟨b, hw, hb, hi1, hi2⟩, fun k f hf i hi => ?_⟩
      obtain ⟨v, hv1, hv2⟩ := g (k + 1) f (by rw [List.getElem?_cons_succ]; exact hf) i hi
      exact ⟨v, hv1, by omega⟩

/-! ## Changes -/

theorem sameMap_iff {α β : Type} [DecidableEq α] {same : β → β → Bool} {a b : AMap α β} :
    sameMap same a b = true ↔ ∀ k, match a.get? k, b.get? k with
      | some x, some y => same x y = true
      | none, none => True
      | _, _ => False := by
  unfold sameMap
  rw [List.all_eq_true]
  constructor
  · intro h k
    by_cases hk : k ∈ a.keys ++ b.keys
    · have h1 := h k hk
      cases ha : a.get? k with
      | none => cases hb : b.get? k with
        | none => trivial
        | some y => rw [ha, hb] at h1; cases h1
      | some x => cases hb : b.get? k with
        | none => rw [ha, hb] at h1; cases h1
        | some y => rw [ha, hb] at h1; exact h1
    · rw [List.mem_append, not_or] at hk
      rw [AMap.get?_eq_none_iff.mpr hk.1, AMap.get?_eq_none_iff.mpr hk.2]
      trivial
  · intro h k _
    have h1 := h k
    cases ha : a.get? k with
    | none => cases hb : b.get? k with
      | none => rfl
      | some y => rw [ha, hb] at h1; cases h1
    | some x => cases hb : b.get? k with
      | none => rw [ha, hb] at h1; cases h1
      | some y => rw [ha, hb] at h1; exact h1

theorem sameMap_beq {a b : AMap Bytes Bytes} : sameMap (· == ·) a b = true ↔ SameValues a b := by
  rw [sameMap_iff]
  constructor
  · intro h k
    have h1 := h k
    cases ha : a.get? k with
    | none => cases hb : b.get? k with
      | none => rfl
      | some y => rw [ha, hb] at h1; cases h1
    | some x => cases hb : b.get? k with
      | none => rw [ha, hb] at h1; cases h1
      | some y => rw [ha, hb] at h1; rw [eq_of_beq h1]
  · intro h k
    rw [h k]
    cases b.get? k with
    | none => trivial
    | some y => exact beq_self_eq_true y

/-- When nothing is said about the changes of accounts. -/
theorem checkAccountChanges_spec (block : Nat) {calculated stored : AMap Bytes Bytes} (hc : calculated.WF) (hs : stored.WF) :
    checkAccountChanges block calculated stored = [] ↔
      ∀ a, calculated.get? a = stored.get? a ∨ (a ∈ kPhantomAccounts ∧ calculated.get? a = none) := by
  unfold checkAccountChanges
  by_cases h : sameMap (· == ·) calculated stored = true
  · rw [if_pos h]
    exact ⟨fun _ a => Or.inl (sameMap_beq.mp h a), fun _ => rfl⟩
  · rw [if_neg h]
    have hlist : (stored.flatMap (checkStored calculated) ++ calculated.flatMap (checkCalculated stored) = []) ↔
        ∀ a, calculated.get? a = stored.get? a ∨ (a ∈ kPhantomAccounts ∧ calculated.get? a = none) := by
      rw [List.append_eq_nil_iff, List.flatMap_eq_nil_iff, List.flatMap_eq_nil_iff]
      constructor
      · rintro ⟨g1, g2⟩ a
        cases hst : stored.get? a with
        | none =>
          left
          cases hca : calculated.get? a with
          | none => rfl
          | some v =>
            have := g2 _ (AMap.mem_of_get? hca)
            unfold checkCalculated at this
            rw [hst] at this
            cases this
        | some w =>
          have := g1 _ (AMap.mem_of_get? hst)
          unfold checkStored at this
          dsimp only at this
          cases hca : calculated.get? a with
          | none =>
            rw [hca] at this
            dsimp only at this
            right
            refine ⟨?_, rfl⟩
            by_contra hn
            rw [if_neg hn] at this
            cases this
          | some v =>
            rw [hca] at this
            dsimp only at this
            left
            by_contra hn
            rw [if_pos fun hh => hn (by rw [hh])] at this
            cases this
      · intro g
        refine ⟨fun e he => ?_, fun e he => ?_⟩
        · have hst := AMap.get?_of_mem hs (k := e.1) (v := e.2) he
          unfold checkStored
          rcases g e.1 with h1 | ⟨h1, h2⟩
          · rw [h1, hst]
            exact if_neg (not_not.mpr rfl)
          · rw [h2]
            exact if_pos h1
        · have hca := AMap.get?_of_mem hc (k := e.1) (v := e.2) he
          unfold checkCalculated
          rcases g e.1 with h1 | ⟨h1, h2⟩
          · rw [← h1, hca]
          · rw [h2] at hca; cases hca
    dsimp only
    rw [← hlist]
    by_cases hn : stored.flatMap (checkStored calculated) ++ calculated.flatMap (checkCalculated stored) = []
    · rw [if_pos hn]
      simp only [hn]
    · rw [if_neg hn]
      exact ⟨fun hh => absurd hh (by simp), fun hh => absurd hh hn⟩

theorem sameMap_isSome {α β : Type} [DecidableEq α] {same : β → β → Bool} {a b : AMap α β} :
    sameMap same a b = true ↔ (∀ k, (a.get? k).isSome = (b.get? k).isSome) ∧
      ∀ k x y, a.get? k = some x → b.get? k = some y → same x y = true := by
  rw [sameMap_iff]
  constructor
  · intro h
    refine ⟨fun k => ?_, fun k x y hx hy => ?_⟩
    · have h1 := h k
      cases ha : a.get? k with
      | none => cases hb : b.get? k with
        | none => rfl
        | some y => rw [ha, hb] at h1; cases h1
      | some x => cases hb : b.get? k with
        | none => rw [ha, hb] at h1; cases h1
        | some y => rfl
    · have h1 := h k
      rw [hx, hy] at h1
      exact h1
  · rintro ⟨h1, h2⟩ k
    have h3 := h1 k
    cases ha : a.get? k with
    | none => cases hb : b.get? k with
      | none => trivial
      | some y => rw [ha, hb] at h3; cases h3
    | some x => cases hb : b.get? k with
      | none => rw [ha, hb] at h3; cases h3
      | some y => exact h2 k x y ha hb

/-- Changes of storage are the same if they are for every slot. -/
theorem sameStorage_iff {a b : StorageChanges} (ha : NoEmptyParts a) (hb : NoEmptyParts b) :
    sameStorage a b = true ↔ ∀ x i l, slotBefore a x i l = slotBefore b x i l := by
  unfold sameStorage
  rw [sameMap_isSome]
  constructor
  · rintro ⟨h1, h2⟩ x i l
    unfold slotBefore
    have h3 := h1 x
    cases hx : a.get? x with
    | none =>
      cases hy : b.get? x with
      | none => rfl
      | some y => rw [hx, hy] at h3; cases h3
    | some m =>
      cases hy : b.get? x with
      | none => rw [hx, hy] at h3; cases h3
      | some m' =>
        obtain ⟨g1, g2⟩ := sameMap_isSome.mp (h2 x m m' hx hy)
        have g3 := g1 i
        show (m.get? i).bind _ = (m'.get? i).bind _
        cases hi : m.get? i with
        | none =>
          cases hj : m'.get? i with
          | none => rfl
          | some y => rw [hi, hj] at g3; cases g3
        | some s =>
          cases hj : m'.get? i with
          | none => rw [hi, hj] at g3; cases g3
          | some s' => exact sameMap_beq.mp (g2 i s s' hi hj) l
  · intro h
    have key : ∀ {a b : StorageChanges}, NoEmptyParts a → (∀ x i l, slotBefore a x i l = slotBefore b x i l) →
        (∀ x m, a.get? x = some m → ∃ m', b.get? x = some m') ∧
        ∀ x m m', a.get? x = some m → b.get? x = some m' → ∀ i s, m.get? i = some s → ∃ s', m'.get? i = some s' := by
      intro a b ha h
      refine ⟨fun x m hx => ?_, fun x m m' hx hy i s hi => ?_⟩
      · obtain ⟨⟨i, s, hi⟩, hl⟩ := ha x m hx
        obtain ⟨l, v, hv⟩ := hl i s hi
        have h1 := h x i l
        unfold slotBefore at h1
        rw [hx, Option.bind_some, hi, Option.bind_some, hv] at h1
        cases hy : b.get? x with
        | none => rw [hy] at h1; cases h1
        | some m' => exact ⟨m', rfl⟩
      · obtain ⟨l, v, hv⟩ := (ha x m hx).2 i s hi
        have h1 := h x i l
        unfold slotBefore at h1
        rw [hx, hy, Option.bind_some, Option.bind_some, hi, Option.bind_some, hv] at h1
        cases hj : m'.get? i with
        | none => rw [hj] at h1; cases h1
        | some s' => exact ⟨s', rfl⟩
    obtain ⟨p1, p2⟩ := key ha h
    obtain ⟨q1, q2⟩ := key hb fun x i l => (h x i l).symm
    refine ⟨fun x => ?_, fun x m m' hx hy => ?_⟩
    · cases hx : a.get? x with
      | none =>
        cases hy : b.get? x with
        | none => rfl
        | some m' => obtain ⟨_, h1⟩ := q1 x m' hy; rw [hx] at h1; cases h1
      | some m => obtain ⟨m', h1⟩ := p1 x m hx; rw [h1]; rfl
    · rw [sameMap_isSome]
      refine ⟨fun i => ?_, fun i s s' hi hj => ?_⟩
      · cases hi : m.get? i with
        | none =>
          cases hj : m'.get? i with
          | none => rfl
          | some s' => obtain ⟨_, h1⟩ := q2 x m' m hy hx i s' hj; rw [hi] at h1; cases h1
        | some s => obtain ⟨s', h1⟩ := p2 x m m' hx hy i s hi; rw [h1]; rfl
      · rw [sameMap_beq]
        intro l
        have h1 := h x i l
        unfold slotBefore at h1
        rw [hx, hy, Option.bind_some, Option.bind_some, hi, hj, Option.bind_some, Option.bind_some] at h1
        exact h1

theorem andThen_empty {a b : Outcome Empty Report} : andThen a b = .ok {} ↔ a = .ok {} ∧ b = .ok {} := by
  unfold andThen
  constructor
  · intro h
    obtain ⟨r, h1, h⟩ := Outcome.bind_eq_ok.mp h
    by_cases ht : r.thrown = true
    · rw [if_pos ht] at h
      rw [Outcome.ok.inj h] at ht
      cases ht
    · rw [if_neg ht] at h
      obtain ⟨q, h2, h⟩ := Outcome.bind_eq_ok.mp h
      obtain ⟨h3, h4⟩ := after_eq_empty.mp (Outcome.ok.inj h)
      refine ⟨?_, by rw [h2, h4]⟩
      rw [h1]
      congr 1
      cases r with
      | mk c t => simp only [Bool.not_eq_true] at ht; dsimp only at h3 ht; rw [h3, ht]
  · rintro ⟨rfl, rfl⟩
    rfl

/-! ## Changes that were recorded or read -/

theorem noEmpty_nil : NoEmptyParts [] := fun _ _ h => by cases h

theorem noEmpty_nestedSet {m : StorageChanges} (h : NoEmptyParts m) (a : Bytes) (n : Nat) (k v : Bytes) :
    NoEmptyParts (MemoryBuffer.nestedSet m a n k v) := by
  intro x y hx
  unfold MemoryBuffer.nestedSet at hx
  dsimp only at hx
  rw [AMap.get?_set] at hx
  split at hx
  · cases Option.some.inj hx
    refine ⟨⟨n, _, AMap.get?_set_self ..⟩, fun i z hz => ?_⟩
    rw [AMap.get?_set] at hz
    split at hz
    · cases Option.some.inj hz
      exact ⟨k, v, AMap.get?_set_self ..⟩
    · cases hm : m.get? a with
      | none => rw [hm] at hz; cases hz
      | some w =>
        rw [hm] at hz
        exact (h a w hm).2 i z hz
  · exact h x y hx

theorem slotBefore_eq (m : StorageChanges) (a : Bytes) (i : Nat) (k : Bytes) : slotBefore m a i k = MemoryBuffer.nestedGet? m a i k := by
  unfold slotBefore MemoryBuffer.nestedGet?
  cases m.get? a with
  | none => rfl
  | some x =>
    dsimp only [Option.bind_some]
    cases x.get? i <;> rfl

theorem apply_noEmpty {b b' : Db.Buffer} {c : BufferCall} (h : b.apply c = .ok b')
    (hb : ∀ n m, b.storageChanges.get? n = some m → NoEmptyParts m) : ∀ n m, b'.storageChanges.get? n = some m → NoEmptyParts m := by
  cases c with
  | beginBlock n =>
    cases Outcome.ok.inj h
    exact hb
  | updateAccount a i c =>
    obtain ⟨b2, h1, _, _, _, _, _, h2, _⟩ := Db.Buffer.updateAccount_spec b a i c
    have h : b.updateAccount a i c = .ok b' := h
    rw [h] at h1
    cases Outcome.ok.inj h1
    rw [h2]
    exact hb
  | updateAccountCode a n k code =>
    cases Outcome.ok.inj h
    exact hb
  | updateStorage a n k i c =>
    cases Outcome.ok.inj h
    unfold Db.Buffer.updateStorage
    split
    · exact hb
    · intro p m hm
      simp only [AMap.get?_set] at hm
      split at hm
      · cases Option.some.inj hm
        refine noEmpty_nestedSet ?_ _ _ _ _
        cases hx : b.storageChanges.get? b.blockNumber with
        | none => exact noEmpty_nil
        | some m => exact hb _ _ hx
      · exact hb p m hm

theorem applyAll_noEmpty : ∀ (calls : List BufferCall) {b b' : Db.Buffer}, b.applyAll calls = .ok b' →
    (∀ n m, b.storageChanges.get? n = some m → NoEmptyParts m) → ∀ n m, b'.storageChanges.get? n = some m → NoEmptyParts m
  | [], b, b', h, hb => by
    cases Outcome.ok.inj h
    exact hb
  | c :: calls, b, b', h, hb => by
    unfold Db.Buffer.applyAll at h
    rw [List.foldlM_cons] at h
    obtain ⟨b1, h1, h2⟩ := Outcome.bind_eq_ok.mp h
    exact applyAll_noEmpty calls h2 (apply_noEmpty h1 hb)

theorem apply_someAccount {b b' : Db.Buffer} {c : BufferCall} (h : b.apply c = .ok b')
    (hb : ∀ n m, b.accountChanges.get? n = some m → ∃ a v, m.get? a = some v) :
    ∀ n m, b'.accountChanges.get? n = some m → ∃ a v, m.get? a = some v := by
  cases c with
  | beginBlock n =>
    cases Outcome.ok.inj h
    exact hb
  | updateAccount a i c =>
    obtain ⟨b2, h1, _, _, _, _, _, _, _, _, h5⟩ := Db.Buffer.updateAccount_spec b a i c
    have h : b.updateAccount a i c = .ok b' := h
    rw [h] at h1
    cases Outcome.ok.inj h1
    rw [h5]
    split
    · exact hb
    · intro n m hm
      rw [AMap.get?_set] at hm
      split at hm
      · cases Option.some.inj hm
        exact ⟨a, _, AMap.get?_set_self ..⟩
      · exact hb n m hm
  | updateAccountCode a n k code =>
    cases Outcome.ok.inj h
    exact hb
  | updateStorage a n k i c =>
    cases Outcome.ok.inj h
    unfold Db.Buffer.updateStorage
    split <;> exact hb

theorem applyAll_someAccount : ∀ (calls : List BufferCall) {b b' : Db.Buffer}, b.applyAll calls = .ok b' →
    (∀ n m, b.accountChanges.get? n = some m → ∃ a v, m.get? a = some v) →
    ∀ n m, b'.accountChanges.get? n = some m → ∃ a v, m.get? a = some v
  | [], b, b', h, hb => by
    cases Outcome.ok.inj h
    exact hb
  | c :: calls, b, b', h, hb => by
    unfold Db.Buffer.applyAll at h
    rw [List.foldlM_cons] at h
    obtain ⟨b1, h1, h2⟩ := Outcome.bind_eq_ok.mp h
    exact applyAll_someAccount calls h2 (apply_someAccount h1 hb)

theorem collectAccount_wf : ∀ (t : Table) {m m' : AMap Bytes Bytes}, collectAccountChanges m t = .ok m' →
    AMap.WF m → (∀ a ∈ m.keys, a.length = 20) → AMap.WF m' ∧ ∀ a ∈ m'.keys, a.length = 20
  | [], m, m', h, h1, h2 => by
    cases Outcome.ok.inj h
    exact ⟨h1, h2⟩
  | e :: t, m, m', h, h1, h2 => by
    unfold collectAccountChanges at h
    split at h
    · cases h
    · rename_i hl
      refine collectAccount_wf t h (AMap.WF_set h1 ..) fun a ha => ?_
      rcases AMap.mem_keys_set.mp ha with rfl | ha
      · rw [List.length_take]; omega
      · exact h2 a ha

theorem collectStorage_wf (p : Bytes) : ∀ (t : Table) {m m' : StorageChanges}, collectStorageChanges p m t = .ok m' →
    NoEmptyParts m → (∀ a i k v, MemoryBuffer.nestedGet? m a i k = some v → a.length = 20 ∧ i < 2 ^ 64 ∧ k.length = 32) →
    NoEmptyParts m' ∧ ∀ a i k v, MemoryBuffer.nestedGet? m' a i k = some v → a.length = 20 ∧ i < 2 ^ 64 ∧ k.length = 32
  | [], m, m', h, h1, h2 => by
    cases Outcome.ok.inj h
    exact ⟨h1, h2⟩
  | e :: t, m, m', h, h1, h2 => by
    unfold collectStorageChanges at h
    split at h
    · cases Outcome.ok.inj h
      exact ⟨h1, h2⟩
    · dsimp only at h
      split at h
      · cases h
      · rename_i hk
        split at h
        · cases h
        · rename_i hl
          refine collectStorage_wf p t h (noEmpty_nestedSet h1 _ _ _ _) fun a i k v hv => ?_
          rw [MemoryBuffer.nestedGet?_nestedSet] at hv
          split at hv
          · rename_i he
            obtain ⟨rfl, rfl, rfl⟩ := he
            have hk : (List.drop p.length e.1).length = 28 := by omega
            refine ⟨by rw [List.length_take, hk]; rfl, ?_, by rw [List.length_take]; omega⟩
            have := beToNat_lt (List.drop 20 (List.drop p.length e.1))
            rw [List.length_drop, hk] at this
            exact this
          · exact h2 a i k v hv

end Silkworm.Tools
