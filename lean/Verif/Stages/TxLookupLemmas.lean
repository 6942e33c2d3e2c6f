import Verif.Stages.Lemmas
import Verif.Stages.TxLookup

/-!
# Lemmas about the transaction lookup stage
-/

namespace Silkworm.Stages

open Silkworm.Db Silkworm.Etl Silkworm.Spec

theorem compact_spec {b : Bytes} (h : beToNat b ≠ 0) : beToNat (compact b) = beToNat b ∧ (compact b).head? ≠ some 0 := by
  unfold compact
  have key : beToNat (b.dropWhile (· == 0)) = beToNat b ∧ (b.dropWhile (· == 0)).head? ≠ some 0 := by
    clear h
    induction b with
    | nil => exact ⟨rfl, by simp⟩
    | cons x b ih =>
      by_cases hx : x = 0
      · subst hx
        rw [List.dropWhile_cons_of_pos (by simp)]
        refine ⟨ih.1.trans ?_, ih.2⟩
        simp [beToNat_cons]
      · rw [List.dropWhile_cons_of_neg (by simp [hx])]
        exact ⟨rfl, by simp [hx]⟩
  cases hd : b.dropWhile (· == 0) with
  | nil => rw [hd] at key; exact absurd key.1.symm h
  | cons x l => rw [hd] at key; exact key

theorem lookupTransactions_take (keccak : Bytes → Bytes) (l : Bytes) : ∀ (n : Nat) (t : Table),
    lookupTransactions keccak l n t = (t.take n).map fun e => ⟨keccak e.2, l⟩
  | 0, _ => by simp [lookupTransactions]
  | n + 1, [] => by simp [lookupTransactions]
  | n + 1, e :: t => by simp [lookupTransactions, lookupTransactions_take keccak l n t]

/-- Consecutive entries of a table that has nothing before the first. -/
theorem take_consecutive : ∀ (n : Nat) (t : Table) (base : Nat) (raw : Nat → Bytes), Ordered t → (∀ e ∈ t, e.1.length = 8) →
    (∀ e ∈ t, base ≤ beToNat e.1) → base + n ≤ 2 ^ 64 → (∀ j, j < n → (beFixed 8 (base + j), raw (base + j)) ∈ t) →
    t.take n = (List.range' base n).map fun i => (beFixed 8 i, raw i)
  | 0, t, base, raw, _, _, _, _, _ => by simp
  | n + 1, t, base, raw, ho, h8, hb, hr, hm => by
    have h0 := hm 0 (by omega)
    have key : ∀ j, j < n + 1 → beToNat (beFixed 8 (base + j)) = base + j := fun j hj =>
      beToNat_beFixed (by have : (256 : Nat) ^ 8 = 2 ^ 64 := by decide
                          omega)
    have k0 := key 0 (by omega)
    rw [Nat.add_zero] at k0 h0
    cases t with
    | nil => cases h0
    | cons e t =>
      obtain ⟨o1, o2⟩ := ordered_cons.mp ho
      have he : e = (beFixed 8 base, raw base) := by
        rcases List.mem_cons.mp h0 with h | h
        · exact h.symm
        · exfalso
          have h1 := o1 _ h
          rw [key_lt (h8 e List.mem_cons_self) (beFixed_length _ _), k0] at h1
          have := hb e List.mem_cons_self
          omega
      subst he
      rw [List.take_succ_cons, List.range'_succ, List.map_cons,
        take_consecutive n t (base + 1) raw o2 (fun e he => h8 e (List.mem_cons_of_mem _ he)) (fun e he => ?_) (by omega)
          (fun j hj => ?_)]
      · have h1 := o1 e he
        rw [key_lt (beFixed_length _ _) (h8 e (List.mem_cons_of_mem _ he)), k0] at h1
        omega
      · have h1 := hm (j + 1) (by omega)
        have k1 := key (j + 1) (by omega)
        rw [show base + (j + 1) = base + 1 + j by omega] at h1 k1
        rcases List.mem_cons.mp h1 with h | h
        · exfalso
          have h2 := congrArg (fun p : Bytes × Bytes => beToNat p.1) h
          dsimp only at h2
          rw [k1, k0] at h2
          omega
        · exact h

/-- The entries collected for a block. -/
theorem lookup_block {t : Table} (ho : Ordered t) (h8 : ∀ e ∈ t, e.1.length = 8) (keccak : Bytes → Bytes) (l : Bytes)
    (base n : Nat) (raw : Nat → Bytes) (hn : n ≠ 0) (hr : base + n < 2 ^ 64)
    (hm : ∀ j, j < n → (beFixed 8 (base + j), raw (base + j)) ∈ t) :
    lookupTransactions keccak l n (fromKey t (beFixed 8 base)) = (List.range' base n).map fun i => ⟨keccak (raw i), l⟩ := by
  rw [lookupTransactions_take]
  have h0 := hm 0 (by omega)
  rw [Nat.add_zero] at h0
  obtain ⟨d1, d2, d3, d4⟩ := dropWhile_ordered ho h0
  have key : ∀ j, j < n → beToNat (beFixed 8 (base + j)) = base + j := fun j hj =>
    beToNat_beFixed (by have : (256 : Nat) ^ 8 = 2 ^ 64 := by decide
                        omega)
  have k0 := key 0 (by omega)
  rw [Nat.add_zero] at k0
  rw [fromKey, take_consecutive n _ base raw d1 (fun e he => h8 e (d2 e he)) (fun e he => ?_) (by omega)
    (fun j hj => d4 _ (hm j hj) ?_), List.map_map]
  · rfl
  · rcases d3 e he with h | h
    · rw [h, k0]
    · rw [key_lt (beFixed_length _ _) (h8 e (d2 e he)), k0] at h
      omega
  · rw [← List.not_lt]
    dsimp only
    rw [key_lt (beFixed_length _ _) (beFixed_length _ _), key j hj, k0]
    omega

/-- What the loop over the bodies collects. -/
theorem lookupBodies_spec (keccak : Bytes → Bytes) {ethTx : Table} (raw : Nat → Bytes) (ho : Ordered ethTx)
    (h8 : ∀ e ∈ ethTx, e.1.length = 8) :
    ∀ (t : Table) (number : Nat), (∀ e ∈ t, e.1.length = 8 ∧ ∃ b : BlockBodyForStorage, b.WF ∧ e.2 = rlp (storedBodyItem b) ∧
      b.baseTxnId + b.txnCount < 2 ^ 64 ∧ ∀ j, j < b.txnCount → (beFixed 8 (b.baseTxnId + j), raw (b.baseTxnId + j)) ∈ ethTx) →
    ∃ es, lookupBodies keccak ethTx number t = .ok (es, ((t.getLast?.map fun e => beToNat e.1)).getD number) ∧
      ∀ x, x ∈ es ↔ ∃ e ∈ t, ∃ b : BlockBodyForStorage, b.WF ∧ e.2 = rlp (storedBodyItem b) ∧
        ∃ j, j < b.txnCount ∧ x = ⟨keccak (raw (b.baseTxnId + j)), compact e.1⟩
  | [], number, _ => ⟨[], rfl, fun x => by simp⟩
  | e :: t, number, h => by
    obtain ⟨he8, b, hw, hb, hr, hm⟩ := h e List.mem_cons_self
    obtain ⟨es, hes, hmem⟩ := lookupBodies_spec keccak raw ho h8 t (beToNat e.1) fun f hf => h f (List.mem_cons_of_mem _ hf)
    have hd := decStoredBody hw []
    rw [List.append_nil, ← hb] at hd
    have htake : e.1.take 8 = e.1 := List.take_of_length_le (by omega)
    have hload : loadBig64 e.1 = .ok (beToNat e.1) := by
      unfold loadBig64
      rw [if_pos (by omega), htake]
    have huniq : ∀ b' : BlockBodyForStorage, b'.WF → e.2 = rlp (storedBodyItem b') → b' = b := by
      intro b' hw' hb'
      have hd' := decStoredBody hw' []
      rw [List.append_nil, ← hb', hd] at hd'
      exact (Prod.mk.inj (Outcome.ok.inj hd')).1.symm
    refine ⟨(if b.txnCount = 0 then []
      else lookupTransactions keccak (compact (e.1.take 8)) b.txnCount (fromKey ethTx (beFixed 8 b.baseTxnId))) ++ es, ?_, ?_⟩
    · unfold lookupBodies
      simp only [hd, liftDec, liftDb, Outcome.ok_bind, hload, hes]
      congr 2
      cases t with
      | nil => rfl
      | cons f t => rw [List.getLast?_cons_cons]; cases hl : (f :: t).getLast? with
        | none => simp at hl
        | some l => rfl
    · intro x
      rw [List.mem_append, hmem]
      have hblock : x ∈ (if b.txnCount = 0 then []
          else lookupTransactions keccak (compact (e.1.take 8)) b.txnCount (fromKey ethTx (beFixed 8 b.baseTxnId))) ↔
          ∃ j, j < b.txnCount ∧ x = ⟨keccak (raw (b.baseTxnId + j)), compact e.1⟩ := by
        by_cases h0 : b.txnCount = 0
        · rw [if_pos h0, h0]; simp
        · rw [if_neg h0, lookup_block ho h8 keccak _ b.baseTxnId b.txnCount raw h0 hr hm, htake, List.mem_map]
          constructor
          · rintro ⟨i, hi, hx⟩
            obtain ⟨j, hj, rfl⟩ := List.mem_range'.mp hi
            exact ⟨j, hj, by rw [← hx, Nat.one_mul]⟩
          · rintro ⟨j, hj, hx⟩
            exact ⟨b.baseTxnId + j, List.mem_range'.mpr ⟨j, hj, by omega⟩, hx.symm⟩
      rw [hblock]
      constructor
      · rintro (⟨j, hj, hx⟩ | ⟨f, hf, r⟩)
        · exact ⟨e, List.mem_cons_self, b, hw, hb, j, hj, hx⟩
        · exact ⟨f, List.mem_cons_of_mem _ hf, r⟩
      · rintro ⟨f, hf, b', hw', hb', r⟩
        rcases List.mem_cons.mp hf with h | h
        · subst h
          rw [huniq b' hw' hb'] at r
          exact Or.inl r
        · exact Or.inr ⟨f, h, b', hw', hb', r⟩

end Silkworm.Stages
