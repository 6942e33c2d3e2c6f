import Verif.Db.FlushLemmas

/-!
# The buffer of the database: calls keep it well-formed
-/

namespace Silkworm.Db.Buffer

open Silkworm.Spec State

theorem wf_empty : WF {} where
  accountKeys _ h := by cases h
  accounts _ _ h := by cases h
  storage := MemoryBuffer.NWF_nil
  storageKeys _ h := by cases h
  incarnationKeys _ _ h := by cases h
  values _ _ _ _ h := by cases h
  incarnations := AMap.WF_nil
  incarnationValues _ _ h := by cases h
  code := AMap.WF_nil
  codeHashes := AMap.WF_nil

/-- What `update_account` does to the fields that are read. -/
theorem updateAccount_spec (b : Buffer) (a : Bytes) (i c : Option Account) :
    ∃ b', b.updateAccount a i c = .ok b' ∧
      b'.accounts = (if c = i then b.accounts else b.accounts.set a c) ∧
      b'.incarnations = (match c, i with
        | none, some x => if x.incarnation ≠ 0 then b.incarnations.set a x.incarnation else b.incarnations
        | _, _ => b.incarnations) ∧
      b'.storage = b.storage ∧ b'.hashToCode = b.hashToCode ∧ b'.storagePrefixToCodeHash = b.storagePrefixToCodeHash ∧
      b'.storageChanges = b.storageChanges ∧ b'.blockNumber = b.blockNumber ∧ b'.changedStorage = b.changedStorage ∧
      b'.accountChanges = (if c = i ∧ c.isSome ∧ !b.changedStorage.contains a then b.accountChanges
        else b.accountChanges.set b.blockNumber
          (((b.accountChanges.get? b.blockNumber).getD []).set a (encodedInitial i c))) := by
  unfold updateAccount
  by_cases h1 : c = i ∧ c.isSome ∧ !b.changedStorage.contains a
  · rw [if_pos h1]
    refine ⟨b, rfl, ?_, ?_, rfl, rfl, rfl, rfl, rfl, rfl, ?_⟩
    · rw [if_pos h1.1]
    · obtain ⟨_, h2, _⟩ := h1
      cases c with
      | none => cases h2
      | some c => rfl
    · rw [if_pos h1]
  · rw [if_neg h1]
    simp only
    by_cases h2 : c = i
    · rw [if_pos h2]
      refine ⟨_, rfl, ?_, ?_, rfl, rfl, rfl, rfl, rfl, rfl, ?_⟩
      · rw [if_pos h2]; rfl
      · subst h2; cases c <;> rfl
      · rw [if_neg h1]; rfl
    · rw [if_neg h2]
      unfold noteIncarnation
      cases c with
      | some c => exact ⟨_, rfl, by rw [if_neg h2]; rfl, rfl, rfl, rfl, rfl, rfl, rfl, rfl, by rw [if_neg h1]; rfl⟩
      | none =>
        cases i with
        | none => exact absurd rfl h2
        | some x =>
          simp only
          by_cases hx : x.incarnation ≠ 0
          · rw [if_pos hx]
            exact ⟨_, rfl, by rw [if_neg h2]; rfl, by rw [if_pos hx]; rfl, rfl, rfl, rfl, rfl, rfl, rfl,
              by rw [if_neg h1]; rfl⟩
          · rw [if_neg hx]
            exact ⟨_, rfl, by rw [if_neg h2]; rfl, by rw [if_neg hx]; rfl, rfl, rfl, rfl, rfl, rfl, rfl,
              by rw [if_neg h1]; rfl⟩

theorem nestedSet_keys {m : AMap Bytes (AMap Nat (AMap Bytes Bytes))} {a : Bytes} {n : Nat} {k v x : Bytes}
    (h : x ∈ (MemoryBuffer.nestedSet m a n k v).keys) : x = a ∨ x ∈ m.keys := by
  unfold MemoryBuffer.nestedSet at h
  rcases List.mem_cons.mp h with h | h
  · exact Or.inl h
  · exact Or.inr (AMap.mem_keys_erase.mp h).1

theorem nestedSet_inner {m : AMap Bytes (AMap Nat (AMap Bytes Bytes))} {a : Bytes} {n : Nat} {k v x : Bytes}
    {m1 : AMap Nat (AMap Bytes Bytes)} (h : (MemoryBuffer.nestedSet m a n k v).get? x = some m1) {p : Nat} (hp : p ∈ m1.keys) :
    p = n ∨ ∃ m1', m.get? x = some m1' ∧ p ∈ m1'.keys := by
  unfold MemoryBuffer.nestedSet at h
  simp only [AMap.get?_set] at h
  by_cases hx : x = a
  · rw [if_pos hx] at h
    cases h
    rcases List.mem_cons.mp hp with h | h
    · exact Or.inl h
    · right
      have := (AMap.mem_keys_erase.mp h).1
      subst hx
      cases hm : m.get? x with
      | none => rw [hm] at this; cases this
      | some m1' => exact ⟨m1', rfl, by rw [hm] at this; exact this⟩
  · rw [if_neg hx] at h
    exact Or.inr ⟨m1, h, hp⟩

/-- Calls never fail, and keep the buffer well-formed. -/
theorem apply_spec (b : Buffer) (c : BufferCall) : ∃ b', b.apply c = .ok b' ∧ (b.WF → CallFits c → b'.WF) := by
  cases c with
  | beginBlock n =>
    exact ⟨_, rfl, fun h _ => ⟨h.accountKeys, h.accounts, h.storage, h.storageKeys, h.incarnationKeys, h.values,
      h.incarnations, h.incarnationValues, h.code, h.codeHashes⟩⟩
  | updateAccount a i c =>
    obtain ⟨b', h1, h2, h3, h4, h5, h6, _⟩ := updateAccount_spec b a i c
    refine ⟨b', h1, ?_⟩
    rintro hb ⟨ha, hi, hc⟩
    refine ⟨?_, ?_, by rw [h4]; exact hb.storage, by rw [h4]; exact hb.storageKeys, by rw [h4]; exact hb.incarnationKeys,
      by rw [h4]; exact hb.values, ?_, ?_, by rw [h5]; exact hb.code, by rw [h6]; exact hb.codeHashes⟩
    · rw [h2]
      intro x hx
      split at hx
      · exact hb.accountKeys x hx
      · rcases List.mem_cons.mp hx with h | h
        · rw [h]; exact ha
        · exact hb.accountKeys x (AMap.mem_keys_erase.mp h).1
    · rw [h2]
      intro x y hy
      split at hy
      · exact hb.accounts x y hy
      · rw [AMap.get?_set] at hy
        split at hy
        · exact hc y (Option.some.inj hy)
        · exact hb.accounts x y hy
    · rw [h3]
      cases c with
      | some c => exact hb.incarnations
      | none =>
        cases i with
        | none => exact hb.incarnations
        | some x =>
          simp only
          split
          · exact AMap.WF_set hb.incarnations ..
          · exact hb.incarnations
    · rw [h3]
      cases c with
      | some c => exact hb.incarnationValues
      | none =>
        cases i with
        | none => exact hb.incarnationValues
        | some x =>
          simp only
          split
          · intro y n hn
            rw [AMap.get?_set] at hn
            split at hn
            · rw [← Option.some.inj hn]; exact (hi x rfl).incarnation
            · exact hb.incarnationValues y n hn
          · exact hb.incarnationValues
  | updateAccountCode a n h code =>
    exact ⟨_, rfl, fun hb _ => ⟨hb.accountKeys, hb.accounts, hb.storage, hb.storageKeys, hb.incarnationKeys, hb.values,
      hb.incarnations, hb.incarnationValues, AMap.WF_set hb.code .., AMap.WF_set hb.codeHashes ..⟩⟩
  | updateStorage a n k i c =>
    refine ⟨_, rfl, ?_⟩
    rintro hb ⟨ha, hn, hk, hi, hc⟩
    unfold updateStorage
    split
    · exact hb
    · refine ⟨hb.accountKeys, hb.accounts, MemoryBuffer.NWF_nestedSet hb.storage .., ?_, ?_, ?_, hb.incarnations,
        hb.incarnationValues, hb.code, hb.codeHashes⟩
      · intro x hx
        rcases nestedSet_keys hx with h | h
        · rw [h]; exact ha
        · exact hb.storageKeys x h
      · intro x m1 hm p hp
        rcases nestedSet_inner hm hp with h | ⟨m1', h, hp'⟩
        · rw [h]; exact hn
        · exact hb.incarnationKeys x m1' h p hp'
      · intro x p j v hv
        simp only [MemoryBuffer.nestedGet?_nestedSet] at hv
        split at hv
        · rename_i he
          rw [he.2.2, ← Option.some.inj hv]; exact ⟨hk, hc⟩
        · exact hb.values x p j v hv

theorem applyAll_spec (calls : List BufferCall) (b : Buffer) :
    ∃ b', b.applyAll calls = .ok b' ∧ (b.WF → (∀ c ∈ calls, CallFits c) → b'.WF) := by
  induction calls generalizing b with
  | nil => exact ⟨b, rfl, fun h _ => h⟩
  | cons c calls ih =>
    obtain ⟨b1, h1, h2⟩ := apply_spec b c
    obtain ⟨b2, h3, h4⟩ := ih b1
    refine ⟨b2, ?_, fun hb hc => h4 (h2 hb (hc c (List.mem_cons_self ..))) fun x hx => hc x (List.mem_cons_of_mem _ hx)⟩
    unfold applyAll at *
    rw [List.foldlM_cons, h1]
    exact h3

end Silkworm.Db.Buffer
