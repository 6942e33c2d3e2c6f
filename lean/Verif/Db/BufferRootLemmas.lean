import Verif.Db.BufferRoot
import Verif.Db.BufferInvariant
import Verif.Trie.StateRootLemmas

/-!
# Lemmas about the roots computed by a buffer
-/

namespace Silkworm.Db.Buffer

open Silkworm.Rlp Silkworm.Trie
open Silkworm.Spec (storageRoot stateRoot trieRoot accountItem rlp fromBe PrefixFree)

/-! ## The same root in memory -/

/-- The accounts that are not deleted. -/
def presentAccounts (es : List (Bytes × Option Account)) : List (Bytes × Account) :=
  es.filterMap fun e => e.2.map fun x => (e.1, x)

/-- The buffer in memory with the same accounts and slots. -/
def toMemory (b : Buffer) : MemoryBuffer := { accounts := presentAccounts b.accounts, storage := b.storage }

theorem accountStorageRoot_eq (keccak : Bytes → Bytes) (b : Buffer) (a : Bytes) (i : Nat) :
    b.accountStorageRoot keccak a i = Trie.accountStorageRoot keccak b.toMemory a i := by
  unfold accountStorageRoot Trie.accountStorageRoot
  have hs : storageOf b.toMemory a i = match b.storage.get? a with | none => [] | some m1 => (m1.get? i).getD [] := rfl
  rw [hs]
  cases b.storage.get? a with
  | none => rfl
  | some m =>
    dsimp only
    cases m.get? i <;> rfl

theorem accountEntries_eq (keccak : Bytes → Bytes) (b : Buffer) (es : List (Bytes × Option Account)) :
    accountEntries keccak b es = Trie.accountEntries keccak b.toMemory (presentAccounts es) := by
  induction es with
  | nil => rfl
  | cons e es ih =>
    obtain ⟨a, x⟩ := e
    cases x with
    | none =>
      unfold accountEntries
      exact ih
    | some x =>
      show accountEntries keccak b ((a, some x) :: es) = Trie.accountEntries keccak b.toMemory ((a, x) :: presentAccounts es)
      unfold accountEntries Trie.accountEntries
      rw [ih, accountStorageRoot_eq]

theorem stateRootHash_eq (keccak : Bytes → Bytes) (b : Buffer) :
    b.stateRootHash keccak = Trie.stateRootHash keccak b.toMemory := by
  unfold stateRootHash Trie.stateRootHash
  rw [accountEntries_eq]
  show _ = if presentAccounts b.accounts = [] then _ else (Trie.accountEntries keccak b.toMemory (presentAccounts b.accounts)).bind _
  by_cases h : b.accounts = []
  · rw [if_pos h, h]
    rfl
  · rw [if_neg h]
    by_cases h2 : presentAccounts b.accounts = []
    · rw [if_pos h2, h2]
      rfl
    · rw [if_neg h2]

/-! ## One entry per account -/

theorem updateAccount_accounts {b b' : Buffer} {a : Bytes} {i c : Option Account} (h : b.updateAccount a i c = .ok b') :
    b'.accounts = b.accounts ∨ b'.accounts = b.accounts.set a c := by
  unfold updateAccount at h
  split at h
  · rw [← Outcome.ok.inj h]; exact .inl rfl
  · dsimp only at h
    split at h
    · rw [← Outcome.ok.inj h]; exact .inl rfl
    · right
      unfold noteIncarnation at h
      split at h
      · rw [← Outcome.ok.inj h]; rfl
      · split at h
        · cases h
        · split at h
          · rw [← Outcome.ok.inj h]; rfl
          · rw [← Outcome.ok.inj h]; rfl

theorem apply_accounts {b b' : Buffer} {c : BufferCall} (h : b.apply c = .ok b') (hw : AMap.WF b.accounts) :
    AMap.WF b'.accounts := by
  cases c with
  | beginBlock n => rw [← Outcome.ok.inj h]; exact hw
  | updateAccount a i c =>
    rcases updateAccount_accounts h with h | h
    · rw [h]; exact hw
    · rw [h]; exact AMap.WF_set hw _ _
  | updateAccountCode a n x code => rw [← Outcome.ok.inj h]; exact hw
  | updateStorage a n k i c =>
    rw [← Outcome.ok.inj h]
    unfold updateStorage
    split
    · exact hw
    · exact hw

theorem applyAll_accounts {calls : List BufferCall} {b b' : Buffer} (h : b.applyAll calls = .ok b') (hw : AMap.WF b.accounts) :
    AMap.WF b'.accounts := by
  induction calls generalizing b with
  | nil => rw [← Outcome.ok.inj h]; exact hw
  | cons c calls ih =>
    unfold applyAll at h
    obtain ⟨b1, h1, h2⟩ := Outcome.bind_eq_ok.mp h
    exact ih h2 (apply_accounts h1 hw)

theorem mem_presentAccounts {es : List (Bytes × Option Account)} {a : Bytes} {x : Account} :
    (a, x) ∈ presentAccounts es ↔ (a, some x) ∈ es := by
  unfold presentAccounts
  rw [List.mem_filterMap]
  constructor
  · rintro ⟨e, he, h⟩
    obtain ⟨y, hy, h⟩ := Option.map_eq_some_iff.mp h
    obtain ⟨h1, h2⟩ := Prod.mk.inj h
    obtain ⟨e1, e2⟩ := e
    dsimp only at hy h1
    rw [hy, h1, h2] at he
    exact he
  · intro h
    exact ⟨_, h, rfl⟩

theorem presentAccounts_wf {es : AMap Bytes (Option Account)} (h : AMap.WF es) : AMap.WF (presentAccounts es : AMap Bytes Account) := by
  unfold AMap.WF AMap.keys at h ⊢
  induction es with
  | nil => exact List.nodup_nil
  | cons e es ih =>
    obtain ⟨h1, h2⟩ := List.nodup_cons.mp h
    obtain ⟨a, x⟩ := e
    cases x with
    | none => exact ih h2
    | some x =>
      show ((a, x) :: presentAccounts es |>.map (·.1)).Nodup
      rw [List.map_cons, List.nodup_cons]
      refine ⟨fun hm => h1 ?_, ih h2⟩
      obtain ⟨f, hf, hfa⟩ := List.mem_map.mp hm
      obtain ⟨f1, f2⟩ := f
      exact List.mem_map.mpr ⟨(f1, some f2), mem_presentAccounts.mp hf, hfa⟩

/-! ## Storage in any order -/

/-- Two storages with one entry per location, that agree in all values, have the same root. -/
theorem storageRoot_congr {keccak : Bytes → Bytes} (hk : ∀ x, (keccak x).length = 32) {s t : AMap Bytes Bytes}
    (hs : AMap.WF s) (ht : AMap.WF t) (hn : Trie.NoCollision keccak s)
    (hiff : ∀ l v, fromBe v ≠ 0 → ((l, v) ∈ s ↔ (l, v) ∈ t)) : storageRoot keccak s = storageRoot keccak t := by
  unfold storageRoot
  have nd : ∀ {m : AMap Bytes Bytes}, AMap.WF m → m.Nodup := by
    intro m h
    exact (List.pairwise_map.mp h).imp fun hab h => hab (by rw [h])
  have hp : (s.filter fun e => fromBe e.2 ≠ 0).Perm (t.filter fun e => fromBe e.2 ≠ 0) := by
    refine (List.perm_ext_iff_of_nodup ((nd hs).filter _) ((nd ht).filter _)).mpr ?_
    rintro ⟨l, v⟩
    rw [List.mem_filter, List.mem_filter]
    constructor
    · rintro ⟨h1, h2⟩
      exact ⟨(hiff l v (by simpa using h2)).mp h1, h2⟩
    · rintro ⟨h1, h2⟩
      exact ⟨(hiff l v (by simpa using h2)).mpr h1, h2⟩
  refine trieRoot_perm keccak (hp.map _) ?_
  apply prefixFree_of_length
  · intro e he
    obtain ⟨f, _, rfl⟩ := List.mem_map.mp he
    exact hk _
  · rw [List.pairwise_map]
    have hw' : s.Pairwise (fun a b => a.1 ≠ b.1) := List.pairwise_map.mp hs
    refine (hw'.filter _).imp_of_mem ?_
    intro a b ha hb hab h
    exact hab (hn _ (List.mem_map.mpr ⟨a, (List.mem_filter.mp ha).1, rfl⟩) _
      (List.mem_map.mpr ⟨b, (List.mem_filter.mp hb).1, rfl⟩) h)

end Silkworm.Db.Buffer
