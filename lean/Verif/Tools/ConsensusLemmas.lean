import Mathlib.Data.List.Perm.Subperm
import Verif.Spec.Consensus
import Verif.State.BufferLemmas
import Verif.Db.GenesisLemmas

/-!
# Lemmas about cmd/consensus.cpp
-/

namespace Silkworm.Tools

open Silkworm.Rlp Silkworm.Spec State

theorem bindOk {ε α β : Type} (a : α) (f : α → Outcome ε β) : (Outcome.ok a : Outcome ε α).bind f = f a := rfl

theorem hexValue_ok {text b : Bytes} (h : HexBytes text b) : hexValue text = .ok b := by
  unfold hexValue
  rw [(Genesis.hexBytes_iff text b).mp h]

theorem hexNumberOf_ok {k : Nat} {text : Bytes} {n : Nat} (h : HexUint k text n) : hexNumberOf k text = .ok n := by
  obtain ⟨b, h1, h2, h3⟩ := h
  unfold hexNumberOf
  rw [hexValue_ok h1]
  show (match readUint k b true with | .ok n => Outcome.ok n | .err e => .err (TestError.rlp e) | .ub => .ub) = _
  unfold readUint
  rw [if_neg (by omega)]
  rw [Trie.fromBe_eq] at h3
  cases b with
  | nil => rw [← h3]; rfl
  | cons x xs =>
    dsimp only
    rw [if_neg (by rintro ⟨_, h⟩; cases h), beToNat_replicate_zero, h3]

theorem toArray_word {k : Nat} {text w : Bytes} (h : HexWord k text w) : ∃ b, HexBytes text b ∧ toArray k b = w ∧ w.length = k := by
  obtain ⟨b, h1, h2, h3⟩ := h
  refine ⟨b, h1, ?_, by rw [h3, List.length_append, List.length_replicate]; omega⟩
  unfold toArray
  rw [h3, Nat.min_eq_left h2]
  dsimp only
  rw [List.take_length]

/-! ## Storage -/

theorem readStorage_storageOf (b : MemoryBuffer) (a : Bytes) (i : Nat) (k : Bytes) :
    b.readStorage a i k = (AMap.get? (Trie.storageOf b a i) k).getD zero32 := by
  unfold MemoryBuffer.readStorage MemoryBuffer.nestedGet? Trie.storageOf
  cases b.storage.get? a with
  | none => rfl
  | some m =>
    dsimp only
    cases m.get? i with
    | none => rfl
    | some m2 => rfl

theorem storageSize_storageOf (b : MemoryBuffer) (a : Bytes) (i : Nat) : b.storageSize a i = (Trie.storageOf b a i).length := by
  unfold MemoryBuffer.storageSize Trie.storageOf
  cases b.storage.get? a with
  | none => rfl
  | some m =>
    dsimp only
    cases m.get? i with
    | none => rfl
    | some m2 => rfl

/-- The comparison of slots finds any difference. -/
theorem sameSlots_spec (b : MemoryBuffer) (a : Bytes) (i : Nat) :
    ∀ {t : List (Bytes × Bytes)} {w : List (Bytes × Bytes)},
      List.Forall₂ (fun (s : Bytes × Bytes) (w : Bytes × Bytes) => HexWord 32 s.1 w.1 ∧ HexWord 32 s.2 w.2) t w →
      ∃ r, sameSlots b a i t = .ok r ∧ (r = true ↔ ∀ e ∈ w, b.readStorage a i e.1 = e.2)
  | [], _, h => by
    cases h
    exact ⟨true, rfl, by simp⟩
  | s :: t, _, h => by
    cases h with
    | cons h1 h2 =>
      rename_i w ws
      obtain ⟨r, h3, h4⟩ := sameSlots_spec b a i h2
      obtain ⟨k, k1, k2, _⟩ := toArray_word h1.1
      obtain ⟨v, v1, v2, _⟩ := toArray_word h1.2
      unfold sameSlots
      rw [hexValue_ok k1, hexValue_ok v1]
      show ∃ r, (if b.readStorage a i (toBytes32 k) ≠ toBytes32 v then Outcome.ok false else sameSlots b a i t) = .ok r ∧ _
      rw [show toBytes32 k = w.1 from k2, show toBytes32 v = w.2 from v2]
      by_cases hv : b.readStorage a i w.1 = w.2
      · rw [if_neg (by simpa using hv)]
        refine ⟨r, h3, h4.trans ⟨fun h e he => ?_, fun h e he => h e (List.mem_cons_of_mem _ he)⟩⟩
        rcases List.mem_cons.mp he with rfl | he
        · exact hv
        · exact h e he
      · rw [if_pos hv]
        exact ⟨false, rfl, by simp, fun h => absurd (h w (List.mem_cons_self ..)) hv⟩

/-- A map has the entries of a list and as many: it has no others. -/
theorem keys_of_length {m w : List (Bytes × Bytes)} (hw : (w.map Prod.fst).Nodup)
    (hs : ∀ e ∈ w, e.1 ∈ AMap.keys m) (hl : m.length ≤ w.length) : ∀ k ∈ AMap.keys m, k ∈ w.map Prod.fst := by
  have hsub : List.Subperm (w.map Prod.fst) (AMap.keys m) := hw.subperm (by
    intro k hk
    obtain ⟨e, he, rfl⟩ := List.mem_map.mp hk
    exact hs e he)
  have hp := hsub.perm_of_length_le (by
    show (m.map Prod.fst).length ≤ _
    rw [List.length_map, List.length_map]
    exact hl)
  exact fun k hk => hp.mem_iff.mpr hk

/-- Both directions for the slots of one account. -/
theorem slots_iff {m w : List (Bytes × Bytes)} (hm : Trie.StorageOk m) (hw : (w.map Prod.fst).Nodup) (hz : ∀ e ∈ w, e.2 ≠ zero32) :
    (m.length = w.length ∧ ∀ e ∈ w, (AMap.get? m e.1).getD zero32 = e.2) ↔
      ∀ k, (∀ v, (k, v) ∈ w → (AMap.get? m k).getD zero32 = v) ∧ ((∀ v, (k, v) ∉ w) → (AMap.get? m k).getD zero32 = zero32) := by
  have hin : (∀ e ∈ w, (AMap.get? m e.1).getD zero32 = e.2) → ∀ e ∈ w, e.1 ∈ AMap.keys m := by
    intro h e he
    have h1 := h e he
    cases hg : AMap.get? m e.1 with
    | none => rw [hg] at h1; exact absurd h1.symm (hz e he)
    | some v => exact List.mem_map.mpr ⟨_, AMap.mem_of_get? hg, rfl⟩
  constructor
  · rintro ⟨hl, h⟩ k
    refine ⟨fun v hv => h _ hv, fun hk => ?_⟩
    cases hg : AMap.get? m k with
    | none => rfl
    | some v =>
      have := keys_of_length hw (hin h) (Nat.le_of_eq hl) k (List.mem_map.mpr ⟨_, AMap.mem_of_get? hg, rfl⟩)
      obtain ⟨e, he, rfl⟩ := List.mem_map.mp this
      exact absurd he (hk e.2)
  · intro h
    have h1 : ∀ e ∈ w, (AMap.get? m e.1).getD zero32 = e.2 := fun e he => (h e.1).1 e.2 he
    refine ⟨?_, h1⟩
    have h2 : ∀ k ∈ AMap.keys m, k ∈ w.map Prod.fst := by
      intro k hk
      by_contra hn
      obtain ⟨e, he, rfl⟩ := List.mem_map.mp hk
      have := (h e.1).2 (fun v hv => hn (List.mem_map.mpr ⟨_, hv, rfl⟩))
      rw [AMap.get?_of_mem hm.wf (show (e.1, e.2) ∈ m from he)] at this
      exact hm.nonzero e he this
    have g1 : List.Subperm (w.map Prod.fst) (AMap.keys m) := hw.subperm (by
      intro k hk
      obtain ⟨e, he, rfl⟩ := List.mem_map.mp hk
      exact hin h1 e he)
    have g2 : List.Subperm (AMap.keys m) (w.map Prod.fst) := List.Nodup.subperm hm.wf h2
    have := Nat.le_antisymm g2.length_le g1.length_le
    have e1 : (AMap.keys m).length = m.length := List.length_map ..
    rw [List.length_map, e1] at this
    exact this

/-! ## Accounts -/

/-- The comparison of an account finds any difference. -/
theorem sameAccount_spec {b : MemoryBuffer} (hb : Trie.BufferOk b) {t : TestAccount} {p : Preset} (h : Describes t p)
    (hk : (p.storage.map Prod.fst).Nodup) (hz : ∀ e ∈ p.storage, e.2 ≠ zero32) :
    ∃ r, sameAccount b t = .ok r ∧ (r = true ↔ HasPreset b p) := by
  obtain ⟨key, k1, k2, _⟩ := toArray_word h.address
  unfold sameAccount HasPreset
  rw [hexValue_ok k1]
  rw [bindOk]
  rw [show toAddress key = p.address from k2]
  cases ha : b.readAccount p.address with
  | none => exact ⟨false, rfl, by simp⟩
  | some a =>
    dsimp only
    rw [hexNumberOf_ok h.balance, hexNumberOf_ok h.nonce]
    rw [bindOk, bindOk]
    by_cases h1 : a.balance = p.balance
    · rw [if_neg (by simpa using h1)]
      by_cases h2 : a.nonce = p.nonce
      · rw [if_neg (by simpa using h2), (Genesis.hexBytes_iff _ _).mp h.code]
        by_cases h3 : b.readCode a.codeHash = p.code
        · rw [if_neg (by rw [h3]; simp), storageSize_storageOf, h.storage.length_eq]
          have key := slots_iff (Trie.storageOf_ok hb.storage p.address a.incarnation) hk hz
          obtain ⟨r, r1, r2⟩ := sameSlots_spec b p.address a.incarnation h.storage
          simp only [readStorage_storageOf] at r2
          by_cases h4 : (Trie.storageOf b p.address a.incarnation).length = p.storage.length
          · rw [if_neg (by simpa using h4)]
            refine ⟨r, r1, r2.trans ⟨fun g => ⟨a, rfl, h1, h2, h3, ?_⟩, ?_⟩⟩
            · simp only [readStorage_storageOf]
              exact key.mp ⟨h4, g⟩
            · rintro ⟨a', e, _, _, _, g⟩
              cases e
              simp only [readStorage_storageOf] at g
              exact (key.mpr g).2
          · rw [if_pos h4]
            refine ⟨false, rfl, by simp, ?_⟩
            rintro ⟨a', e, _, _, _, g⟩
            cases e
            simp only [readStorage_storageOf] at g
            exact absurd (key.mpr g).1 h4
        · rw [if_pos (by simpa using h3)]
          refine ⟨false, rfl, by simp, ?_⟩
          rintro ⟨a', e, _, _, g, _⟩
          cases e
          exact absurd g h3
      · rw [if_pos h2]
        refine ⟨false, rfl, by simp, ?_⟩
        rintro ⟨a', e, _, g, _⟩
        cases e
        exact absurd g h2
    · rw [if_pos h1]
      refine ⟨false, rfl, by simp, ?_⟩
      rintro ⟨a', e, g, _⟩
      cases e
      exact absurd g h1

theorem sameAccounts_spec {b : MemoryBuffer} (hb : Trie.BufferOk b) :
    ∀ {ts : List TestAccount} {ps : List Preset}, List.Forall₂ Describes ts ps → (∀ p ∈ ps, (p.storage.map Prod.fst).Nodup) →
      (∀ p ∈ ps, ∀ e ∈ p.storage, e.2 ≠ zero32) →
      ∃ r, sameAccounts b ts = .ok r ∧ (r = true ↔ ∀ p ∈ ps, HasPreset b p)
  | [], _, h, _, _ => by
    cases h
    exact ⟨true, rfl, by simp⟩
  | t :: ts, _, h, hk, hz => by
    cases h with
    | cons h1 h2 =>
      rename_i p ps
      obtain ⟨r, r1, r2⟩ := sameAccount_spec hb h1 (hk p (List.mem_cons_self ..)) (hz p (List.mem_cons_self ..))
      obtain ⟨s, s1, s2⟩ := sameAccounts_spec hb h2 (fun p hp => hk p (List.mem_cons_of_mem _ hp))
        (fun p hp => hz p (List.mem_cons_of_mem _ hp))
      unfold sameAccounts
      rw [r1]
      show ∃ x, (if r = true then sameAccounts b ts else Outcome.ok false) = .ok x ∧ _
      cases r with
      | true =>
        rw [if_pos rfl]
        refine ⟨s, s1, s2.trans ⟨fun g q hq => ?_, fun g q hq => g q (List.mem_cons_of_mem _ hq)⟩⟩
        rcases List.mem_cons.mp hq with rfl | hq
        · exact r2.mp rfl
        · exact g q hq
      | false => exact ⟨false, rfl, by simp, fun g => r2.mpr (g p (List.mem_cons_self ..))⟩

theorem hasPreset_key {b : MemoryBuffer} {p : Preset} (h : HasPreset b p) : p.address ∈ AMap.keys b.accounts := by
  obtain ⟨a, ha, _⟩ := h
  exact List.mem_map.mpr ⟨_, AMap.mem_of_get? ha, rfl⟩

/-- The comparison of states finds any difference. -/
theorem postCheck_spec {b : MemoryBuffer} (hb : Trie.BufferOk b) {ts : List TestAccount} {ps : List Preset}
    (h : List.Forall₂ Describes ts ps) (hn : (ps.map Preset.address).Nodup) (hk : ∀ p ∈ ps, (p.storage.map Prod.fst).Nodup)
    (hz : ∀ p ∈ ps, ∀ e ∈ p.storage, e.2 ≠ zero32) : ∃ r, postCheck b ts = .ok r ∧ (r = true ↔ SameAs b ps) := by
  obtain ⟨r, r1, r2⟩ := sameAccounts_spec hb h hk hz
  have hlen : (AMap.keys b.accounts).length = b.accounts.length := List.length_map ..
  unfold postCheck
  unfold MemoryBuffer.numberOfAccounts
  rw [h.length_eq]
  have hsub : (∀ p ∈ ps, HasPreset b p) → List.Subperm (ps.map Preset.address) (AMap.keys b.accounts) := by
    intro g
    refine hn.subperm ?_
    intro x hx
    obtain ⟨p, hp, rfl⟩ := List.mem_map.mp hx
    exact hasPreset_key (g p hp)
  by_cases hl : b.accounts.length = ps.length
  · rw [if_neg (by simpa using hl)]
    refine ⟨r, r1, r2.trans ⟨fun g => ⟨g, fun x hx => ?_⟩, fun g => g.accounts⟩⟩
    have hp := (hsub g).perm_of_length_le (by rw [hlen, List.length_map, hl])
    show AMap.get? b.accounts x = none
    rw [AMap.get?_eq_none_iff, ← hp.mem_iff]
    intro hm
    obtain ⟨p, hp, rfl⟩ := List.mem_map.mp hm
    exact hx p hp rfl
  · rw [if_pos hl]
    refine ⟨false, rfl, by simp, fun g => ?_⟩
    have g2 : List.Subperm (AMap.keys b.accounts) (ps.map Preset.address) := List.Nodup.subperm hb.keys (by
      intro x hx
      by_contra hc
      have h1 := g.others x (fun p hp e => hc (List.mem_map.mpr ⟨p, hp, e⟩))
      exact (AMap.get?_eq_none_iff.mp h1) hx)
    have := Nat.le_antisymm g2.length_le (hsub g.accounts).length_le
    rw [hlen, List.length_map] at this
    exact absurd this hl

/-! ## The state before a test -/

theorem readStorage_update (b : MemoryBuffer) (a : Bytes) (i : Nat) (k x v : Bytes) (c : Bytes) (n : Nat) (j : Bytes) :
    (b.updateStorage a i k x v).readStorage c n j = if c = a ∧ n = i ∧ j = k then v else b.readStorage c n j :=
  MemoryBuffer.nestedRead_storeValue b.storage a i k v c n j

/-- The slots of an account are stored. -/
theorem presetStorage_spec (a : Bytes) (i : Nat) :
    ∀ {t w : List (Bytes × Bytes)} (b : MemoryBuffer), Trie.BufferOk b →
      List.Forall₂ (fun (s : Bytes × Bytes) (w : Bytes × Bytes) => HexWord 32 s.1 w.1 ∧ HexWord 32 s.2 w.2) t w →
      (w.map Prod.fst).Nodup →
      ∃ b', presetStorage a i t b = .ok b' ∧ Trie.BufferOk b' ∧ b'.accounts = b.accounts ∧ b'.code = b.code ∧
        (∀ e ∈ w, b'.readStorage a i e.1 = e.2) ∧
        ∀ x n k, ¬ (x = a ∧ n = i ∧ ∃ v, (k, v) ∈ w) → b'.readStorage x n k = b.readStorage x n k
  | [], _, b, hb, h, _ => by
    cases h
    exact ⟨b, rfl, hb, rfl, rfl, (fun e he => by cases he), fun _ _ _ _ => rfl⟩
  | s :: t, _, b, hb, h, hn => by
    cases h with
    | cons h1 h2 =>
      rename_i w ws
      obtain ⟨k, k1, k2, _⟩ := toArray_word h1.1
      obtain ⟨v, v1, v2, v3⟩ := toArray_word h1.2
      rw [List.map_cons, List.nodup_cons] at hn
      have hb1 : Trie.BufferOk (b.updateStorage a i w.1 zero32 w.2) :=
        Trie.bufferOk_apply hb (c := .updateStorage a i w.1 zero32 w.2) ⟨by decide, v3⟩
      obtain ⟨b', g1, g2, g3, g4, g5, g6⟩ := presetStorage_spec a i (b.updateStorage a i w.1 zero32 w.2) hb1 h2 hn.2
      refine ⟨b', ?_, g2, g3, g4, ?_, ?_⟩
      · unfold presetStorage
        rw [hexValue_ok k1, hexValue_ok v1, bindOk, bindOk, show toBytes32 k = w.1 from k2, show toBytes32 v = w.2 from v2]
        exact g1
      · intro e he
        rcases List.mem_cons.mp he with rfl | he
        · rw [g6 a i e.1 (fun ⟨_, _, v, hv⟩ => hn.1 (List.mem_map.mpr ⟨_, hv, rfl⟩)), readStorage_update, if_pos ⟨rfl, rfl, rfl⟩]
        · exact g5 e he
      · intro x n j hx
        rw [g6 x n j (fun ⟨e1, e2, v, hv⟩ => hx ⟨e1, e2, v, List.mem_cons_of_mem _ hv⟩), readStorage_update, if_neg]
        rintro ⟨e1, e2, rfl⟩
        exact hx ⟨e1, e2, w.2, List.mem_cons_self ..⟩

/-- The account of given values. -/
def accountOf (keccak : Bytes → Bytes) (p : Preset) : Account :=
  if p.code = [] then { nonce := p.nonce, balance := p.balance }
  else { nonce := p.nonce, balance := p.balance, incarnation := 1, codeHash := keccak p.code }

theorem hexUint_lt {k : Nat} {text : Bytes} {n : Nat} (h : HexUint k text n) : n < 256 ^ k := by
  obtain ⟨b, _, h2, h3⟩ := h
  rw [Trie.fromBe_eq] at h3
  rw [← h3]
  exact Nat.lt_of_lt_of_le (beToNat_lt b) (Nat.pow_le_pow_right (by decide) h2)

theorem accountOf_wf {keccak : Bytes → Bytes} (hk : ∀ x, (keccak x).length = 32) {t : TestAccount} {p : Preset}
    (h : Describes t p) : (accountOf keccak p).WF := by
  have h1 := hexUint_lt h.balance
  have h2 := hexUint_lt h.nonce
  unfold accountOf
  split
  · exact ⟨h2, h1, (by decide : kEmptyHash.length = 32), (by decide : 0 < 2 ^ 64)⟩
  · exact ⟨h2, h1, hk _, (by decide : 1 < 2 ^ 64)⟩

theorem presetAccount_spec {keccak : Bytes → Bytes} (hk : ∀ x, (keccak x).length = 32) {t : TestAccount} {p : Preset}
    (h : Describes t p) (hn : (p.storage.map Prod.fst).Nodup) (b : MemoryBuffer) (hb : Trie.BufferOk b) :
    ∃ b', presetAccount keccak t b = .ok b' ∧ Trie.BufferOk b' ∧
      (∀ x, b'.readAccount x = if x = p.address then some (accountOf keccak p) else b.readAccount x) ∧
      (b'.code = if p.code = [] then b.code else b.code.set (keccak p.code) p.code) ∧
      (∀ e ∈ p.storage, b'.readStorage p.address (accountOf keccak p).incarnation e.1 = e.2) ∧
      ∀ x n k, ¬ (x = p.address ∧ n = (accountOf keccak p).incarnation ∧ ∃ v, (k, v) ∈ p.storage) →
        b'.readStorage x n k = b.readStorage x n k := by
  obtain ⟨key, k1, k2, _⟩ := toArray_word h.address
  have hk2 : toAddress key = p.address := k2
  have e : presetAccount keccak t b = presetStorage p.address (accountOf keccak p).incarnation t.storage
      ((if p.code = [] then b else b.updateAccountCode (keccak p.code) p.code).updateAccount p.address none
        (some (accountOf keccak p))) := by
    unfold presetAccount
    rw [hexValue_ok k1, hexNumberOf_ok h.balance, hexNumberOf_ok h.nonce, hexValue_ok h.code, bindOk, bindOk, bindOk, bindOk, hk2]
    unfold accountOf
    by_cases hc : p.code = []
    · simp only [if_pos hc]
    · simp only [if_neg hc]
  have hb0 : Trie.BufferOk (if p.code = [] then b else b.updateAccountCode (keccak p.code) p.code) := by
    split
    · exact hb
    · exact Trie.bufferOk_apply hb (c := .updateAccountCode p.address 0 (keccak p.code) p.code) trivial
  have hb1 := Trie.bufferOk_apply hb0 (c := .updateAccount p.address none (some (accountOf keccak p)))
    ⟨(fun x hx => by cases hx), fun x hx => by cases hx; exact accountOf_wf hk h⟩
  obtain ⟨b', g1, g2, g3, g4, g5, g6⟩ := presetStorage_spec p.address (accountOf keccak p).incarnation _ hb1 h.storage hn
  refine ⟨b', e.trans g1, g2, ?_, ?_, g5, ?_⟩
  · intro x
    show AMap.get? b'.accounts x = _
    rw [g3]
    refine (MemoryBuffer.updateAccount_accounts _ p.address none (some (accountOf keccak p)) x).trans ?_
    split
    · rfl
    · split <;> rfl
  · rw [g4]
    refine (MemoryBuffer.updateAccount_storage _ p.address none (some (accountOf keccak p))).2.2.1.trans ?_
    split <;> rfl
  · intro x n k hx
    rw [g6 x n k hx]
    show (MemoryBuffer.nestedGet? _ x n k).getD zero32 = (MemoryBuffer.nestedGet? _ x n k).getD zero32
    rw [show (MemoryBuffer.apply _ (.updateAccount p.address none (some (accountOf keccak p)))).storage = _ from
      (MemoryBuffer.updateAccount_storage _ p.address none (some (accountOf keccak p))).1]
    split <;> rfl

/-- What holds of the state after some accounts. -/
structure PresetInv (keccak : Bytes → Bytes) (b : MemoryBuffer) (done : List Preset) : Prop where
  ok : Trie.BufferOk b
  account : ∀ p ∈ done, b.readAccount p.address = some (accountOf keccak p)
  slots : ∀ p ∈ done, ∀ k, (∀ v, (k, v) ∈ p.storage → b.readStorage p.address (accountOf keccak p).incarnation k = v) ∧
    ((∀ v, (k, v) ∉ p.storage) → b.readStorage p.address (accountOf keccak p).incarnation k = zero32)
  others : ∀ x, (∀ p ∈ done, p.address ≠ x) → b.readAccount x = none ∧ ∀ n k, b.readStorage x n k = zero32
  codes : ∀ p ∈ done, p.code ≠ [] → b.code.get? (keccak p.code) = some p.code
  known : ∀ h c, b.code.get? h = some c → ∃ p ∈ done, p.code = c ∧ c ≠ [] ∧ keccak c = h

theorem presetInv_step {keccak : Bytes → Bytes} (hk : ∀ x, (keccak x).length = 32) {t : TestAccount} {p : Preset}
    (h : Describes t p) (hn : (p.storage.map Prod.fst).Nodup) {b : MemoryBuffer} {done : List Preset} (hb : PresetInv keccak b done)
    (hp : ∀ q ∈ done, q.address ≠ p.address) (hc : ∀ q ∈ done, keccak q.code = keccak p.code → q.code = p.code) :
    ∃ b', presetAccount keccak t b = .ok b' ∧ PresetInv keccak b' (p :: done) := by
  obtain ⟨b', g1, g2, g3, g4, g5, g6⟩ := presetAccount_spec hk h hn b hb.ok
  refine ⟨b', g1, g2, ?_, ?_, ?_, ?_, ?_⟩
  · intro q hq
    rcases List.mem_cons.mp hq with rfl | hq
    · rw [g3, if_pos rfl]
    · rw [g3, if_neg (hp q hq), hb.account q hq]
  · intro q hq k
    rcases List.mem_cons.mp hq with rfl | hq
    · refine ⟨fun v hv => g5 _ hv, fun hv => ?_⟩
      rw [g6 _ _ _ (fun ⟨_, _, v, hv'⟩ => hv v hv')]
      exact (hb.others q.address hp).2 _ k
    · rw [g6 _ _ _ (fun ⟨e, _⟩ => hp q hq e)]
      exact hb.slots q hq k
  · intro x hx
    have hx1 : ∀ q ∈ done, q.address ≠ x := fun q hq => hx q (List.mem_cons_of_mem _ hq)
    have hx2 : p.address ≠ x := hx p (List.mem_cons_self ..)
    refine ⟨?_, fun n k => ?_⟩
    · rw [g3, if_neg hx2.symm]
      exact (hb.others x hx1).1
    · rw [g6 _ _ _ (fun ⟨e, _⟩ => hx2 e.symm)]
      exact (hb.others x hx1).2 n k
  · intro q hq hqc
    rw [g4]
    rcases List.mem_cons.mp hq with rfl | hq
    · rw [if_neg hqc, AMap.get?_set_self]
    · split
      · exact hb.codes q hq hqc
      · rw [AMap.get?_set]
        split
        · rename_i e
          rw [hc q hq e]
        · exact hb.codes q hq hqc
  · intro x c hx
    rw [g4] at hx
    split at hx
    · obtain ⟨q, hq, e⟩ := hb.known x c hx
      exact ⟨q, List.mem_cons_of_mem _ hq, e⟩
    · rename_i hpc
      rw [AMap.get?_set] at hx
      split at hx
      · rename_i e
        cases hx
        exact ⟨p, List.mem_cons_self .., rfl, hpc, e.symm⟩
      · obtain ⟨q, hq, e⟩ := hb.known x c hx
        exact ⟨q, List.mem_cons_of_mem _ hq, e⟩

theorem initPreState_inv {keccak : Bytes → Bytes} (hk : ∀ x, (keccak x).length = 32) (C : Bytes → Prop)
    (hC : ∀ x y, C x → C y → keccak x = keccak y → x = y) :
    ∀ {ts : List TestAccount} {ps : List Preset} (b : MemoryBuffer) (done : List Preset), List.Forall₂ Describes ts ps →
      (∀ p ∈ ps, (p.storage.map Prod.fst).Nodup) → (ps.map Preset.address).Nodup →
      (∀ p ∈ ps, ∀ q ∈ done, q.address ≠ p.address) → (∀ p ∈ ps, C p.code) → (∀ p ∈ done, C p.code) → PresetInv keccak b done →
      ∃ b', initPreState keccak ts b = .ok b' ∧ PresetInv keccak b' (ps.reverse ++ done)
  | [], _, b, done, h, _, _, _, _, _, hb => by
    cases h
    exact ⟨b, rfl, hb⟩
  | t :: ts, _, b, done, h, hs, hn, hd, hp, hq, hb => by
    cases h with
    | cons h1 h2 =>
      rename_i p ps
      rw [List.map_cons, List.nodup_cons] at hn
      obtain ⟨b1, g1, g2⟩ := presetInv_step hk h1 (hs p (List.mem_cons_self ..)) hb (hd p (List.mem_cons_self ..))
        (fun q hqd => hC _ _ (hq q hqd) (hp p (List.mem_cons_self ..)))
      obtain ⟨b2, g3, g4⟩ := initPreState_inv hk C hC b1 (p :: done) h2 (fun q hq => hs q (List.mem_cons_of_mem _ hq)) hn.2
        (by
          intro q hq r hr
          rcases List.mem_cons.mp hr with rfl | hr
          · exact fun e => hn.1 (List.mem_map.mpr ⟨q, hq, e.symm⟩)
          · exact hd q (List.mem_cons_of_mem _ hq) r hr)
        (fun q hq => hp q (List.mem_cons_of_mem _ hq))
        (by
          intro q hqd
          rcases List.mem_cons.mp hqd with rfl | hqd
          · exact hp q (List.mem_cons_self ..)
          · exact hq q hqd) g2
      refine ⟨b2, ?_, by simpa using g4⟩
      unfold initPreState
      rw [g1, bindOk]
      exact g3

theorem sameAs_of_inv {keccak : Bytes → Bytes} (he : keccak [] = kEmptyHash) {b : MemoryBuffer} {ps done : List Preset}
    (h : PresetInv keccak b done) (hm : ∀ p, p ∈ ps ↔ p ∈ done)
    (hc : ∀ p ∈ ps, keccak p.code = keccak [] → p.code = []) : SameAs b ps := by
  refine ⟨?_, fun x hx => (h.others x (fun p hp => hx p ((hm p).mpr hp))).1⟩
  intro p hp
  have hd := (hm p).mp hp
  refine ⟨accountOf keccak p, h.account p hd, ?_, ?_, ?_, h.slots p hd⟩
  · unfold accountOf; split <;> rfl
  · unfold accountOf; split <;> rfl
  · unfold MemoryBuffer.readCode
    by_cases hpc : p.code = []
    · rw [show (accountOf keccak p).codeHash = keccak [] by unfold accountOf; rw [if_pos hpc, he], hpc]
      cases hg : b.code.get? (keccak []) with
      | none => rfl
      | some c =>
        obtain ⟨q, hq, rfl, h1, h2⟩ := h.known _ _ hg
        exact absurd (hc q ((hm q).mpr hq) h2) h1
    · rw [show (accountOf keccak p).codeHash = keccak p.code by unfold accountOf; rw [if_neg hpc], h.codes p hd hpc]
      rfl

end Silkworm.Tools
