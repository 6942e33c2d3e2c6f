import Verif.Spec.Genesis
import Verif.Common.UtilLemmas
import Verif.Trie.StateRootLemmas
import Verif.Db.BufferRootLemmas
import Verif.Stages.HashStateLemmas

/-!
# Lemmas about cmd/initialize_with_genesis.cpp
-/

namespace Silkworm.Genesis

open Db Rlp

/-- What an allocation says that the program takes account of. -/
def Says (parse256 : Bytes → Option Nat) (item : Bytes × Allocation) (w : Bytes × Nat) : Prop :=
  ∃ text, item.2.balance = some text ∧ fromHex item.1 = some w.1 ∧ w.1.length = 20 ∧ parse256 text = some w.2

/-- The calls for allocations. -/
def allocCalls (ws : List (Bytes × Nat)) : List BufferCall :=
  ws.map fun w => .updateAccount w.1 none (some { balance := w.2 })

theorem updateAccount_new (b : Db.Buffer) (a : Bytes) (x : Account) :
    b.updateAccount a none (some x) = .ok ((b.noteAccountChange a []).setAccount a (some x)) := by
  unfold Db.Buffer.updateAccount
  rw [if_neg (by rintro ⟨h, _⟩; cases h)]
  dsimp only
  rw [if_neg (by intro h; cases h)]
  rfl

theorem allocate_ok {p : Bytes → Option Nat} {b b' : Db.Buffer} {item : Bytes × Allocation} :
    allocate p b item = .ok b' ↔
      ∃ w, Says p item w ∧ b' = (b.noteAccountChange w.1 []).setAccount w.1 (some { balance := w.2 }) := by
  unfold allocate Says
  constructor
  · intro h
    split at h
    · cases h
    · rename_i text ht
      split at h
      · cases h
      · rename_i a ha
        split at h
        · cases h
        · rename_i hl
          cases hp : p text with
          | none => rw [hp] at h; cases h
          | some n =>
            rw [hp] at h
            simp only [orThrow, Outcome.ok_bind, updateAccount_new, fromDb] at h
            exact ⟨(a, n), ⟨text, ht, ha, Decidable.not_not.mp hl, hp⟩, (Outcome.ok.inj h).symm⟩
  · rintro ⟨w, ⟨text, h1, h2, h3, h4⟩, rfl⟩
    rw [h1]
    dsimp only
    rw [h2]
    dsimp only
    rw [if_neg (fun h => h h3), h4]
    simp only [orThrow, Outcome.ok_bind, updateAccount_new, fromDb]

theorem allocate_ne_ub {p : Bytes → Option Nat} {b : Db.Buffer} {item : Bytes × Allocation} : allocate p b item ≠ .ub := by
  unfold allocate
  split
  · intro h; cases h
  · split
    · intro h; cases h
    · split
      · intro h; cases h
      · rename_i text _ _ _ _ _
        cases p text with
        | none => intro h; cases h
        | some n =>
          simp only [orThrow, Outcome.ok_bind, updateAccount_new, fromDb]
          intro h; cases h

theorem applyAll_new (b : Db.Buffer) (w : Bytes × Nat) (ws : List (Bytes × Nat)) : b.applyAll (allocCalls (w :: ws)) =
    ((b.noteAccountChange w.1 []).setAccount w.1 (some { balance := w.2 })).applyAll (allocCalls ws) := by
  unfold Db.Buffer.applyAll allocCalls
  rw [List.map_cons, List.foldlM_cons]
  show Outcome.bind (b.updateAccount w.1 none (some { balance := w.2 })) _ = _
  rw [updateAccount_new]
  rfl

theorem forall₂_length {α β : Type} {R : α → β → Prop} {xs : List α} {ys : List β} (h : List.Forall₂ R xs ys) :
    xs.length = ys.length := by
  induction h with
  | nil => rfl
  | cons _ _ ih => rw [List.length_cons, List.length_cons, ih]

theorem allocateAll_ok {p : Bytes → Option Nat} {b b' : Db.Buffer} {items : List (Bytes × Allocation)} :
    allocateAll p b items = .ok b' ↔ ∃ ws, List.Forall₂ (Says p) items ws ∧ b.applyAll (allocCalls ws) = .ok b' := by
  induction items generalizing b with
  | nil =>
    constructor
    · intro h
      refine ⟨[], .nil, ?_⟩
      rw [← Outcome.ok.inj h]
      rfl
    · rintro ⟨ws, h1, h2⟩
      cases h1
      rw [← Outcome.ok.inj h2]
      rfl
  | cons item items ih =>
    unfold allocateAll
    rw [Outcome.bind_eq_ok]
    constructor
    · rintro ⟨b1, h1, h2⟩
      obtain ⟨w, hw, rfl⟩ := allocate_ok.mp h1
      obtain ⟨ws, h3, h4⟩ := ih.mp h2
      refine ⟨w :: ws, .cons hw h3, ?_⟩
      rw [applyAll_new]
      exact h4
    · rintro ⟨ws, h1, h2⟩
      cases h1 with
      | cons hw h3 =>
        rename_i w ws
        rw [applyAll_new] at h2
        exact ⟨_, allocate_ok.mpr ⟨w, hw, rfl⟩, ih.mpr ⟨ws, h3, h2⟩⟩

theorem allocateAll_ne_ub {p : Bytes → Option Nat} {b : Db.Buffer} {items : List (Bytes × Allocation)} :
    allocateAll p b items ≠ .ub := by
  induction items generalizing b with
  | nil => intro h; cases h
  | cons item items ih =>
    unfold allocateAll
    cases h : allocate p b item with
    | ok b1 => exact ih
    | err e => intro h; cases h
    | ub => exact absurd h allocate_ne_ub

/-! ## The buffer after the allocations -/

theorem length_set {K V : Type} [DecidableEq K] {m : AMap K V} (hm : AMap.WF m) (k : K) (v : V) :
    (m.set k v).length = if k ∈ m.keys then m.length else m.length + 1 := by
  have hlen : ∀ {m : AMap K V}, AMap.WF m → (AMap.erase m k).length + (if k ∈ m.keys then 1 else 0) = m.length := by
    intro m hm
    induction m with
    | nil => rfl
    | cons e m ih =>
      obtain ⟨h1, h2⟩ := List.nodup_cons.mp hm
      have ih := ih h2
      unfold AMap.erase at ih ⊢
      rw [List.filter_cons]
      by_cases hk : e.1 = k
      · have hkn : k ∉ AMap.keys m := by rw [← hk]; exact h1
        rw [if_neg hkn] at ih
        rw [if_neg (by simp [hk]), if_pos (by rw [← hk]; exact List.mem_cons_self), List.length_cons]
        omega
      · have hiff : k ∈ AMap.keys (e :: m) ↔ k ∈ AMap.keys m := by
          unfold AMap.keys
          rw [List.map_cons, List.mem_cons]
          exact ⟨fun h => h.resolve_left fun h => hk h.symm, .inr⟩
        rw [if_pos (by simp [hk]), List.length_cons, List.length_cons]
        by_cases hm' : k ∈ AMap.keys m
        · rw [if_pos (hiff.mpr hm')]; rw [if_pos hm'] at ih; omega
        · rw [if_neg (fun h => hm' (hiff.mp h))]; rw [if_neg hm'] at ih; omega
  have := hlen hm
  unfold AMap.set
  rw [List.length_cons]
  split <;> simp_all

/-- The accounts and the changes of block zero after the calls. -/
theorem applyAll_alloc {ws : List (Bytes × Nat)} {b b' : Db.Buffer} (h : b.applyAll (allocCalls ws) = .ok b')
    (hn : b.blockNumber = 0) :
    b'.blockNumber = 0 ∧
    b'.accounts = ws.foldl (fun m w => m.set w.1 (some { balance := w.2 })) b.accounts ∧
    b'.accountChanges.get? 0 = (if ws = [] then b.accountChanges.get? 0 else
      some (ws.foldl (fun m w => m.set w.1 []) ((b.accountChanges.get? 0).getD []))) ∧
    b'.storage = b.storage ∧ b'.storagePrefixToCodeHash = b.storagePrefixToCodeHash := by
  induction ws generalizing b with
  | nil =>
    rw [← Outcome.ok.inj h]
    exact ⟨hn, rfl, rfl, rfl, rfl⟩
  | cons w ws ih =>
    rw [applyAll_new] at h
    obtain ⟨h1, h2, h3, h4, h5⟩ := ih (b := (b.noteAccountChange w.1 []).setAccount w.1 (some { balance := w.2 })) h hn
    have hc : ((b.noteAccountChange w.1 []).setAccount w.1 (some { balance := w.2 })).accountChanges.get? 0 =
        some (((b.accountChanges.get? 0).getD []).set w.1 []) := by
      show AMap.get? (AMap.set b.accountChanges b.blockNumber (((b.accountChanges.get? b.blockNumber).getD []).set w.1 [])) 0 = _
      rw [hn, AMap.get?_set_self]
    refine ⟨h1, h2, ?_, h4, h5⟩
    rw [h3, hc, if_neg (List.cons_ne_nil _ _)]
    split
    · rename_i hws
      rw [hws]
      rfl
    · rfl

/-- The number of keys that were set: as many as there are if and only if each was set once. -/
theorem foldl_set_length {K V W : Type} [DecidableEq K] (f : W → K) (g : W → V) {ws : List W} {m : AMap K V} (hm : AMap.WF m) :
    (ws.foldl (fun m w => m.set (f w) (g w)) m).length ≤ m.length + ws.length ∧
    ((ws.foldl (fun m w => m.set (f w) (g w)) m).length = m.length + ws.length ↔
      (ws.map f).Nodup ∧ ∀ w ∈ ws, f w ∉ m.keys) := by
  induction ws generalizing m with
  | nil => exact ⟨Nat.le_refl _, fun _ => ⟨List.nodup_nil, fun w hw => by cases hw⟩, fun _ => rfl⟩
  | cons w ws ih =>
    rw [List.foldl_cons]
    obtain ⟨h1, h2⟩ := ih (m := m.set (f w) (g w)) (AMap.WF_set hm _ _)
    have hl := length_set hm (f w) (g w)
    rw [List.length_cons]
    by_cases hk : f w ∈ m.keys
    · rw [if_pos hk] at hl
      refine ⟨by omega, fun h => by omega, fun h => absurd hk (h.2 w List.mem_cons_self)⟩
    · rw [if_neg hk] at hl
      refine ⟨by omega, ?_⟩
      have he : (List.foldl (fun m w => m.set (f w) (g w)) (m.set (f w) (g w)) ws).length = m.length + (ws.length + 1) ↔
          (List.foldl (fun m w => m.set (f w) (g w)) (m.set (f w) (g w)) ws).length = (m.set (f w) (g w)).length + ws.length := by
        rw [hl]; omega
      rw [he, h2, List.map_cons, List.nodup_cons]
      constructor
      · rintro ⟨n1, n2⟩
        refine ⟨⟨fun hm' => ?_, n1⟩, ?_⟩
        · obtain ⟨x, hx, hxw⟩ := List.mem_map.mp hm'
          exact n2 x hx (AMap.mem_keys_set.mpr (.inl hxw))
        · intro x hx
          rcases List.mem_cons.mp hx with rfl | hx
          · exact hk
          · exact fun hc => n2 x hx (AMap.mem_keys_set.mpr (.inr hc))
      · rintro ⟨⟨n1, n2⟩, n3⟩
        refine ⟨n2, fun x hx hc => ?_⟩
        rcases AMap.mem_keys_set.mp hc with hc | hc
        · exact n1 (by rw [← hc]; exact List.mem_map.mpr ⟨x, hx, rfl⟩)
        · exact n3 x (List.mem_cons_of_mem _ hx) hc

/-- What is found after setting each key once. -/
theorem foldl_set_get {K V W : Type} [DecidableEq K] (f : W → K) (g : W → V) {ws : List W} {m : AMap K V} (hn : (ws.map f).Nodup)
    (k : K) : (ws.foldl (fun m w => m.set (f w) (g w)) m).get? k =
      match ws.find? fun w => f w = k with
      | some w => some (g w)
      | none => m.get? k := by
  induction ws generalizing m with
  | nil => rfl
  | cons w ws ih =>
    obtain ⟨n1, n2⟩ := List.nodup_cons.mp hn
    rw [List.foldl_cons, ih n2, List.find?_cons]
    by_cases hk : f w = k
    · have : ws.find? (fun w => f w = k) = none := by
        rw [List.find?_eq_none]
        intro x hx hc
        exact n1 (by rw [hk]; exact List.mem_map.mpr ⟨x, hx, by simpa using hc⟩)
      rw [this]
      simp [hk]
    · simp only [hk, decide_false]
      cases ws.find? (fun w => f w = k) with
      | none => exact AMap.get?_set_ne _ (fun h => hk h.symm) _
      | some _ => rfl

/-- The allocations: accepted exactly if each says what it should, no two have the same address and there is one. -/
theorem allocations_ok {p : Bytes → Option Nat} {db db' : Database} {b : Db.Buffer} {items : List (Bytes × Allocation)} :
    allocations p db (.object items) = .ok (b, db') ↔
      ∃ ws, List.Forall₂ (Says p) items ws ∧ ({} : Db.Buffer).applyAll (allocCalls ws) = .ok b ∧ (ws.map (·.1)).Nodup ∧ ws ≠ [] ∧
        db' = b.writeToDb db := by
  unfold allocations
  rw [Outcome.bind_eq_ok]
  have key : ∀ {ws : List (Bytes × Nat)} {b1 : Db.Buffer}, List.Forall₂ (Says p) items ws →
      ({} : Db.Buffer).applyAll (allocCalls ws) = .ok b1 →
      b1.accountChanges.get? 0 = (if ws = [] then none else some (ws.foldl (fun (m : AMap Bytes Bytes) w => m.set w.1 []) [])) ∧
      ((ws.foldl (fun (m : AMap Bytes Bytes) w => m.set w.1 []) []).length = items.length ↔ (ws.map (·.1)).Nodup) := by
    intro ws b1 h1 h2
    obtain ⟨_, _, h3, _, _⟩ := applyAll_alloc h2 rfl
    refine ⟨h3, ?_⟩
    have := (foldl_set_length (fun w : Bytes × Nat => w.1) (fun _ => ([] : Bytes)) (ws := ws) (m := []) AMap.WF_nil).2
    rw [forall₂_length h1]
    rw [List.length_nil, Nat.zero_add] at this
    rw [this]
    exact ⟨fun h => h.1, fun h => ⟨h, fun w _ hc => by cases hc⟩⟩
  constructor
  · rintro ⟨b1, h1, h2⟩
    obtain ⟨ws, h3, h4⟩ := allocateAll_ok.mp h1
    obtain ⟨k1, k2⟩ := key h3 h4
    rw [k1] at h2
    by_cases hw : ws = []
    · rw [if_pos hw] at h2; cases h2
    · rw [if_neg hw] at h2
      dsimp only at h2
      by_cases hl : (ws.foldl (fun (m : AMap Bytes Bytes) w => m.set w.1 []) []).length = items.length
      · rw [if_neg (by simp [hl])] at h2
        obtain ⟨e1, e2⟩ := Prod.mk.inj (Outcome.ok.inj h2)
        exact ⟨ws, h3, by rw [← e1]; exact h4, k2.mp hl, hw, by rw [← e2, ← e1]⟩
      · rw [if_pos hl] at h2; cases h2
  · rintro ⟨ws, h1, h2, h3, h4, rfl⟩
    obtain ⟨k1, k2⟩ := key h1 h2
    refine ⟨b, allocateAll_ok.mpr ⟨ws, h1, h2⟩, ?_⟩
    rw [k1, if_neg h4]
    dsimp only
    rw [if_neg (by simp [k2.mpr h3])]

theorem allocations_ne_ub {p : Bytes → Option Nat} {db : Database} {m : AllocMember} : allocations p db m ≠ .ub := by
  unfold allocations
  split
  · rename_i items
    cases h : allocateAll p {} items with
    | ub => exact absurd h allocateAll_ne_ub
    | err e => intro h; cases h
    | ok b =>
      show (match b.accountChanges.get? 0 with
        | none => Outcome.err GenesisError.noAllocation
        | some changes => if changes.length ≠ items.length then .err .mismatch else .ok (b, b.writeToDb db)) ≠ .ub
      split
      · intro h; cases h
      · split <;> intro h <;> cases h
  · intro h; cases h

/-! ## The header -/

theorem hexBytes_iff (s b : Bytes) : Spec.HexBytes s b ↔ fromHex s = some b := by
  rw [fromHex_iff]
  unfold Spec.HexBytes
  rw [Trie.fromBe_eq]

theorem says_iff (p : Bytes → Option Nat) : Says p = Spec.Gives p := by
  funext item w
  unfold Says Spec.Gives
  rw [hexBytes_iff]
  exact propext ⟨fun ⟨t, h1, h2, h3, h4⟩ => ⟨h2, h3, t, h1, h4⟩, fun ⟨h2, h3, t, h1, h4⟩ => ⟨t, h1, h2, h3, h4⟩⟩

theorem member_get_ok {m : Member} {s : Bytes} : m.get = .ok s ↔ m = .string s := by
  cases m with
  | string t => exact ⟨fun h => by rw [Outcome.ok.inj h], fun h => by injection h with h; rw [h]; rfl⟩
  | absent => exact ⟨fun h => (by cases h), fun h => (by cases h)⟩
  | notString => exact ⟨fun h => (by cases h), fun h => (by cases h)⟩

theorem orThrow_ok {α : Type} {e : GenesisError} {o : Option α} {a : α} : orThrow e o = .ok a ↔ o = some a := by
  cases o with
  | none => exact ⟨fun h => (by cases h), fun h => (by cases h)⟩
  | some b => exact ⟨fun h => by rw [Outcome.ok.inj h], fun h => by rw [Option.some.inj h]; rfl⟩

theorem noThrow_ok {α : Type} {o : Outcome Empty α} {a : α} : noThrow o = .ok a ↔ o = .ok a := by
  cases o with
  | ok b => exact ⟨fun h => by rw [Outcome.ok.inj h], fun h => by rw [Outcome.ok.inj h]; rfl⟩
  | err e => exact e.elim
  | ub => exact ⟨fun h => (by cases h), fun h => (by cases h)⟩

theorem mixHash_ok {m : Member} {x : Bytes} : mixHash m = .ok x ↔
    m = .absent ∧ x = List.replicate 32 0 ∨ ∃ s, m = .string s ∧ fromHex s = some x ∧ x.length = 32 := by
  cases m with
  | absent => exact ⟨fun h => .inl ⟨rfl, (Outcome.ok.inj h).symm⟩, fun h => by
      rcases h with ⟨_, rfl⟩ | ⟨s, h, _⟩
      · rfl
      · cases h⟩
  | notString => exact ⟨fun h => (by cases h), fun h => by
      rcases h with ⟨h, _⟩ | ⟨s, h, _⟩ <;> cases h⟩
  | string s =>
    have e : mixHash (.string s) = match fromHex s with
      | none => .err .badMixHash
      | some h => if h.length ≠ 32 then .err .badMixHash else .ok h := rfl
    rw [e]
    constructor
    · intro h
      right
      refine ⟨s, rfl, ?_⟩
      cases hf : fromHex s with
      | none => rw [hf] at h; cases h
      | some y =>
        rw [hf] at h
        dsimp only at h
        split at h
        · cases h
        · rename_i hl
          rw [← Outcome.ok.inj h]
          exact ⟨rfl, Decidable.not_not.mp hl⟩
    · rintro (⟨h, _⟩ | ⟨s', h, h2, h3⟩)
      · cases h
      · injection h with h
        rw [h, h2]
        dsimp only
        rw [if_neg (fun hc => hc h3)]

theorem header_ok {p q : Bytes → Option Nat} {d : Document} {root : Outcome Empty Bytes} {h : BlockHeader} :
    header p q d root = .ok h ↔ ∃ extra mix r dn gn tn nn, d.extraData = .string extra ∧ mixHash d.mixhash = .ok mix ∧ root = .ok r ∧
      Spec.NumberMember p d.difficulty dn ∧ Spec.NumberMember q d.gasLimit gn ∧ Spec.NumberMember q d.timestamp tn ∧
      Spec.NumberMember q d.nonce nn ∧
      h = { extraData := (fromHex extra).getD [], mixHash := mix, ommersHash := kEmptyListHash, stateRoot := r,
            transactionsRoot := kEmptyRoot, receiptsRoot := kEmptyRoot, difficulty := dn, gasLimit := gn,
            timestamp := tn, nonce := littleEndian 8 nn } := by
  unfold header Spec.NumberMember
  constructor
  · intro e
    obtain ⟨extra, e1, e⟩ := Outcome.bind_eq_ok.mp e
    obtain ⟨mix, e2, e⟩ := Outcome.bind_eq_ok.mp e
    obtain ⟨r, e3, e⟩ := Outcome.bind_eq_ok.mp e
    obtain ⟨s1, e4, e⟩ := Outcome.bind_eq_ok.mp e
    obtain ⟨dn, e5, e⟩ := Outcome.bind_eq_ok.mp e
    obtain ⟨s2, e6, e⟩ := Outcome.bind_eq_ok.mp e
    obtain ⟨gn, e7, e⟩ := Outcome.bind_eq_ok.mp e
    obtain ⟨s3, e8, e⟩ := Outcome.bind_eq_ok.mp e
    obtain ⟨tn, e9, e⟩ := Outcome.bind_eq_ok.mp e
    obtain ⟨s4, e10, e⟩ := Outcome.bind_eq_ok.mp e
    obtain ⟨nn, e11, e⟩ := Outcome.bind_eq_ok.mp e
    exact ⟨extra, mix, r, dn, gn, tn, nn, member_get_ok.mp e1, e2, noThrow_ok.mp e3, ⟨s1, member_get_ok.mp e4, orThrow_ok.mp e5⟩,
      ⟨s2, member_get_ok.mp e6, orThrow_ok.mp e7⟩, ⟨s3, member_get_ok.mp e8, orThrow_ok.mp e9⟩,
      ⟨s4, member_get_ok.mp e10, orThrow_ok.mp e11⟩, (Outcome.ok.inj e).symm⟩
  · rintro ⟨extra, mix, r, dn, gn, tn, nn, e1, e2, e3, ⟨s1, e4, e5⟩, ⟨s2, e6, e7⟩, ⟨s3, e8, e9⟩, ⟨s4, e10, e11⟩, rfl⟩
    rw [member_get_ok.mpr e1, e2, noThrow_ok.mpr e3, member_get_ok.mpr e4, member_get_ok.mpr e6, member_get_ok.mpr e8,
      member_get_ok.mpr e10]
    simp only [Outcome.ok_bind, e5, e7, e9, e11, orThrow]

theorem write_ok {keccak : Bytes → Bytes} {h : BlockHeader} {config : Bytes} {db : Database} {i : Initialised} :
    write keccak h config db = .ok i ↔ (0 : UInt8) ∈ littleEndian 32 h.difficulty ∧
      i = { db := { db with
              headers := db.headers.upsert (blockHashKey 0 (keccak (encodeBlockHeader h false))) (encodeBlockHeader h false)
              canonicalHashes := db.canonicalHashes.upsert (blockHashKey 0 (keccak (encodeBlockHeader h false)))
                (keccak (encodeBlockHeader h false))
              blockBodies := db.blockBodies.upsert (blockHashKey 0 (keccak (encodeBlockHeader h false))) [195, 128, 128, 192]
              difficulty := db.difficulty.upsert (blockHashKey 0 (keccak (encodeBlockHeader h false)))
                ((littleEndian 32 h.difficulty).takeWhile fun x => x != 0)
              blockReceipts := db.blockReceipts.upsert (blockKey 0) [246]
              headerNumbers := db.headerNumbers.upsert (keccak (encodeBlockHeader h false)) (blockKey 0)
              config := db.config.upsert (keccak (encodeBlockHeader h false)) config }
            headHeader := [(ascii "LastHeader", keccak (encodeBlockHeader h false))] } := by
  have hk : List.replicate 8 (0 : UInt8) = blockKey 0 := by decide +kernel
  have ht : ∀ x : Bytes, (blockKey 0 ++ x).take 8 = blockKey 0 := fun x => by
    rw [List.take_append_of_le_length (by decide +kernel)]
    decide +kernel
  unfold write Stages.cString
  rw [hk]
  dsimp only
  rw [ht]
  by_cases hz : (0 : UInt8) ∈ littleEndian 32 h.difficulty
  · rw [if_pos hz]
    exact ⟨fun e => ⟨hz, (Outcome.ok.inj e).symm⟩, fun e => by rw [e.2]; rfl⟩
  · rw [if_neg hz]
    exact ⟨fun e => (by cases e), fun e => absurd e.1 hz⟩

theorem initialise_ok {keccak : Bytes → Bytes} {p q : Bytes → Option Nat} {d : Document} {h : BlockHeader} {i : Initialised} :
    initialise keccak p q d = .ok (h, i) ↔ complete d = true ∧ ∃ j text c, d.config = .object j text ∧
      ChainConfig.fromJson j = .ok (some c) ∧ ∃ b db, allocations p {} d.alloc = .ok (b, db) ∧
        header p q d (b.stateRootHash keccak) = .ok h ∧ write keccak h text db = .ok i := by
  unfold initialise
  by_cases hc : complete d = true
  · rw [hc]
    simp only [Bool.not_true, Bool.false_eq_true, if_false, true_and]
    cases hcfg : d.config with
    | absent => exact ⟨fun e => (by cases e), fun ⟨j, text, c, e, _⟩ => by cases e⟩
    | notObject => exact ⟨fun e => (by cases e), fun ⟨j, text, c, e, _⟩ => by cases e⟩
    | object j text =>
      constructor
      · intro e
        obtain ⟨c, e1, e⟩ := Outcome.bind_eq_ok.mp e
        cases c with
        | none => cases e
        | some c =>
          obtain ⟨⟨b, db⟩, e2, e⟩ := Outcome.bind_eq_ok.mp e
          obtain ⟨h', e3, e⟩ := Outcome.bind_eq_ok.mp e
          obtain ⟨i', e4, e⟩ := Outcome.bind_eq_ok.mp e
          have e := Outcome.ok.inj e
          have e5 : h' = h := congrArg Prod.fst e
          have e6 : i' = i := congrArg Prod.snd e
          rw [e5] at e3 e4
          rw [e6] at e4
          exact ⟨j, text, c, rfl, noThrow_ok.mp e1, b, db, e2, e3, e4⟩
      · rintro ⟨j', text', c, e0, e1, b, db, e2, e3, e4⟩
        obtain ⟨ej, et⟩ := ConfigMember.object.inj e0
        rw [← ej] at e1
        rw [← et] at e4
        dsimp only
        rw [noThrow_ok.mpr e1, e2]
        simp only [Outcome.ok_bind, Option.isNone_some, Bool.false_eq_true, if_false, e3, e4]
  · simp only [Bool.not_eq_true] at hc
    rw [hc]
    simp

/-- Up to the writing. -/
theorem initialise_eq {keccak : Bytes → Bytes} {p q : Bytes → Option Nat} {d : Document} {j : ChainConfig.JsonObject} {text : Bytes}
    {c : ChainConfig} {b : Db.Buffer} {db : Database} {h : BlockHeader} (h0 : complete d = true) (h1 : d.config = .object j text)
    (h2 : ChainConfig.fromJson j = .ok (some c)) (h3 : allocations p {} d.alloc = .ok (b, db))
    (h4 : header p q d (b.stateRootHash keccak) = .ok h) :
    initialise keccak p q d = (write keccak h text db).bind fun i => .ok (h, i) := by
  unfold initialise
  rw [h0, h1]
  simp only [Bool.not_true, Bool.false_eq_true, if_false]
  rw [noThrow_ok.mpr h2, h3]
  simp only [Outcome.ok_bind, Option.isNone_some, Bool.false_eq_true, if_false, h4]
  rfl

theorem write_ub {keccak : Bytes → Bytes} {h : BlockHeader} {config : Bytes} {db : Database}
    (hz : (0 : UInt8) ∉ littleEndian 32 h.difficulty) : write keccak h config db = .ub := by
  unfold write Stages.cString
  rw [if_neg hz]
  rfl

/-! ## Bytes in the order of the machine -/

theorem littleEndian_succ (k n : Nat) : littleEndian (k + 1) n = UInt8.ofNat (n % 256) :: littleEndian k (n / 256) := by
  unfold littleEndian
  rw [beFixed, List.reverse_append]
  rfl

/-- A number that does not need all bytes has one that is zero. -/
theorem littleEndian_zero {k n : Nat} (h : n < 256 ^ k) : (0 : UInt8) ∈ littleEndian (k + 1) n := by
  induction k generalizing n with
  | zero =>
    rw [littleEndian_succ, show n = 0 by omega]
    exact List.mem_cons_self
  | succ k ih =>
    rw [littleEndian_succ]
    exact List.mem_cons_of_mem _ (ih (by rw [Nat.pow_succ] at h; omega))

/-- No more bytes stand before the first zero than the number needs. -/
theorem littleEndian_cut {k b n : Nat} (h : n < 256 ^ b) : ((littleEndian k n).takeWhile fun x => x != 0).length ≤ b := by
  induction b generalizing k n with
  | zero =>
    have : n = 0 := by omega
    cases k with
    | zero => exact Nat.le_refl _
    | succ k =>
      rw [littleEndian_succ, this, List.takeWhile_cons]
      exact Nat.le_refl _
  | succ b ih =>
    cases k with
    | zero => exact Nat.zero_le _
    | succ k =>
      rw [littleEndian_succ, List.takeWhile_cons]
      split
      · rw [List.length_cons]
        exact Nat.succ_le_succ (ih (by rw [Nat.pow_succ] at h; omega))
      · exact Nat.zero_le _

theorem littleEndian_small {n : Nat} (h1 : 0 < n) (h2 : n < 256) :
    ((littleEndian 32 n).takeWhile fun x => x != 0) = [UInt8.ofNat n] := by
  rw [littleEndian_succ, Nat.mod_eq_of_lt h2, Nat.div_eq_of_lt h2, List.takeWhile_cons]
  have hz : littleEndian 31 0 = 0 :: littleEndian 30 0 := littleEndian_succ 30 0
  have hne : (UInt8.ofNat n != 0) = true := by
    rw [bne_iff_ne]
    intro hc
    have := congrArg UInt8.toNat hc
    rw [UInt8.toNat_ofNat', Nat.mod_eq_of_lt h2] at this
    simp at this
    omega
  rw [if_pos hne, hz]
  rfl

/-- Results other than the refusal. -/
theorem bind_ne_incomplete {α β : Type} {o : Outcome GenesisError α} {f : α → Outcome GenesisError β} (h : o ≠ .err .incomplete)
    (hf : ∀ a, f a ≠ .err .incomplete) : (o >>= f) ≠ .err .incomplete := by
  cases o with
  | ok a => exact hf a
  | err e =>
    intro he
    exact h (congrArg Outcome.err (Outcome.err.inj he))
  | ub => intro he; cases he

theorem get_ne_incomplete (m : Member) : m.get ≠ .err .incomplete := by cases m <;> intro h <;> cases h

theorem orThrow_ne_incomplete {α : Type} (o : Option α) : orThrow .badNumber o ≠ .err .incomplete := by cases o <;> intro h <;> cases h

theorem noThrow_ne_incomplete {α : Type} (o : Outcome Empty α) : noThrow o ≠ .err .incomplete := by
  cases o with
  | ok a => intro h; cases h
  | err e => exact e.elim
  | ub => intro h; cases h

theorem allocate_ne_incomplete (p : Bytes → Option Nat) (b : Db.Buffer) (item : Bytes × Allocation) :
    allocate p b item ≠ .err .incomplete := by
  unfold allocate
  split
  · intro h; cases h
  · split
    · intro h; cases h
    · split
      · intro h; cases h
      · refine bind_ne_incomplete (orThrow_ne_incomplete _) fun n => ?_
        generalize b.updateAccount _ none _ = o
        cases o <;> intro h <;> cases h

theorem allocateAll_ne_incomplete (p : Bytes → Option Nat) : ∀ (items : List (Bytes × Allocation)) (b : Db.Buffer),
    allocateAll p b items ≠ .err .incomplete
  | [], b => fun h => by cases h
  | item :: items, b => bind_ne_incomplete (allocate_ne_incomplete p b item) fun b => allocateAll_ne_incomplete p items b

theorem allocations_ne_incomplete (p : Bytes → Option Nat) (db : Database) (m : AllocMember) :
    allocations p db m ≠ .err .incomplete := by
  unfold allocations
  split
  · refine bind_ne_incomplete (allocateAll_ne_incomplete p _ _) fun b => ?_
    split
    · intro h; cases h
    · split <;> intro h <;> cases h
  · intro h; cases h

theorem mixHash_ne_incomplete (m : Member) : Genesis.mixHash m ≠ .err .incomplete := by
  unfold Genesis.mixHash
  split
  · intro h; cases h
  · refine bind_ne_incomplete (get_ne_incomplete _) fun s => ?_
    split
    · intro h; cases h
    · split <;> intro h <;> cases h

theorem header_ne_incomplete (p q : Bytes → Option Nat) (d : Document) (root : Outcome Empty Bytes) :
    header p q d root ≠ .err .incomplete := by
  unfold header
  exact bind_ne_incomplete (get_ne_incomplete _) fun _ => bind_ne_incomplete (mixHash_ne_incomplete _) fun _ =>
    bind_ne_incomplete (noThrow_ne_incomplete _) fun _ => bind_ne_incomplete (get_ne_incomplete _) fun _ =>
    bind_ne_incomplete (orThrow_ne_incomplete _) fun _ => bind_ne_incomplete (get_ne_incomplete _) fun _ =>
    bind_ne_incomplete (orThrow_ne_incomplete _) fun _ => bind_ne_incomplete (get_ne_incomplete _) fun _ =>
    bind_ne_incomplete (orThrow_ne_incomplete _) fun _ => bind_ne_incomplete (get_ne_incomplete _) fun _ =>
    bind_ne_incomplete (orThrow_ne_incomplete _) fun _ => fun h => by cases h

end Silkworm.Genesis
