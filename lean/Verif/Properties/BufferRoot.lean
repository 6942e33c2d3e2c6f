import Verif.Db.BufferRootLemmas
import Verif.Properties.DbState
import Verif.Properties.DbTrie

/-!
# C119: the root of the state in a buffer
-/

namespace Silkworm.Properties

open Silkworm Silkworm.Db Silkworm.Trie Silkworm.Spec

/-- The state that is read through a buffer over a database: each account once, with slots that have a value. -/
structure ReadsAs (r : Bytes → Option (List Nat)) (db : Database) (b : Db.Buffer)
    (world : List (Bytes × Account × List (Bytes × Bytes))) : Prop where
  once : (world.map (·.1)).Nodup
  addresses : ∀ w ∈ world, w.1.length = 20
  accounts : ∀ a x, a.length = 20 → (Db.Buffer.readAccount r db none b a = .ok (some x) ↔ ∃ st, (a, x, st) ∈ world)
  locations : ∀ w ∈ world, (w.2.2.map (·.1)).Nodup
  widths : ∀ w ∈ world, ∀ e ∈ w.2.2, e.1.length = 32 ∧ e.2.length = 32
  slots : ∀ w ∈ world, ∀ l v, l.length = 32 → v.length = 32 → v ≠ zero32 →
    (Db.Buffer.readStorage r db none b w.1 w.2.1.incarnation l = .ok v ↔ (l, v) ∈ w.2.2)

/-- The hash function has results of 32 bytes and no collision among the keys of this state. -/
structure HashFits (keccak : Bytes → Bytes) (world : List (Bytes × Account × List (Bytes × Bytes))) : Prop where
  length : ∀ x, (keccak x).length = 32
  empty : keccak [0x80] = kEmptyRoot
  addresses : ∀ v ∈ world, ∀ w ∈ world, keccak v.1 = keccak w.1 → v.1 = w.1
  locations : ∀ w ∈ world, ∀ e ∈ w.2.2, ∀ f ∈ w.2.2, keccak e.1 = keccak f.1 → e.1 = f.1

/-- C119 as stated: `state_root_hash` of a buffer is the root of the state that is read through it. -/
def C119_statement : Prop :=
  ∀ (keccak : Bytes → Bytes) (r : Bytes → Option (List Nat)) (db : Database) (calls : List BufferCall) (b : Db.Buffer)
    (world : List (Bytes × Account × List (Bytes × Bytes))), Reached calls b → ReadsAs r db b world → HashFits keccak world →
    b.stateRootHash keccak = .ok (stateRoot keccak world)

/-- Values that were never written are not in the buffer. -/
theorem storage_of_calls {calls : List BufferCall} {b b' : Db.Buffer} (h : b.applyAll calls = .ok b')
    (hz : ∀ a n k i, BufferCall.updateStorage a n k i zero32 ∉ calls)
    (hb : ∀ a n k, MemoryBuffer.nestedGet? b.storage a n k ≠ some zero32) :
    ∀ a n k, MemoryBuffer.nestedGet? b'.storage a n k ≠ some zero32 := by
  induction calls generalizing b with
  | nil => rw [← Outcome.ok.inj h]; exact hb
  | cons c calls ih =>
    unfold Db.Buffer.applyAll at h
    obtain ⟨b1, h1, h2⟩ := Outcome.bind_eq_ok.mp h
    refine ih h2 (fun a n k i hm => hz a n k i (List.mem_cons_of_mem _ hm)) ?_
    cases c with
    | beginBlock n => rw [← Outcome.ok.inj h1]; exact hb
    | updateAccountCode a n x code => rw [← Outcome.ok.inj h1]; exact hb
    | updateAccount a i c =>
      have : b1.storage = b.storage := by
        change Db.Buffer.updateAccount b a i c = .ok b1 at h1
        unfold Db.Buffer.updateAccount at h1
        split at h1
        · rw [← Outcome.ok.inj h1]
        · dsimp only at h1
          split at h1
          · rw [← Outcome.ok.inj h1]; rfl
          · unfold Db.Buffer.noteIncarnation at h1
            split at h1
            · rw [← Outcome.ok.inj h1]; rfl
            · split at h1
              · cases h1
              · split at h1
                · rw [← Outcome.ok.inj h1]; rfl
                · rw [← Outcome.ok.inj h1]; rfl
      rw [this]
      exact hb
    | updateStorage a n k i c =>
      rw [← Outcome.ok.inj h1]
      unfold Db.Buffer.updateStorage
      split
      · exact hb
      · intro a' n' k'
        dsimp only
        rw [MemoryBuffer.nestedGet?_nestedSet]
        split
        · intro hc
          have hc := Option.some.inj hc
          exact hz a n k i (by rw [hc]; exact List.mem_cons_self)
        · exact hb a' n' k'

theorem storageOf_get (b : Db.Buffer) (a : Bytes) (i : Nat) (l : Bytes) :
    AMap.get? (storageOf b.toMemory a i : AMap Bytes Bytes) l = MemoryBuffer.nestedGet? b.storage a i l := by
  have hs : storageOf b.toMemory a i = match b.storage.get? a with | none => [] | some m1 => (m1.get? i).getD [] := rfl
  rw [hs]
  unfold MemoryBuffer.nestedGet?
  cases b.storage.get? a with
  | none => rfl
  | some m =>
    dsimp only
    cases m.get? i <;> rfl

/-- C119 for a buffer over an empty database in which no slot was set to zero. In full the database could be any and slots could
be set to zero. -/
theorem c119_state_root_partial (keccak : Bytes → Bytes) (r : Bytes → Option (List Nat)) (calls : List BufferCall) (b : Db.Buffer)
    (world : List (Bytes × Account × List (Bytes × Bytes))) (hb : Reached calls b)
    (hz : ∀ a n k i, BufferCall.updateStorage a n k i zero32 ∉ calls) (hr : ReadsAs r {} b world) (hk : HashFits keccak world) :
    b.stateRootHash keccak = .ok (stateRoot keccak world) := by
  have hw := hb.wf
  have hacc : AMap.WF b.accounts := Db.Buffer.applyAll_accounts hb.2 AMap.WF_nil
  have hzero := storage_of_calls hb.2 hz (by intro a n k h; cases h)
  have hread : ∀ a x, Db.Buffer.readAccount r {} none b a = .ok (some x) ↔ b.accounts.get? a = some (some x) := by
    intro a x
    unfold Db.Buffer.readAccount
    cases b.accounts.get? a with
    | none => exact ⟨fun h => (by cases h), fun h => (by cases h)⟩
    | some y => exact ⟨fun h => congrArg some (Outcome.ok.inj h), fun h => by rw [Option.some.inj h]⟩
  have hslot : ∀ a i l v, v ≠ zero32 →
      (Db.Buffer.readStorage r {} none b a i l = .ok v ↔ MemoryBuffer.nestedGet? b.storage a i l = some v) := by
    intro a i l v hv
    unfold Db.Buffer.readStorage
    cases MemoryBuffer.nestedGet? b.storage a i l with
    | none => exact ⟨fun h => absurd (Outcome.ok.inj h).symm hv, fun h => (by cases h)⟩
    | some y => exact ⟨fun h => congrArg some (Outcome.ok.inj h), fun h => by rw [Option.some.inj h]⟩
  have hmem : ∀ a x, (a, x) ∈ Db.Buffer.presentAccounts b.accounts ↔ ∃ st, (a, x, st) ∈ world := by
    intro a x
    rw [Db.Buffer.mem_presentAccounts]
    constructor
    · intro h
      have hg := AMap.get?_of_mem hacc h
      have hl := hw.accountKeys a (List.mem_map.mpr ⟨_, h, rfl⟩)
      exact (hr.accounts a x hl).mp ((hread a x).mpr hg)
    · rintro ⟨st, h⟩
      have hl := hr.addresses _ h
      exact AMap.mem_of_get? ((hread a x).mp ((hr.accounts a x hl).mpr ⟨st, h⟩))
  -- the storage of an account of the state
  have hst : ∀ w ∈ world, StorageOk (storageOf b.toMemory w.1 w.2.1.incarnation) ∧
      ∀ l v, (l, v) ∈ storageOf b.toMemory w.1 w.2.1.incarnation ↔ (l, v) ∈ w.2.2 ∧ v ≠ zero32 := by
    intro w hwm
    have hswf : AMap.WF (storageOf b.toMemory w.1 w.2.1.incarnation : AMap Bytes Bytes) := by
      have hs : storageOf b.toMemory w.1 w.2.1.incarnation =
        match b.storage.get? w.1 with | none => [] | some m1 => (m1.get? w.2.1.incarnation).getD [] := rfl
      rw [hs]
      cases hm : b.storage.get? w.1 with
      | none => exact AMap.WF_nil
      | some m =>
        dsimp only
        cases hm2 : m.get? w.2.1.incarnation with
        | none => exact AMap.WF_nil
        | some s => exact (hw.storage.2 _ _ hm).2 _ _ hm2
    have hg : ∀ l v, (l, v) ∈ storageOf b.toMemory w.1 w.2.1.incarnation ↔
        MemoryBuffer.nestedGet? b.storage w.1 w.2.1.incarnation l = some v := by
      intro l v
      rw [← storageOf_get]
      exact ⟨fun h => AMap.get?_of_mem hswf h, fun h => AMap.mem_of_get? h⟩
    have hnz : ∀ l v, (l, v) ∈ storageOf b.toMemory w.1 w.2.1.incarnation → v ≠ zero32 := by
      intro l v h hv
      rw [hg, hv] at h
      exact hzero _ _ _ h
    refine ⟨⟨hswf, fun e he => (hw.values _ _ _ _ ((hg e.1 e.2).mp he)).2, fun e he => hnz e.1 e.2 he⟩, fun l v => ?_⟩
    constructor
    · intro h
      have hlv := hw.values _ _ _ _ ((hg l v).mp h)
      exact ⟨(hr.slots w hwm l v hlv.1 hlv.2 (hnz l v h)).mp ((hslot _ _ _ _ (hnz l v h)).mpr ((hg l v).mp h)), hnz l v h⟩
    · rintro ⟨h, hv⟩
      obtain ⟨w1, w2⟩ := hr.widths w hwm _ h
      exact (hg l v).mpr ((hslot _ _ _ _ hv).mp ((hr.slots w hwm l v w1 w2 hv).mpr h))
  have hroot : ∀ w ∈ world, storageRoot keccak (storageOf b.toMemory w.1 w.2.1.incarnation) = storageRoot keccak w.2.2 := by
    intro w hwm
    obtain ⟨h1, h2⟩ := hst w hwm
    refine Db.Buffer.storageRoot_congr hk.length h1.wf (hr.locations w hwm) ?_ ?_
    · intro x hx y hy hxy
      obtain ⟨e, he, rfl⟩ := List.mem_map.mp hx
      obtain ⟨f, hf, rfl⟩ := List.mem_map.mp hy
      exact hk.locations w hwm e ((h2 e.1 e.2).mp he).1 f ((h2 f.1 f.2).mp hf).1 hxy
    · intro l v hv
      rw [h2]
      refine ⟨fun h => h.1, fun h => ⟨h, fun hc => hv ?_⟩⟩
      rw [hc]
      decide +kernel
  -- the accounts of the state
  have hpres : ∀ e ∈ Db.Buffer.presentAccounts b.accounts, ∃ st, (e.1, e.2, st) ∈ world := fun e he => (hmem e.1 e.2).mp he
  have hspec := stateRootHash_spec (b := b.toMemory) hk.length hk.empty (Db.Buffer.presentAccounts_wf hacc)
    (fun e he => hw.accounts e.1 e.2 (AMap.get?_of_mem hacc (Db.Buffer.mem_presentAccounts.mp he)))
    (fun e he => by obtain ⟨st, h⟩ := hpres e he; exact (hst _ h).1)
    (fun x hx y hy hxy => by
      obtain ⟨e, he, rfl⟩ := List.mem_map.mp hx
      obtain ⟨f, hf, rfl⟩ := List.mem_map.mp hy
      obtain ⟨s, h1⟩ := hpres e he
      obtain ⟨t, h2⟩ := hpres f hf
      exact hk.addresses _ h1 _ h2 hxy)
    (fun e he x hx y hy hxy => by
      obtain ⟨st, h⟩ := hpres e he
      obtain ⟨f, hf, rfl⟩ := List.mem_map.mp hx
      obtain ⟨g, hg, rfl⟩ := List.mem_map.mp hy
      exact hk.locations _ h f (((hst _ h).2 f.1 f.2).mp hf).1 g (((hst _ h).2 g.1 g.2).mp hg).1 hxy)
  rw [Db.Buffer.stateRootHash_eq, hspec]
  congr 1
  unfold stateRoot
  have e2 : world.map (fun e => (keccak e.1, rlp (accountItem e.2.1 (storageRoot keccak e.2.2)))) =
      (world.map fun w => (w.1, w.2.1)).map fun e => (keccak e.1,
        rlp (accountItem e.2 (storageRoot keccak (storageOf b.toMemory e.1 e.2.incarnation)))) := by
    rw [List.map_map]
    apply List.map_congr_left
    intro w hwm
    dsimp only [Function.comp]
    rw [hroot w hwm]
  rw [e2, List.map_map]
  have hnd : ∀ {l : List (Bytes × Account)}, (l.map (·.1)).Nodup → l.Nodup := by
    intro l h
    exact (List.pairwise_map.mp h).imp fun hab h => hab (by rw [h])
  have hwnd : ((world.map fun w => (w.1, w.2.1)).map (·.1)).Nodup := by
    rw [List.map_map]
    exact hr.once
  have hp : (Db.Buffer.presentAccounts b.accounts).Perm (world.map fun w => (w.1, w.2.1)) := by
    refine (List.perm_ext_iff_of_nodup (hnd (Db.Buffer.presentAccounts_wf hacc)) (hnd hwnd)).mpr ?_
    rintro ⟨a, x⟩
    rw [hmem, List.mem_map]
    constructor
    · rintro ⟨st, h⟩; exact ⟨_, h, rfl⟩
    · rintro ⟨w, h, he⟩
      obtain ⟨e1, e2⟩ := Prod.mk.inj he
      exact ⟨w.2.2, by rw [← e1, ← e2]; exact h⟩
  refine trieRoot_perm keccak (hp.map _) ?_
  apply prefixFree_of_length
  · intro e he
    obtain ⟨f, _, rfl⟩ := List.mem_map.mp he
    exact hk.length _
  · rw [List.pairwise_map]
    have hw' := List.pairwise_map.mp (Db.Buffer.presentAccounts_wf hacc)
    refine hw'.imp_of_mem ?_
    intro e f he hf hef hh
    obtain ⟨s, h1⟩ := hpres e he
    obtain ⟨t, h2⟩ := hpres f hf
    exact hef (hk.addresses _ h1 _ h2 hh)

/-! ## Violations and examples -/

/-- An account of a contract for the examples. -/
def exRootAccount : Account := ⟨1, 10, exWord 9, 1⟩

theorem exHashFits (st : List (Bytes × Bytes)) (h : ∀ e ∈ st, ∀ f ∈ st, sumHash e.1 = sumHash f.1 → e.1 = f.1) :
    HashFits sumHash [(exAddr 7, exRootAccount, st)] := by
  refine ⟨sumHash_length, by decide +kernel, ?_, ?_⟩
  · intro v hv w hw _
    rw [List.mem_singleton.mp hv, List.mem_singleton.mp hw]
  · intro w hw
    rw [List.mem_singleton.mp hw]
    exact h

/-- A database with an account. -/
def exRootDb : Database := { plainState := [(exAddr 7, exRootAccount.encodeForStorage)] }

/-- C119 is violated: accounts in the database do not count, so that the root of a new buffer is that of an empty state. -/
theorem c119_database_violated : ¬ C119_statement := by
  intro h
  have h1 := h sumHash exNoBitmap exRootDb [] {} [(exAddr 7, exRootAccount, [])] ⟨by simp, rfl⟩ ?_ (exHashFits [] (by simp))
  · revert h1
    decide +kernel
  · refine ⟨by simp, by decide +kernel, ?_, by simp, by simp, ?_⟩
    · intro a x _
      have hr : Db.Buffer.readAccount exNoBitmap exRootDb none {} a =
          if exAddr 7 = a then .ok (some exRootAccount) else .ok none := by
        by_cases ha : exAddr 7 = a
        · rw [if_pos ha, ← ha]
          decide +kernel
        · rw [if_neg ha]
          have hf : exRootDb.plainState.find a = none := by
            unfold exRootDb Table.find
            rw [List.find?_cons, beq_false_of_ne ha]
            rfl
          unfold Db.Buffer.readAccount Db.readAccount
          simp only [AMap.get?_nil, Outcome.ok_bind]
          rw [hf]
          rfl
      rw [hr]
      constructor
      · intro hx
        by_cases ha : exAddr 7 = a
        · rw [if_pos ha] at hx
          have := Option.some.inj (Outcome.ok.inj hx)
          exact ⟨[], by rw [← ha, ← this]; exact List.mem_cons_self⟩
        · rw [if_neg ha] at hx
          cases Outcome.ok.inj hx
      · rintro ⟨st, hm⟩
        have hm := List.mem_singleton.mp hm
        obtain ⟨m1, m2⟩ := Prod.mk.inj hm
        rw [m1, (Prod.mk.inj m2).1, if_pos rfl]
    · intro w hw l v _ _ hv
      have hw := List.mem_singleton.mp hw
      subst hw
      constructor
      · intro hx
        exfalso
        have hf : findValueSuffix exRootDb.plainState (storagePrefix (exAddr 7) exRootAccount.incarnation) l = none := by
          have hs : stored exRootDb.plainState (storagePrefix (exAddr 7) exRootAccount.incarnation) = [] := by decide +kernel
          exact findValueSuffix_none fun y hy => by rw [hs] at hy; cases hy
        have hr : Db.Buffer.readStorage exNoBitmap exRootDb none {} (exAddr 7) exRootAccount.incarnation l = .ok zero32 := by
          unfold Db.Buffer.readStorage Db.readStorage
          simp only [Outcome.ok_bind]
          rw [hf]
          rfl
        rw [hr] at hx
        exact hv (Outcome.ok.inj hx).symm
      · intro hx; cases hx

/-- A slot set to zero. -/
def exZeroCalls : List BufferCall :=
  [.beginBlock 1, .updateAccount (exAddr 7) none (some exRootAccount), .updateStorage (exAddr 7) 1 (exWord 5) (exWord 1) zero32]

/-- The buffer after these calls. -/
def exZeroBuffer : Db.Buffer := match ({} : Db.Buffer).applyAll exZeroCalls with | .ok b => b | _ => {}

theorem exZero_reached : Reached exZeroCalls exZeroBuffer := by
  refine ⟨?_, ?_⟩
  · intro c hc
    simp only [exZeroCalls, List.mem_cons, List.not_mem_nil, or_false] at hc
    rcases hc with rfl | rfl | rfl
    · show 1 < 2 ^ 64; decide
    · refine ⟨by decide, ?_, ?_⟩
      · intro x h; cases h
      · intro x h; cases h; exact ⟨by decide, by decide, by decide, by decide⟩
    · exact ⟨by decide, by decide, by decide, by decide, by decide⟩
  · unfold exZeroBuffer
    obtain ⟨b, h⟩ := c82_calls exZeroCalls {}
    rw [h]

theorem exZero_accounts : exZeroBuffer.accounts = [(exAddr 7, some exRootAccount)] := by decide +kernel
theorem exZero_storage : exZeroBuffer.storage = [(exAddr 7, [(1, [(exWord 5, zero32)])])] := by
  rfl

/-- C119 is violated also over an empty database: a slot that was set to zero counts as an entry of the storage trie. -/
theorem c119_zero_violated : ¬ ∀ (keccak : Bytes → Bytes) (r : Bytes → Option (List Nat)) (calls : List BufferCall)
    (b : Db.Buffer) (world : List (Bytes × Account × List (Bytes × Bytes))), Reached calls b → ReadsAs r {} b world →
    HashFits keccak world → b.stateRootHash keccak = .ok (stateRoot keccak world) := by
  intro h
  have h1 := h sumHash exNoBitmap exZeroCalls exZeroBuffer [(exAddr 7, exRootAccount, [])] exZero_reached ?_
    (exHashFits [] (by simp))
  · revert h1
    decide +kernel
  · refine ⟨by simp, by decide +kernel, ?_, by simp, by simp, ?_⟩
    · intro a x _
      unfold Db.Buffer.readAccount
      rw [exZero_accounts, AMap.get?_cons]
      by_cases ha : exAddr 7 = a
      · rw [if_pos ha]
        constructor
        · intro hx
          exact ⟨[], by rw [← ha, ← Option.some.inj (Outcome.ok.inj hx)]; exact List.mem_cons_self⟩
        · rintro ⟨st, hm⟩
          obtain ⟨m1, m2⟩ := Prod.mk.inj (List.mem_singleton.mp hm)
          rw [(Prod.mk.inj m2).1]
      · rw [if_neg ha]
        constructor
        · intro hx; cases hx
        · rintro ⟨st, hm⟩
          exact absurd (Prod.mk.inj (List.mem_singleton.mp hm)).1.symm ha
    · intro w hw l v _ _ hv
      have hw := List.mem_singleton.mp hw
      subst hw
      constructor
      · intro hx
        exfalso
        have hr : Db.Buffer.readStorage exNoBitmap {} none exZeroBuffer (exAddr 7) exRootAccount.incarnation l = .ok zero32 := by
          have hg : MemoryBuffer.nestedGet? exZeroBuffer.storage (exAddr 7) exRootAccount.incarnation l =
              if exWord 5 = l then some zero32 else none := by
            rw [exZero_storage]
            show AMap.get? [(exWord 5, zero32)] l = _
            rw [AMap.get?_cons]
            rfl
          unfold Db.Buffer.readStorage
          rw [hg]
          by_cases hl : exWord 5 = l
          · rw [if_pos hl]
          · rw [if_neg hl]; rfl
        rw [hr] at hx
        exact hv (Outcome.ok.inj hx).symm
      · intro hx; cases hx

/-- A slot set to a value, and an account that was deleted. -/
def exRootCalls : List BufferCall :=
  [.beginBlock 1, .updateAccount (exAddr 7) none (some exRootAccount), .updateStorage (exAddr 7) 1 (exWord 5) zero32 (exWord 1),
   .updateAccount (exAddr 8) (some exRootAccount) none]

example : (match ({} : Db.Buffer).applyAll exRootCalls with | .ok b => b.stateRootHash sumHash | _ => .ub) =
    .ok (stateRoot sumHash [(exAddr 7, exRootAccount, [(exWord 5, exWord 1)])]) := by decide +kernel

end Silkworm.Properties
