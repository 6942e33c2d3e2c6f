import Verif.Db.BufferInvariant
import Verif.Spec.Buffers
import Verif.State.Observe

/-!
# The buffers of the state: lemmas
-/

namespace Silkworm.Db.Buffer

open Silkworm.Spec State IntraBlockState MemoryBuffer

variable {r : Bytes → Option (List Nat)} {db : Database}

/-- What the next call needs. -/
def Agrees (m : MemoryBuffer) : BufferCall → Prop
  | .updateAccount a i c => (c = i → m.readAccount a = c) ∧
      (c = none → ∀ x, i = some x → x.incarnation = 0 → m.previousIncarnation a = 0)
  | .updateStorage a n k v w => w = v → m.readStorage a n k = w
  | _ => True

theorem mem_previous (m : MemoryBuffer) (a : Bytes) (i c : Option Account) (x : Bytes) :
    (m.updateAccount a i c).previousIncarnation x =
      (match c, i with
        | none, some y => if x = a then y.incarnation else m.previousIncarnation x
        | _, _ => m.previousIncarnation x) := by
  cases c with
  | some c => rfl
  | none =>
    cases i with
    | none => rfl
    | some y =>
      show ((m.prevIncarnations.set a y.incarnation).get? x).getD 0 =
        if x = a then y.incarnation else (m.prevIncarnations.get? x).getD 0
      rw [AMap.get?_set]
      by_cases h : x = a
      · rw [if_pos h, if_pos h]; rfl
      · rw [if_neg h, if_neg h]

theorem mem_code (m : MemoryBuffer) (h code x : Bytes) :
    (m.updateAccountCode h code).readCode x = if x = h then code else m.readCode x := by
  show ((m.code.set h code).get? x).getD [] = _
  rw [AMap.get?_set]
  by_cases e : x = h
  · rw [if_pos e, if_pos e]; rfl
  · rw [if_neg e, if_neg e]; rfl

theorem mem_storage (m : MemoryBuffer) (a : Bytes) (n : Nat) (k v w : Bytes) (x : Bytes) (p : Nat) (j : Bytes) :
    (m.updateStorage a n k v w).readStorage x p j = if x = a ∧ p = n ∧ j = k then w else m.readStorage x p j :=
  nestedRead_storeValue m.storage a n k w x p j

theorem apply_same {b : Buffer} {m : MemoryBuffer} (h : SameState r db b m) {c : BufferCall} (hc : Agrees m c) :
    ∃ b', b.apply c = .ok b' ∧ SameState r db b' (m.apply c) := by
  cases c with
  | beginBlock n => exact ⟨_, rfl, ⟨h.accounts, h.code, h.storage, h.previous⟩⟩
  | updateAccount a i c =>
    obtain ⟨b', h1, h2, h3, h4, h5, _⟩ := updateAccount_spec b a i c
    obtain ⟨hs1, _, hs3, _⟩ := updateAccount_storage m a i c
    refine ⟨b', h1, ?_, ?_, ?_, ?_⟩
    · intro x hx
      show readAccount r db none b' x = .ok ((m.updateAccount a i c).readAccount x)
      rw [updateAccount_accounts]
      have hb := h.accounts x hx
      unfold readAccount at hb ⊢
      rw [h2]
      by_cases hi : c = i
      · rw [if_pos hi, hb]
        by_cases hxa : x = a
        · rw [if_pos hxa, hxa, hc.1 hi]
        · rw [if_neg hxa]
      · rw [if_neg hi, AMap.get?_set]
        by_cases hxa : x = a
        · rw [if_pos hxa, if_pos hxa]
        · rw [if_neg hxa, if_neg hxa]; exact hb
    · intro x hx
      have hb := h.code x hx
      show readCode db b' x = ((m.updateAccount a i c).code.get? x).getD []
      rw [hs3]
      unfold readCode at hb ⊢
      rw [h5]; exact hb
    · intro x n k hx hn hk
      have hb := h.storage x n k hx hn hk
      show readStorage r db none b' x n k = .ok ((nestedGet? (m.updateAccount a i c).storage x n k).getD zero32)
      rw [hs1]
      unfold readStorage at hb ⊢
      rw [h4]; exact hb
    · intro x hx
      have hb := h.previous x hx
      show previousIncarnation db none b' x = .ok ((m.updateAccount a i c).previousIncarnation x)
      rw [mem_previous]
      unfold previousIncarnation at hb ⊢
      rw [h3]
      cases c with
      | some c => exact hb
      | none =>
        cases i with
        | none => exact hb
        | some y =>
          simp only
          by_cases hy : y.incarnation ≠ 0
          · rw [if_pos hy, AMap.get?_set]
            by_cases hxa : x = a
            · rw [if_pos hxa, if_pos hxa]
            · rw [if_neg hxa, if_neg hxa]; exact hb
          · rw [if_neg hy, hb]
            by_cases hxa : x = a
            · rw [if_pos hxa, hxa, hc.2 rfl y rfl (by omega)]
              congr 1; omega
            · rw [if_neg hxa]
  | updateAccountCode a n hash code =>
    refine ⟨_, rfl, h.accounts, fun x hx => ?_, h.storage, h.previous⟩
    have hb := h.code x hx
    show readCode db (b.updateAccountCode a n hash code) x = (m.updateAccountCode hash code).readCode x
    rw [mem_code]
    unfold readCode at hb ⊢
    show (match (b.hashToCode.set hash code).get? x with | some c => c | none => _) = _
    rw [AMap.get?_set]
    by_cases e : x = hash
    · rw [if_pos e, if_pos e]
    · rw [if_neg e, if_neg e]; exact hb
  | updateStorage a n k v w =>
    refine ⟨_, rfl, ?_, ?_, ?_, ?_⟩
    · intro x hx
      have hb := h.accounts x hx
      have e : (b.updateStorage a n k v w).accounts = b.accounts := by unfold updateStorage; split <;> rfl
      show readAccount r db none (b.updateStorage a n k v w) x = .ok (m.readAccount x)
      unfold readAccount at hb ⊢
      rw [e]; exact hb
    · intro x hx
      have hb := h.code x hx
      have e : (b.updateStorage a n k v w).hashToCode = b.hashToCode := by unfold updateStorage; split <;> rfl
      show readCode db (b.updateStorage a n k v w) x = m.readCode x
      unfold readCode at hb ⊢
      rw [e]; exact hb
    · intro x p j hx hp hj
      have hb := h.storage x p j hx hp hj
      show readStorage r db none (b.updateStorage a n k v w) x p j = .ok ((m.updateStorage a n k v w).readStorage x p j)
      rw [mem_storage]
      unfold updateStorage
      by_cases hw : w = v
      · rw [if_pos hw, hb]
        by_cases hx' : x = a ∧ p = n ∧ j = k
        · rw [if_pos hx', hx'.1, hx'.2.1, hx'.2.2, hc hw]
        · rw [if_neg hx']
      · rw [if_neg hw]
        unfold readStorage at hb ⊢
        simp only [nestedGet?_nestedSet]
        by_cases hx' : x = a ∧ p = n ∧ j = k
        · rw [if_pos hx', if_pos hx']
        · rw [if_neg hx', if_neg hx']; exact hb
    · intro x hx
      have hb := h.previous x hx
      have e : (b.updateStorage a n k v w).incarnations = b.incarnations := by unfold updateStorage; split <;> rfl
      show previousIncarnation db none (b.updateStorage a n k v w) x = .ok (m.previousIncarnation x)
      unfold previousIncarnation at hb ⊢
      rw [e]; exact hb

theorem applyAll_cons {b b1 : Buffer} {c : BufferCall} {L : List BufferCall} (h : b.apply c = .ok b1) :
    b.applyAll (c :: L) = b1.applyAll L := by
  unfold applyAll
  rw [List.foldlM_cons, h]
  rfl

theorem applyAll_same (L : List BufferCall) {b : Buffer} {m : MemoryBuffer} (h : SameState r db b m)
    (hA : ∀ c ∈ L, Agrees m c)
    (ha : ∀ a i c i' c', .updateAccount a i c ∈ L → .updateAccount a i' c' ∈ L → i = i' ∧ c = c')
    (hs : ∀ a n k v w v' w', .updateStorage a n k v w ∈ L → .updateStorage a n k v' w' ∈ L → w = w') :
    ∃ b', b.applyAll L = .ok b' ∧ SameState r db b' (m.applyAll L) := by
  induction L generalizing b m with
  | nil => exact ⟨b, rfl, h⟩
  | cons c L ih =>
    obtain ⟨b1, h1, h2⟩ := apply_same h (hA c (List.mem_cons_self ..))
    have hm : ∀ x ∈ L, x ∈ c :: L := fun x hx => List.mem_cons_of_mem _ hx
    have hA2 : ∀ d ∈ L, Agrees (m.apply c) d := by
      intro d hd
      have hA' := hA d (hm d hd)
      cases d with
      | beginBlock _ => trivial
      | updateAccountCode _ _ _ _ => trivial
      | updateAccount a i e =>
        cases c with
        | beginBlock _ => exact hA'
        | updateAccountCode _ _ _ _ => exact hA'
        | updateStorage _ _ _ _ _ => exact hA'
        | updateAccount a' i' e' =>
          show (e = i → (m.updateAccount a' i' e').readAccount a = e) ∧
            (e = none → ∀ x, i = some x → x.incarnation = 0 → (m.updateAccount a' i' e').previousIncarnation a = 0)
          rw [updateAccount_accounts, mem_previous]
          by_cases haa : a = a'
          · subst haa
            obtain ⟨rfl, rfl⟩ := ha a i e i' e' (hm _ hd) (List.mem_cons_self ..)
            refine ⟨fun _ => by rw [if_pos rfl], fun he x hx h0 => ?_⟩
            subst he hx
            simp only [if_true]; exact h0
          · refine ⟨fun he => by rw [if_neg haa]; exact hA'.1 he, fun he x hx h0 => ?_⟩
            have := hA'.2 he x hx h0
            cases e' with
            | some _ => exact this
            | none =>
              cases i' with
              | none => exact this
              | some _ => simp only [if_neg haa]; exact this
      | updateStorage a n k v w =>
        cases c with
        | beginBlock _ => exact hA'
        | updateAccountCode _ _ _ _ => exact hA'
        | updateAccount a' i' e' =>
          show w = v → (nestedGet? (m.updateAccount a' i' e').storage a n k).getD zero32 = w
          rw [(updateAccount_storage m a' i' e').1]; exact hA'
        | updateStorage a' n' k' v' w' =>
          show w = v → (m.updateStorage a' n' k' v' w').readStorage a n k = w
          intro hw
          rw [mem_storage]
          by_cases hx : a = a' ∧ n = n' ∧ k = k'
          · obtain ⟨rfl, rfl, rfl⟩ := hx
            rw [if_pos ⟨rfl, rfl, rfl⟩]
            exact (hs a n k v w v' w' (hm _ hd) (List.mem_cons_self ..)).symm
          · rw [if_neg hx]; exact hA' hw
    obtain ⟨b', h3, h4⟩ := ih h2 hA2 (fun a i c i' c' x y => ha a i c i' c' (hm _ x) (hm _ y))
      (fun a n k v w v' w' x y => hs a n k v w v' w' (hm _ x) (hm _ y))
    exact ⟨b', by rw [applyAll_cons h1]; exact h3, h4⟩

/-- The calls of one block. -/
theorem oneBlock_same {L : List BufferCall} {b : Buffer} {m : MemoryBuffer} (n : Nat) (h : SameState r db b m)
    (hL : OneBlock m L) : ∃ b', b.applyAll (.beginBlock n :: L) = .ok b' ∧ SameState r db b' (m.applyAll (.beginBlock n :: L)) := by
  have hA : ∀ c ∈ L, Agrees m c := by
    intro c hc
    have hi := hL.initial c hc
    cases c with
    | beginBlock _ => trivial
    | updateAccountCode _ _ _ _ => trivial
    | updateAccount a i c =>
      refine ⟨fun e => by rw [e]; exact Eq.symm hi, fun e x hx h0 => ?_⟩
      subst e hx
      exact hL.deleted a x hc h0
    | updateStorage a n k v w =>
      intro e
      rw [e]; exact Eq.symm hi
  have h0 : SameState r db (b.beginBlock n) (m.beginBlock n) := ⟨h.accounts, h.code, h.storage, h.previous⟩
  have hA0 : ∀ c ∈ L, Agrees (m.beginBlock n) c := by
    intro c hc
    have := hA c hc
    cases c <;> exact this
  obtain ⟨b', h1, h2⟩ := applyAll_same L h0 hA0
    (fun a i c i' c' x y => ⟨(Eq.trans (hL.initial _ x) (Eq.symm (hL.initial _ y)) : i = i'), hL.account a i c i' c' x y⟩) hL.slot
  exact ⟨b', by rw [applyAll_cons (b1 := b.beginBlock n) rfl]; exact h1, h2⟩

/-- The calls of an executed block. -/
theorem oneBlock_commit {m : MemoryBuffer} {s : IntraBlockState} (hi : Inv m.reader s) (he : SafeEnd m.reader s) {n : Nat}
    {L : List BufferCall} (h : CommitCalls s n L) : ∃ M, L = .beginBlock n :: M ∧ OneBlock m M := by
  obtain ⟨M, rfl, hM⟩ := commitCalls_tail h
  refine ⟨M, rfl, ?_, ?_, ?_, ?_⟩
  · intro c hc
    rcases writeToDb_faithful hi (hM c hc).1 with rfl | hf
    · exact absurd (hM _ hc).2 id
    · cases c <;> exact hf
  · intro a i c i' c' h1 h2
    have e1 := (mem_updateAccount hi.order.wfObjects).mp (hM _ h1).1
    have e2 := (mem_updateAccount hi.order.wfObjects).mp (hM _ h2).1
    rw [e1] at e2
    exact congrArg Object.current (Option.some.inj e2)
  · intro a p k v w v' w' h1 h2
    obtain ⟨_, _, _, _, _, e1⟩ := (mem_updateStorage hi.order).mp (hM _ h1).1
    obtain ⟨_, _, _, _, _, e2⟩ := (mem_updateStorage hi.order).mp (hM _ h2).1
    rw [e1] at e2
    exact congrArg CommittedValue.original (Option.some.inj e2)
  · intro a x h1 h0
    have e1 := (mem_updateAccount hi.order.wfObjects).mp (hM _ h1).1
    refine he.destroyed a { initial := some x, current := none } x ?_ rfl rfl h0
    unfold getObject
    rw [e1]

/-- Calls within the types keep the keys within the types. -/
theorem typed_apply {m : MemoryBuffer} (h : TypedKeys m) {c : BufferCall} (hc : CallFits c) : TypedKeys (m.apply c) := by
  cases c with
  | beginBlock n => exact ⟨h.accounts, h.code, h.storage, h.previous⟩
  | updateAccount a i c =>
    obtain ⟨hs1, _, hs3, _⟩ := updateAccount_storage m a i c
    refine ⟨fun x hx => ?_, fun x hx => ?_, fun x n k hx => ?_, fun x hx => ?_⟩
    · show (m.updateAccount a i c).readAccount x = none
      rw [updateAccount_accounts, if_neg (fun e => hx (by rw [e]; exact hc.1))]
      exact h.accounts x hx
    · show ((m.updateAccount a i c).code.get? x).getD [] = []
      rw [hs3]; exact h.code x hx
    · show (nestedGet? (m.updateAccount a i c).storage x n k).getD zero32 = zero32
      rw [hs1]; exact h.storage x n k hx
    · show (m.updateAccount a i c).previousIncarnation x = 0
      rw [mem_previous]
      have hxa : x ≠ a := fun e => hx (by rw [e]; exact hc.1)
      cases c with
      | some _ => exact h.previous x hx
      | none =>
        cases i with
        | none => exact h.previous x hx
        | some y => simp only [if_neg hxa]; exact h.previous x hx
  | updateAccountCode a n hash code =>
    refine ⟨h.accounts, fun x hx => ?_, h.storage, h.previous⟩
    show (m.updateAccountCode hash code).readCode x = []
    rw [mem_code, if_neg (fun e => hx (by rw [e]; exact hc.2.2))]
    exact h.code x hx
  | updateStorage a n k v w =>
    refine ⟨h.accounts, h.code, fun x p j hx => ?_, h.previous⟩
    show (m.updateStorage a n k v w).readStorage x p j = zero32
    rw [mem_storage, if_neg]
    · exact h.storage x p j hx
    · rintro ⟨rfl, rfl, rfl⟩
      exact hx ⟨hc.1, hc.2.1, hc.2.2.1⟩

theorem typed_applyAll (L : List BufferCall) {m : MemoryBuffer} (h : TypedKeys m) (hc : ∀ c ∈ L, CallFits c) :
    TypedKeys (m.applyAll L) := by
  induction L generalizing m with
  | nil => exact h
  | cons c L ih =>
    exact ih (typed_apply h (hc c (List.mem_cons_self ..))) (fun x hx => hc x (List.mem_cons_of_mem _ hx))

theorem dbReader_eq {b : Buffer} {m : MemoryBuffer} (h : SameState r db b m) (ht : TypedKeys m) : dbReader r db b = m.reader := by
  unfold dbReader MemoryBuffer.reader
  congr 1
  · funext a
    by_cases ha : a.length = 20
    · rw [if_pos ha, h.accounts a ha]; rfl
    · rw [if_neg ha, ht.accounts a ha]
  · funext x
    by_cases hx : x.length = 32
    · rw [if_pos hx, h.code x hx]
    · rw [if_neg hx, ht.code x hx]
  · funext a n k
    by_cases hx : a.length = 20 ∧ n < 2 ^ 64 ∧ k.length = 32
    · rw [if_pos hx, h.storage a n k hx.1 hx.2.1 hx.2.2]; rfl
    · rw [if_neg hx, ht.storage a n k hx]
  · funext a
    by_cases ha : a.length = 20
    · rw [if_pos ha, h.previous a ha]; rfl
    · rw [if_neg ha, ht.previous a ha]

/-- Blocks on the buffer in front of the database end in one way. -/
theorem databaseBlocks_det {keccak : Bytes → Bytes} {b : Buffer} {xs : List Executed} {c d : Buffer}
    (h : DatabaseBlocks keccak r db b xs c) (g : DatabaseBlocks keccak r db b xs d) : c = d := by
  induction h with
  | nil b => cases g; rfl
  | block b ps n L xs b' e _ hw _ ih =>
    cases g with
    | block _ _ n' _ _ _ e' _ hw' rest' =>
      rw [hw] at hw'
      cases hw'
      exact ih rest'

/-- The state stays safe, and the buffers stay the same. -/
theorem blocks_agree {keccak : Bytes → Bytes} {m m' : MemoryBuffer} {xs : List Executed} (hm : MemoryBlocks keccak m xs m')
    {b : Buffer} (h : SameState r db b m) (ht : TypedKeys m) (hdb : SafeDb m.reader) (hs : SafeBlocks keccak m xs)
    (hf : ExecutedFits xs) :
    TypedKeys m' ∧ SafeDb m'.reader ∧ ∃ b', DatabaseBlocks keccak r db b xs b' ∧ SameState r db b' m' := by
  induction hm generalizing b with
  | nil m => exact ⟨ht, hdb, b, .nil b, h⟩
  | block m ps n L xs m' calls _ ih =>
    obtain ⟨safe, hend, hrest⟩ := hs
    have hi := phases_inv hdb ps safe inv_init
    have hp := phases_stable hdb (plainZero_stable (keccak := keccak) hdb) ps safe
      (PhasesAll.triv (fun _ _ => trivial) ps {}) inv_init (plainZero_init hdb)
    obtain ⟨M, rfl, hM⟩ := oneBlock_commit hi hend calls
    obtain ⟨b1, h1, h2⟩ := oneBlock_same n h hM
    obtain ⟨t1, t2, b', h3, h4⟩ := ih h2 (typed_applyAll _ ht (hf _ (List.mem_cons_self ..)))
      (commit_safeDb hdb hi hp hend (commitCalls_same calls)) hrest (fun x hx => hf x (List.mem_cons_of_mem _ hx))
    exact ⟨t1, t2, b', .block b ps n _ xs b' b1 (by rw [dbReader_eq h ht]; exact calls) h1 h3, h4⟩

end Silkworm.Db.Buffer
