import Verif.Wasm.Lifetime

/-!
# Lemmas on the states of the WebAssembly functions
-/

namespace Silkworm.Wasm

section At

variable {h : Heap} {p : Pointer}

theorem bytes_at {b : Bytes} (e : h.bytes p = .ok b) : ∃ id, p = .object id ∧ h.objects.get? id = some (.bytes b) := by
  unfold Heap.bytes Heap.object at e
  split at e <;> try contradiction
  rename_i ho
  split at ho <;> try contradiction
  cases e
  exact ⟨_, rfl, ho⟩

theorem transaction_at {x : Nat × Transaction} (e : h.transaction p = .ok x) : p = .object x.1 ∧ h.objects.get? x.1 = some (.transaction x.2) := by
  unfold Heap.transaction at e
  split at e <;> try contradiction
  split at e <;> try contradiction
  rename_i ho
  cases e
  exact ⟨rfl, ho⟩

theorem account_at {x : Nat × Account} (e : h.account p = .ok x) : p = .object x.1 ∧ h.objects.get? x.1 = some (.account x.2) := by
  unfold Heap.account at e
  split at e <;> try contradiction
  split at e <;> try contradiction
  rename_i ho
  cases e
  exact ⟨rfl, ho⟩

theorem block_at {x : Nat × Block} (e : h.block p = .ok x) : p = .object x.1 ∧ h.objects.get? x.1 = some (.block x.2) := by
  unfold Heap.block at e
  split at e <;> try contradiction
  split at e <;> try contradiction
  rename_i ho
  cases e
  exact ⟨rfl, ho⟩

theorem state_at {x : Nat × MemoryBuffer} (e : h.state p = .ok x) : p = .object x.1 ∧ h.objects.get? x.1 = some (.state x.2) := by
  unfold Heap.state at e
  split at e <;> try contradiction
  split at e <;> try contradiction
  rename_i ho
  cases e
  exact ⟨rfl, ho⟩

theorem chain_at {x : Nat × Nat × (Nat ⊕ Nat) × AMap Bytes ValidationError} (e : h.chain p = .ok x) :
    p = .object x.1 ∧ h.objects.get? x.1 = some (.chain x.2.1 x.2.2.1 x.2.2.2) := by
  unfold Heap.chain at e
  split at e <;> try contradiction
  split at e <;> try contradiction
  rename_i ho
  cases e
  exact ⟨rfl, ho⟩

theorem state_get {id : Nat} {m : MemoryBuffer} (ho : h.objects.get? id = some (.state m)) : h.state (.object id) = .ok (id, m) := by
  simp [Heap.state, Pointer.object, ho]

end At

section Same

variable {h h' : Heap} {s : Nat} {m : MemoryBuffer} (hm : h.objects.get? s = some (.state m))
include hm

theorem same_alloc (hf : Fresh h) (o : Object) : (h.alloc o).1.objects.get? s = some (.state m) := by
  show (h.objects.set h.next o).get? s = _
  rw [AMap.get?_set, if_neg, hm]
  intro e
  have := hf s (by omega)
  rw [hm] at this
  cases this

theorem same_put {id : Nat} (hn : id ≠ s) (o : Object) : (h.put id o).objects.get? s = some (.state m) := by
  show (h.objects.set id o).get? s = _
  rw [AMap.get?_set, if_neg (fun e => hn e.symm), hm]

theorem same_transient (hf : Fresh h) (o : Object) : ((h.alloc o).1.objects.erase h.next).get? s = some (.state m) := by
  rw [AMap.get?_erase, if_neg]
  · exact same_alloc hm hf o
  · intro e
    have := hf s (by omega)
    rw [hm] at this
    cases this

theorem same_release {p : Pointer} {kind : Object → Bool} (hk : kind (.state m) = false ∨ Spec.Wasm.objectOf p ≠ s)
    (e : h.release p kind = .ok h') : h'.objects.get? s = some (.state m) := by
  unfold Heap.release at e
  split at e
  · cases e; exact hm
  · split at e <;> try contradiction
    rename_i ho
    split at e <;> try contradiction
    rename_i hk'
    cases e
    show (h.objects.erase _).get? s = _
    rw [AMap.get?_erase, if_neg, hm]
    rintro rfl
    rcases hk with hk | hk
    · rw [hm] at ho
      cases ho
      rw [hk] at hk'
      cases hk'
    · exact hk rfl
  · cases e

theorem same_write {p : Pointer} {w : Bytes} (e : h.write p w = .ok h') : h'.objects.get? s = some (.state m) := by
  unfold Heap.write at e
  split at e <;> try contradiction
  split at e <;> try contradiction
  rename_i ho
  split at e <;> try contradiction
  rename_i hs
  cases e
  refine same_put hm ?_ _
  rintro rfl
  rw [hm] at ho
  cases ho
  simp [Object.store] at hs

theorem same_setNumber {p : Pointer} {n : Nat} (e : h.setNumber p n = .ok h') : h'.objects.get? s = some (.state m) := by
  unfold Heap.setNumber at e
  split at e <;> try contradiction
  all_goals
    split at e <;> try contradiction
    rename_i ho
    cases e
    refine same_put hm ?_ _
    rintro rfl
    rw [hm] at ho
    cases ho

theorem same_setConfig {p : Pointer} {f : ChainConfig → ChainConfig} (e : h.setConfig p f = .ok h') :
    h'.objects.get? s = some (.state m) := by
  unfold Heap.setConfig at e
  split at e <;> try contradiction
  split at e <;> try contradiction
  rename_i ho
  cases e
  refine same_put hm ?_ _
  rintro rfl
  rw [hm] at ho
  cases ho

end Same

/-- A call that is not about a state leaves it. -/
theorem step_leaves {e : Env} {h h' : Heap} {c : Call} {v : Value} (hf : Fresh h) (hs : step e h c = .ok (h', v)) {s : Nat}
    {m : MemoryBuffer} (hm : h.objects.get? s = some (.state m)) (hl : Spec.Wasm.leavesState s c) :
    h'.objects.get? s = some (.state m) := by
  have del : ∀ {p : Pointer} {k : Object → Bool}, k (.state m) = false → givesNothing (h.release p k) = .ok (h', v) →
      h'.objects.get? s = some (.state m) := fun hk hs => same_release hm (.inl hk) (givesNothing_eq hs).1
  have other : ∀ {id : Nat} {o : Object}, h.objects.get? id = some o → (∀ x, o ≠ .state x) → id ≠ s := by
    rintro id o ho hn rfl
    rw [hm] at ho
    cases ho
    exact hn m rfl
  cases c with
  | hostRead p n =>
    simp only [step, Outcome.bind_eq_ok] at hs
    obtain ⟨b, hb, hs⟩ := hs
    cases hs
    exact hm
  | hostWrite p w => exact same_write hm (givesNothing_eq hs).1
  | newBuffer size =>
    obtain ⟨p, e1, _⟩ := givesPointer_eq hs
    unfold newBuffer at e1
    split at e1
    · cases e1; exact same_alloc hm hf _
    · cases e1; exact hm
  | deleteBuffer p => exact del rfl hs
  | newBytesFromHex data size =>
    obtain ⟨p, e1, _⟩ := givesPointer_eq hs
    simp only [newBytesFromHex, Outcome.bind_eq_ok] at e1
    obtain ⟨b, hb, e1⟩ := e1
    split at e1 <;> cases e1
    · exact hm
    · exact same_alloc hm hf _
  | deleteBytes p => exact del rfl hs
  | bytesData p =>
    simp only [step] at hs
    split at hs <;> try contradiction
    simp only [Outcome.bind_eq_ok] at hs
    obtain ⟨b, hb, hs⟩ := hs
    cases hs
    exact hm
  | bytesLength p =>
    simp only [step, Outcome.bind_eq_ok] at hs
    obtain ⟨b, hb, hs⟩ := hs
    cases hs
    exact hm
  | newUint256 a b c d => cases hs; exact same_alloc hm hf _
  | deleteUint256 p => exact del rfl hs
  | lookupConfig id => cases hs; exact hm
  | newConfig id => cases hs; exact same_alloc hm hf _
  | deleteConfig p => exact del rfl hs
  | setForkBlock p fork block =>
    simp only [step, setForkBlock] at hs
    split at hs
    · exact same_setConfig hm (givesNothing_eq hs).1
    · cases hs
  | setMuirGlacier p block => exact same_setConfig hm (givesNothing_eq hs).1
  | setDao p block => exact same_setConfig hm (givesNothing_eq hs).1
  | difficulty inOut n t pt u config =>
    have e1 := (givesNothing_eq hs).1
    simp only [difficulty, Outcome.bind_eq_ok] at e1
    obtain ⟨d, hd, c, hc, e1⟩ := e1
    exact same_setNumber hm e1
  | newTransaction rlp =>
    obtain ⟨p, e1, _⟩ := givesPointer_eq hs
    simp only [newTransaction, Outcome.bind_eq_ok] at e1
    obtain ⟨b, hb, e1⟩ := e1
    split at e1
    · cases e1
    · cases e1; exact same_transient hm hf _
    · split at e1
      · cases e1; exact same_alloc hm hf _
      · cases e1; exact same_transient hm hf _
  | deleteTransaction p => exact del rfl hs
  | checkIntrinsicGas txn homestead istanbul =>
    simp only [step, checkIntrinsicGas, Outcome.bind_eq_ok] at hs
    obtain ⟨b, ⟨t, ht, _⟩, hs⟩ := hs
    cases hs
    exact hm
  | recoverSender txn =>
    obtain ⟨p, e1, _⟩ := givesPointer_eq hs
    simp only [recoverSender, Outcome.bind_eq_ok] at e1
    obtain ⟨t, ht, e1⟩ := e1
    cases e1
    exact same_put hm (other (transaction_at ht).2 (by simp)) _
  | keccak256 out input =>
    have e1 := (givesNothing_eq hs).1
    simp only [keccak256, Outcome.bind_eq_ok] at e1
    obtain ⟨b, hb, e1⟩ := e1
    exact same_write hm e1
  | newAccount nonce balance =>
    obtain ⟨p, e1, _⟩ := givesPointer_eq hs
    simp only [newAccount, Outcome.bind_eq_ok] at e1
    obtain ⟨b, hb, e1⟩ := e1
    cases e1
    exact same_alloc hm hf _
  | deleteAccount p => exact del rfl hs
  | accountNonce p =>
    simp only [step, Outcome.bind_eq_ok] at hs
    obtain ⟨b, hb, hs⟩ := hs
    cases hs
    exact hm
  | accountBalance p =>
    simp only [step, Outcome.bind_eq_ok] at hs
    obtain ⟨b, hb, hs⟩ := hs
    cases hs
    exact hm
  | accountCodeHash p =>
    simp only [step, Outcome.bind_eq_ok] at hs
    obtain ⟨b, hb, hs⟩ := hs
    cases hs
    exact hm
  | newBlock rlp =>
    obtain ⟨p, e1, _⟩ := givesPointer_eq hs
    simp only [newBlock, Outcome.bind_eq_ok] at e1
    obtain ⟨b, hb, e1⟩ := e1
    split at e1
    · cases e1
    · cases e1; exact same_transient hm hf _
    · split at e1
      · cases e1; exact same_alloc hm hf _
      · cases e1; exact same_transient hm hf _
  | deleteBlock p => exact del rfl hs
  | blockHeader p =>
    simp only [step, Outcome.bind_eq_ok] at hs
    obtain ⟨b, hb, hs⟩ := hs
    cases hs
    exact hm
  | headerNumber p =>
    simp only [step, Outcome.bind_eq_ok] at hs
    obtain ⟨b, hb, hs⟩ := hs
    cases hs
    exact hm
  | headerStateRoot p =>
    simp only [step, Outcome.bind_eq_ok] at hs
    obtain ⟨b, hb, hs⟩ := hs
    cases hs
    exact hm
  | blockRecoverSenders p =>
    have e1 := (givesNothing_eq hs).1
    simp only [blockRecoverSenders, Outcome.bind_eq_ok] at e1
    obtain ⟨b, hb, e1⟩ := e1
    cases e1
    exact same_put hm (other (block_at hb).2 (by simp)) _
  | newState => cases hs; exact same_alloc hm hf _
  | deleteState p => exact same_release hm (.inr hl) (givesNothing_eq hs).1
  | stateRootHash p =>
    obtain ⟨q, e1, _⟩ := givesPointer_eq hs
    simp only [stateRootHash, Outcome.bind_eq_ok] at e1
    obtain ⟨x, hx, root, _, h1, hw, e1⟩ := e1
    cases e1
    refine same_write ?_ hw
    unfold newBuffer
    split
    · exact same_alloc hm hf _
    · exact hm
  | numberOfAccounts p =>
    simp only [step, Outcome.bind_eq_ok] at hs
    obtain ⟨b, hb, hs⟩ := hs
    cases hs
    exact hm
  | storageSize p address account =>
    simp only [step, storageSize, Outcome.bind_eq_ok] at hs
    obtain ⟨n, _, hs⟩ := hs
    cases hs
    exact hm
  | readAccount p address =>
    obtain ⟨q, e1, _⟩ := givesPointer_eq hs
    simp only [readAccount, Outcome.bind_eq_ok] at e1
    obtain ⟨x, hx, a, ha, e1⟩ := e1
    split at e1 <;> cases e1
    · exact hm
    · exact same_alloc hm hf _
  | readCode p codeHash =>
    obtain ⟨q, e1, _⟩ := givesPointer_eq hs
    simp only [readCode, Outcome.bind_eq_ok] at e1
    obtain ⟨x, hx, a, ha, e1⟩ := e1
    cases e1
    exact same_alloc hm hf _
  | readStorage p address account location =>
    obtain ⟨q, e1, _⟩ := givesPointer_eq hs
    simp only [readStorage, Outcome.bind_eq_ok] at e1
    obtain ⟨x, hx, a, ha, y, hy, l, hl, e1⟩ := e1
    cases e1
    exact same_alloc hm hf _
  | updateAccount p address current =>
    have e1 := (givesNothing_eq hs).1
    simp only [updateAccount, Outcome.bind_eq_ok] at e1
    obtain ⟨x, hx, a, ha, y, hy, e1⟩ := e1
    cases e1
    have := (state_at hx).1
    exact same_put hm (fun e => hl (by rw [this]; exact e)) _
  | updateCode p address account code =>
    have e1 := (givesNothing_eq hs).1
    simp only [updateCode, Outcome.bind_eq_ok] at e1
    obtain ⟨x, hx, a, ha, y, hy, l, hl', e1⟩ := e1
    cases e1
    have := (state_at hx).1
    exact same_put hm (fun e => hl (by rw [this]; exact e)) _
  | updateStorage p address account location value =>
    have e1 := (givesNothing_eq hs).1
    simp only [updateStorage, Outcome.bind_eq_ok] at e1
    obtain ⟨x, hx, a, ha, y, hy, l, hl', w, hw, e1⟩ := e1
    cases e1
    have := (state_at hx).1
    exact same_put hm (fun e => hl (by rw [this]; exact e)) _
  | newBlockchain p config genesis =>
    obtain ⟨q, e1, _⟩ := givesPointer_eq hs
    simp only [newBlockchain, Outcome.bind_eq_ok] at e1
    obtain ⟨x, hx, c, hc, g, hg, e1⟩ := e1
    split at e1 <;> cases e1
    have := (state_at hx).1
    refine same_alloc (same_put hm (fun e => hl (by rw [this]; exact e)) _) ?_ _
    exact (keeps_put _ (state_live hx).2).2.2 hf
  | deleteBlockchain p => exact del rfl hs
  | insertBlock chain block check => exact hl.elim

end Silkworm.Wasm
