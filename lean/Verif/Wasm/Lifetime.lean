import Verif.Wasm.Lemmas

/-!
# Lemmas on objects that are gone
-/

namespace Silkworm.Wasm

/-- What a pointer refers to is there. -/
def Live (h : Heap) (p : Pointer) : Prop := ∀ id m o, p = .to id m o → h.objects.get? id ≠ none

/-- Numbers from `next` on are not in use. -/
def Fresh (h : Heap) : Prop := ∀ id, h.next ≤ id → h.objects.get? id = none

/-- What is gone stays gone. -/
def Keeps (h h' : Heap) : Prop :=
  h.next ≤ h'.next ∧ (∀ id, id < h.next → h.objects.get? id = none → h'.objects.get? id = none) ∧ (Fresh h → Fresh h')

theorem Keeps.refl (h : Heap) : Keeps h h := ⟨Nat.le_refl _, fun _ _ e => e, fun f => f⟩

theorem Keeps.trans {a b c : Heap} (x : Keeps a b) (y : Keeps b c) : Keeps a c :=
  ⟨Nat.le_trans x.1 y.1, fun id hid e => y.2.1 id (Nat.lt_of_lt_of_le hid x.1) (x.2.1 id hid e), fun f => y.2.2 (x.2.2 f)⟩

theorem keeps_alloc (h : Heap) (o : Object) : Keeps h (h.alloc o).1 := by
  refine ⟨Nat.le_succ _, fun id hid e => ?_, fun f id hid => ?_⟩
  · show (h.objects.set h.next o).get? id = none
    rw [AMap.get?_set, if_neg (by omega)]
    exact e
  · have hid : h.next + 1 ≤ id := hid
    show (h.objects.set h.next o).get? id = none
    rw [AMap.get?_set, if_neg (by omega)]
    exact f id (by omega)

theorem keeps_put {h : Heap} {id : Nat} (o : Object) (hl : h.objects.get? id ≠ none) : Keeps h (h.put id o) := by
  have key : ∀ i, h.objects.get? i = none → (h.objects.set id o).get? i = none := by
    intro i e
    rw [AMap.get?_set, if_neg (fun x : i = id => hl (x ▸ e))]
    exact e
  exact ⟨Nat.le_refl _, fun i _ e => key i e, fun f i hi => key i (f i hi)⟩

theorem keeps_erase (h : Heap) (id : Nat) : Keeps h { h with objects := h.objects.erase id } := by
  have key : ∀ i, h.objects.get? i = none → (h.objects.erase id).get? i = none := by
    intro i e
    rw [AMap.get?_erase, e, ite_self]
  exact ⟨Nat.le_refl _, fun i _ e => key i e, fun f i hi => key i (f i hi)⟩

theorem keeps_transient (h : Heap) (o : Object) :
    Keeps h { (h.alloc o).1 with objects := (h.alloc o).1.objects.erase h.next } :=
  (keeps_alloc h o).trans (keeps_erase _ _)

theorem live_null (h : Heap) : Live h .null := fun _ _ _ e => by cases e

section Inversion

variable {h : Heap} {p : Pointer}

theorem bytes_live {b : Bytes} (e : h.bytes p = .ok b) : Live h p := by
  rintro id m o rfl hg
  cases m <;> cases o <;> simp [Heap.bytes, Heap.object, hg] at e

theorem number_live {n : Nat} (e : h.number p = .ok n) : Live h p := by
  rintro id m o rfl hg
  cases m <;> cases o <;> simp [Heap.number, hg] at e

theorem numberOrNull_live {n : Option Nat} (e : h.numberOrNull p = .ok n) : Live h p := by
  cases p with
  | null => exact live_null h
  | network _ => exact fun _ _ _ e => by cases e
  | «to» id m o =>
    simp only [Heap.numberOrNull, Outcome.bind_eq_ok] at e
    obtain ⟨n, e, _⟩ := e
    exact number_live e

theorem config_live {c : ChainConfig} (e : h.config p = .ok c) : Live h p := by
  rintro id m o rfl hg
  cases m <;> cases o <;> simp [Heap.config, hg] at e

theorem transaction_live {x : Nat × Transaction} (e : h.transaction p = .ok x) : Live h p ∧ h.objects.get? x.1 ≠ none := by
  cases p with
  | null => cases e
  | network _ => cases e
  | «to» id m o =>
    unfold Heap.transaction at e
    split at e <;> try contradiction
    split at e <;> try contradiction
    rename_i h1 _ _ ho
    cases h1
    cases e
    exact ⟨fun i m o e => by cases e; rw [ho]; simp, by rw [ho]; simp⟩

theorem account_live {x : Nat × Account} (e : h.account p = .ok x) : Live h p ∧ h.objects.get? x.1 ≠ none := by
  cases p with
  | null => cases e
  | network _ => cases e
  | «to» id m o =>
    unfold Heap.account at e
    split at e <;> try contradiction
    split at e <;> try contradiction
    rename_i h1 _ _ ho
    cases h1
    cases e
    exact ⟨fun i m o e => by cases e; rw [ho]; simp, by rw [ho]; simp⟩

theorem block_live {x : Nat × Block} (e : h.block p = .ok x) : Live h p ∧ h.objects.get? x.1 ≠ none := by
  cases p with
  | null => cases e
  | network _ => cases e
  | «to» id m o =>
    unfold Heap.block at e
    split at e <;> try contradiction
    split at e <;> try contradiction
    rename_i h1 _ _ ho
    cases h1
    cases e
    exact ⟨fun i m o e => by cases e; rw [ho]; simp, by rw [ho]; simp⟩

theorem state_live {x : Nat × MemoryBuffer} (e : h.state p = .ok x) : Live h p ∧ h.objects.get? x.1 ≠ none := by
  cases p with
  | null => cases e
  | network _ => cases e
  | «to» id m o =>
    unfold Heap.state at e
    split at e <;> try contradiction
    split at e <;> try contradiction
    rename_i h1 _ _ ho
    cases h1
    cases e
    exact ⟨fun i m o e => by cases e; rw [ho]; simp, by rw [ho]; simp⟩

theorem chain_live {x : Nat × Nat × (Nat ⊕ Nat) × AMap Bytes ValidationError} (e : h.chain p = .ok x) :
    Live h p ∧ h.objects.get? x.1 ≠ none := by
  cases p with
  | null => cases e
  | network _ => cases e
  | «to» id m o =>
    unfold Heap.chain at e
    split at e <;> try contradiction
    split at e <;> try contradiction
    rename_i h1 _ _ _ _ ho
    cases h1
    cases e
    exact ⟨fun i m o e => by cases e; rw [ho]; simp, by rw [ho]; simp⟩

theorem header_live {x : Nat × BlockHeader} (e : h.header p = .ok x) : Live h p := by
  rintro id m o rfl hg
  cases m <;> cases o <;> simp [Heap.header, hg] at e

theorem accountOrNull_live {x : Option Account} (e : h.accountOrNull p = .ok x) : Live h p := by
  cases p with
  | null => exact live_null h
  | network _ => exact fun _ _ _ e => by cases e
  | «to» id m o =>
    simp only [Heap.accountOrNull, Outcome.bind_eq_ok] at e
    obtain ⟨n, e, _⟩ := e
    exact (account_live e).1

theorem read_live {n : Nat} {b : Bytes} (e : h.read p n = .ok b) : Live h p := by
  rintro id m o rfl hg
  simp [Heap.read, hg] at e

theorem address_live {b : Bytes} (e : addressAt h p = .ok b) : Live h p := by
  simp only [addressAt, Outcome.bind_eq_ok] at e
  obtain ⟨b, e, _⟩ := e
  exact read_live e

theorem bytes32_live {b : Bytes} (e : bytes32At h p = .ok b) : Live h p := by
  simp only [bytes32At, Outcome.bind_eq_ok] at e
  obtain ⟨b, e, _⟩ := e
  exact read_live e

theorem write_live {w : Bytes} {h' : Heap} (e : h.write p w = .ok h') : Live h p ∧ Keeps h h' := by
  cases p with
  | null => cases e
  | network _ => cases e
  | «to» id m o =>
    unfold Heap.write at e
    cases hg : h.objects.get? id with
    | none => simp [hg] at e
    | some x =>
      simp only [hg] at e
      split at e <;> try contradiction
      cases e
      exact ⟨fun i m o e => by cases e; rw [hg]; simp, keeps_put _ (by rw [hg]; simp)⟩

theorem setNumber_live {n : Nat} {h' : Heap} (e : h.setNumber p n = .ok h') : Live h p ∧ Keeps h h' := by
  cases p with
  | null => cases e
  | network _ => cases e
  | «to» id m o =>
    unfold Heap.setNumber at e
    split at e <;> try contradiction
    all_goals
      split at e <;> try contradiction
      rename_i h1 _ _ ho
      cases h1
      cases e
      exact ⟨fun i m o e => by cases e; rw [ho]; simp, keeps_put _ (by rw [ho]; simp)⟩

theorem setConfig_live {f : ChainConfig → ChainConfig} {h' : Heap} (e : h.setConfig p f = .ok h') : Live h p ∧ Keeps h h' := by
  cases p with
  | null => cases e
  | network _ => cases e
  | «to» id m o =>
    unfold Heap.setConfig at e
    split at e <;> try contradiction
    split at e <;> try contradiction
    rename_i h1 _ _ ho
    cases h1
    cases e
    exact ⟨fun i m o e => by cases e; rw [ho]; simp, keeps_put _ (by rw [ho]; simp)⟩

theorem release_live {kind : Object → Bool} {h' : Heap} (e : h.release p kind = .ok h') : Live h p ∧ Keeps h h' := by
  cases p with
  | null => cases e; exact ⟨live_null h, Keeps.refl h⟩
  | network _ => cases e
  | «to» id m o =>
    unfold Heap.release at e
    split at e <;> try contradiction
    rename_i h1
    cases h1
    split at e <;> try contradiction
    rename_i ho
    split at e <;> try contradiction
    cases e
    exact ⟨fun i m o e => by cases e; rw [ho]; simp, keeps_erase _ _⟩

end Inversion

theorem givesPointer_eq {r : Outcome Empty (Heap × Pointer)} {h' : Heap} {v : Value} (e : givesPointer r = .ok (h', v)) :
    ∃ p, r = .ok (h', p) ∧ v = .pointer p := by
  simp only [givesPointer, Outcome.bind_eq_ok] at e
  obtain ⟨x, e1, e2⟩ := e
  cases e2
  exact ⟨x.2, e1, rfl⟩

theorem givesNothing_eq {r : Outcome Empty Heap} {h' : Heap} {v : Value} (e : givesNothing r = .ok (h', v)) :
    r = .ok h' ∧ v = .unit := by
  simp only [givesNothing, Outcome.bind_eq_ok] at e
  obtain ⟨x, e1, e2⟩ := e
  cases e2
  exact ⟨e1, rfl⟩

theorem live_one {h : Heap} {p : Pointer} (a : Live h p) : ∀ q ∈ [p], Live h q := by
  intro q hq
  rw [List.mem_singleton] at hq
  exact hq ▸ a

/-- A call that is defined follows no pointer to an object that is gone, and brings none back. -/
theorem step_inv {e : Env} {h h' : Heap} {c : Call} {v : Value} (hs : step e h c = .ok (h', v)) :
    (∀ p ∈ Spec.Wasm.uses c, Live h p) ∧ Keeps h h' := by
  have del : ∀ {p : Pointer} {k : Object → Bool}, givesNothing (h.release p k) = .ok (h', v) →
      (∀ q ∈ [p], Live h q) ∧ Keeps h h' := fun hs =>
    let x := release_live (givesNothing_eq hs).1
    ⟨live_one x.1, x.2⟩
  have cfg : ∀ {p : Pointer} {f : ChainConfig → ChainConfig}, givesNothing (h.setConfig p f) = .ok (h', v) →
      (∀ q ∈ [p], Live h q) ∧ Keeps h h' := fun hs =>
    let x := setConfig_live (givesNothing_eq hs).1
    ⟨live_one x.1, x.2⟩
  cases c with
  | hostRead p n =>
    simp only [step, Outcome.bind_eq_ok] at hs
    obtain ⟨b, hb, hs⟩ := hs
    cases hs
    exact ⟨live_one (read_live hb), .refl h⟩
  | hostWrite p w => exact let x := write_live (givesNothing_eq hs).1; ⟨live_one x.1, x.2⟩
  | newBuffer size =>
    obtain ⟨p, e1, _⟩ := givesPointer_eq hs
    refine ⟨by simp [Spec.Wasm.uses], ?_⟩
    unfold newBuffer at e1
    split at e1
    · cases e1; exact keeps_alloc _ _
    · cases e1; exact .refl h
  | deleteBuffer p => exact del hs
  | newBytesFromHex data size =>
    obtain ⟨p, e1, _⟩ := givesPointer_eq hs
    simp only [newBytesFromHex, Outcome.bind_eq_ok] at e1
    obtain ⟨b, hb, e1⟩ := e1
    refine ⟨live_one (read_live hb), ?_⟩
    split at e1 <;> cases e1
    · exact .refl h
    · exact keeps_alloc _ _
  | deleteBytes p => exact del hs
  | bytesData p =>
    simp only [step] at hs
    split at hs <;> try contradiction
    simp only [Outcome.bind_eq_ok] at hs
    obtain ⟨b, hb, hs⟩ := hs
    cases hs
    exact ⟨live_one (bytes_live hb), .refl h⟩
  | bytesLength p =>
    simp only [step, Outcome.bind_eq_ok] at hs
    obtain ⟨b, hb, hs⟩ := hs
    cases hs
    exact ⟨live_one (bytes_live hb), .refl h⟩
  | newUint256 a b c d => cases hs; exact ⟨by simp [Spec.Wasm.uses], keeps_alloc _ _⟩
  | deleteUint256 p => exact del hs
  | lookupConfig id => cases hs; exact ⟨by simp [Spec.Wasm.uses], .refl h⟩
  | newConfig id => cases hs; exact ⟨by simp [Spec.Wasm.uses], keeps_alloc _ _⟩
  | deleteConfig p => exact del hs
  | setForkBlock p fork block =>
    simp only [step, setForkBlock] at hs
    split at hs
    · exact cfg hs
    · cases hs
  | setMuirGlacier p block => exact cfg hs
  | setDao p block => exact cfg hs
  | difficulty inOut n t pt u config =>
    have e1 := (givesNothing_eq hs).1
    simp only [difficulty, Outcome.bind_eq_ok] at e1
    obtain ⟨d, hd, c, hc, e1⟩ := e1
    refine ⟨?_, (setNumber_live e1).2⟩
    simp [Spec.Wasm.uses, number_live hd, config_live hc]
  | newTransaction rlp =>
    obtain ⟨p, e1, _⟩ := givesPointer_eq hs
    simp only [newTransaction, Outcome.bind_eq_ok] at e1
    obtain ⟨b, hb, e1⟩ := e1
    refine ⟨live_one (bytes_live hb), ?_⟩
    split at e1
    · cases e1
    · cases e1; exact keeps_transient _ _
    · split at e1
      · cases e1; exact keeps_alloc _ _
      · cases e1; exact keeps_transient _ _
  | deleteTransaction p => exact del hs
  | checkIntrinsicGas txn homestead istanbul =>
    simp only [step, checkIntrinsicGas, Outcome.bind_eq_ok] at hs
    obtain ⟨b, ⟨t, ht, _⟩, hs⟩ := hs
    cases hs
    exact ⟨live_one (transaction_live ht).1, .refl h⟩
  | recoverSender txn =>
    obtain ⟨p, e1, _⟩ := givesPointer_eq hs
    simp only [recoverSender, Outcome.bind_eq_ok] at e1
    obtain ⟨t, ht, e1⟩ := e1
    cases e1
    exact ⟨live_one (transaction_live ht).1, keeps_put _ (transaction_live ht).2⟩
  | keccak256 out input =>
    have e1 := (givesNothing_eq hs).1
    simp only [keccak256, Outcome.bind_eq_ok] at e1
    obtain ⟨b, hb, e1⟩ := e1
    refine ⟨?_, (write_live e1).2⟩
    simp [Spec.Wasm.uses, (write_live e1).1, bytes_live hb]
  | newAccount nonce balance =>
    obtain ⟨p, e1, _⟩ := givesPointer_eq hs
    simp only [newAccount, Outcome.bind_eq_ok] at e1
    obtain ⟨b, hb, e1⟩ := e1
    cases e1
    exact ⟨live_one (numberOrNull_live hb), keeps_alloc _ _⟩
  | deleteAccount p => exact del hs
  | accountNonce p =>
    simp only [step, Outcome.bind_eq_ok] at hs
    obtain ⟨b, hb, hs⟩ := hs
    cases hs
    exact ⟨live_one (account_live hb).1, .refl h⟩
  | accountBalance p =>
    simp only [step, Outcome.bind_eq_ok] at hs
    obtain ⟨b, hb, hs⟩ := hs
    cases hs
    exact ⟨live_one (account_live hb).1, .refl h⟩
  | accountCodeHash p =>
    simp only [step, Outcome.bind_eq_ok] at hs
    obtain ⟨b, hb, hs⟩ := hs
    cases hs
    exact ⟨live_one (account_live hb).1, .refl h⟩
  | newBlock rlp =>
    obtain ⟨p, e1, _⟩ := givesPointer_eq hs
    simp only [newBlock, Outcome.bind_eq_ok] at e1
    obtain ⟨b, hb, e1⟩ := e1
    refine ⟨live_one (bytes_live hb), ?_⟩
    split at e1
    · cases e1
    · cases e1; exact keeps_transient _ _
    · split at e1
      · cases e1; exact keeps_alloc _ _
      · cases e1; exact keeps_transient _ _
  | deleteBlock p => exact del hs
  | blockHeader p =>
    simp only [step, Outcome.bind_eq_ok] at hs
    obtain ⟨b, hb, hs⟩ := hs
    cases hs
    exact ⟨live_one (block_live hb).1, .refl h⟩
  | headerNumber p =>
    simp only [step, Outcome.bind_eq_ok] at hs
    obtain ⟨b, hb, hs⟩ := hs
    cases hs
    exact ⟨live_one (header_live hb), .refl h⟩
  | headerStateRoot p =>
    simp only [step, Outcome.bind_eq_ok] at hs
    obtain ⟨b, hb, hs⟩ := hs
    cases hs
    exact ⟨live_one (header_live hb), .refl h⟩
  | blockRecoverSenders p =>
    have e1 := (givesNothing_eq hs).1
    simp only [blockRecoverSenders, Outcome.bind_eq_ok] at e1
    obtain ⟨b, hb, e1⟩ := e1
    cases e1
    exact ⟨live_one (block_live hb).1, keeps_put _ (block_live hb).2⟩
  | newState => cases hs; exact ⟨by simp [Spec.Wasm.uses], keeps_alloc _ _⟩
  | deleteState p => exact del hs
  | stateRootHash s =>
    obtain ⟨p, e1, _⟩ := givesPointer_eq hs
    simp only [stateRootHash, Outcome.bind_eq_ok] at e1
    obtain ⟨m, hm, root, _, h1, hw, e1⟩ := e1
    cases e1
    refine ⟨live_one (state_live hm).1, .trans ?_ (write_live hw).2⟩
    unfold newBuffer
    split
    · exact keeps_alloc _ _
    · exact .refl h
  | numberOfAccounts s =>
    simp only [step, Outcome.bind_eq_ok] at hs
    obtain ⟨b, hb, hs⟩ := hs
    cases hs
    exact ⟨live_one (state_live hb).1, .refl h⟩
  | storageSize s address account =>
    simp only [step, storageSize, Outcome.bind_eq_ok] at hs
    obtain ⟨n, ⟨m, hm, a, ha, x, hx, _⟩, hs⟩ := hs
    cases hs
    exact ⟨by simp [Spec.Wasm.uses, (state_live hm).1, address_live ha, (account_live hx).1], .refl h⟩
  | readAccount s address =>
    obtain ⟨p, e1, _⟩ := givesPointer_eq hs
    simp only [readAccount, Outcome.bind_eq_ok] at e1
    obtain ⟨m, hm, a, ha, e1⟩ := e1
    refine ⟨by simp [Spec.Wasm.uses, (state_live hm).1, address_live ha], ?_⟩
    split at e1 <;> cases e1
    · exact .refl h
    · exact keeps_alloc _ _
  | readCode s codeHash =>
    obtain ⟨p, e1, _⟩ := givesPointer_eq hs
    simp only [readCode, Outcome.bind_eq_ok] at e1
    obtain ⟨m, hm, a, ha, e1⟩ := e1
    cases e1
    exact ⟨by simp [Spec.Wasm.uses, (state_live hm).1, bytes32_live ha], keeps_alloc _ _⟩
  | readStorage s address account location =>
    obtain ⟨p, e1, _⟩ := givesPointer_eq hs
    simp only [readStorage, Outcome.bind_eq_ok] at e1
    obtain ⟨m, hm, a, ha, x, hx, l, hl, e1⟩ := e1
    cases e1
    exact ⟨by simp [Spec.Wasm.uses, (state_live hm).1, address_live ha, (account_live hx).1, bytes_live hl], keeps_alloc _ _⟩
  | updateAccount s address current =>
    have e1 := (givesNothing_eq hs).1
    simp only [updateAccount, Outcome.bind_eq_ok] at e1
    obtain ⟨m, hm, a, ha, x, hx, e1⟩ := e1
    cases e1
    exact ⟨by simp [Spec.Wasm.uses, (state_live hm).1, address_live ha, accountOrNull_live hx], keeps_put _ (state_live hm).2⟩
  | updateCode s address account code =>
    have e1 := (givesNothing_eq hs).1
    simp only [updateCode, Outcome.bind_eq_ok] at e1
    obtain ⟨m, hm, a, ha, x, hx, l, hl, e1⟩ := e1
    cases e1
    exact ⟨by simp [Spec.Wasm.uses, (state_live hm).1, address_live ha, (account_live hx).1, bytes_live hl],
      keeps_put _ (state_live hm).2⟩
  | updateStorage s address account location value =>
    have e1 := (givesNothing_eq hs).1
    simp only [updateStorage, Outcome.bind_eq_ok] at e1
    obtain ⟨m, hm, a, ha, x, hx, l, hl, w, hw, e1⟩ := e1
    cases e1
    exact ⟨by simp [Spec.Wasm.uses, (state_live hm).1, address_live ha, (account_live hx).1, bytes_live hl, bytes_live hw],
      keeps_put _ (state_live hm).2⟩
  | newBlockchain s config genesis =>
    obtain ⟨p, e1, _⟩ := givesPointer_eq hs
    simp only [newBlockchain, Outcome.bind_eq_ok] at e1
    obtain ⟨m, hm, c, hc, g, hg, e1⟩ := e1
    split at e1 <;> cases e1
    exact ⟨by simp [Spec.Wasm.uses, (state_live hm).1, config_live hc, (block_live hg).1],
      (keeps_put _ (state_live hm).2).trans (keeps_alloc _ _)⟩
  | deleteBlockchain p => exact del hs
  | insertBlock chain block check =>
    simp only [step, insertBlock, Outcome.bind_eq_ok] at hs
    obtain ⟨r, ⟨x, hx, m, hm, c, hc, b, hb, r', _, e1⟩, hs⟩ := hs
    cases hs
    cases e1
    refine ⟨by simp [Spec.Wasm.uses, (chain_live hx).1, (block_live hb).1], ?_⟩
    refine ((keeps_put _ (block_live hb).2).trans (keeps_put _ ?_)).trans (keeps_put _ ?_)
    · show (h.objects.set b.1 _).get? m.1 ≠ none
      rw [AMap.get?_set]
      split
      · simp
      · exact (state_live hm).2
    · show ((h.objects.set b.1 _).set m.1 _).get? x.1 ≠ none
      rw [AMap.get?_set, AMap.get?_set]
      split
      · simp
      · split
        · simp
        · exact (chain_live hx).2

/-- No function reports an error other than by what it returns. -/
theorem step_cases (e : Env) (h : Heap) (c : Call) : step e h c = .ub ∨ ∃ r, step e h c = .ok r := by
  cases step e h c with
  | ok r => exact .inr ⟨r, rfl⟩
  | err x => cases x
  | ub => exact .inl rfl

theorem session_keeps {e : Env} {cs : List Call} {h : Heap} {r : Heap × List Value} (hs : session e h cs = .ok r) :
    Keeps h r.1 := by
  induction cs generalizing h r with
  | nil => cases hs; exact .refl h
  | cons c cs ih =>
    simp only [session, Outcome.bind_eq_ok] at hs
    obtain ⟨x, hx, y, hy, e1⟩ := hs
    cases e1
    exact (step_inv (v := x.2) (h' := x.1) hx).2.trans (show Keeps x.1 y.1 from ih hy)

theorem session_append {e : Env} {cs ds : List Call} {h : Heap} :
    session e h (cs ++ ds) = (do
      let r ← session e h cs
      let s ← session e r.1 ds
      .ok (s.1, r.2 ++ s.2)) := by
  induction cs generalizing h with
  | nil =>
    simp only [List.nil_append, session, Outcome.ok_bind]
    cases session e h ds <;> rfl
  | cons c cs ih =>
    simp only [List.cons_append, session, Outcome.bind_assoc]
    congr 1
    funext r
    rw [ih]
    simp only [Outcome.bind_assoc]
    congr 1

theorem release_gone {h h' : Heap} {id : Nat} {m : Member} {o : Nat} {kind : Object → Bool}
    (e : h.release (.to id m o) kind = .ok h') : h'.objects.get? id = none := by
  unfold Heap.release at e
  split at e <;> try contradiction
  rename_i h1
  cases h1
  split at e <;> try contradiction
  split at e <;> try contradiction
  cases e
  simp

/-- What a call deleted is gone. -/
theorem delete_gone {e : Env} {h h' : Heap} {c : Call} {v : Value} (hs : step e h c = .ok (h', v)) {id : Nat} {m : Member} {o : Nat}
    (hd : Spec.Wasm.deletes c = some (.to id m o)) : h'.objects.get? id = none := by
  have key : ∀ {p : Pointer} {k : Object → Bool}, givesNothing (h.release p k) = .ok (h', v) → some p = some (Pointer.to id m o) →
      h'.objects.get? id = none := by
    intro p k e1 e2
    cases e2
    exact release_gone (givesNothing_eq e1).1
  cases c <;> first | exact key hs hd | cases hd

end Silkworm.Wasm
