import Verif.Wasm.Lifetime

/-!
# C156: memory of the WebAssembly functions
-/

namespace Silkworm.Properties

open Silkworm.Wasm
open Silkworm.Spec.Wasm (Kind Ledger Allowed after known uses deletes)

/-- The host makes only calls that the rules allow, from what it knows at the time. -/
def HostKeepsRules (e : Env) : Ledger → Heap → List Call → Prop
  | _, _, [] => True
  | L, h, c :: cs => Allowed L c ∧
    match step e h c with
    | .ok r => HostKeepsRules e (after L c r.2) r.1 cs
    | _ => True

/-- What the calls make use of is defined. -/
def CalleesDefined (e : Env) : Heap → List Call → Prop
  | _, [] => True
  | h, c :: cs => CalleeDefined e h c ∧
    match step e h c with
    | .ok r => CalleesDefined e r.1 cs
    | _ => True

/-- C156 in full: whatever a host does within the rules is defined. -/
def C156_statement : Prop := ∀ (e : Env) (cs : List Call), HostKeepsRules e Ledger.empty {} cs → session e {} cs ≠ .ub

/-- What the functions depend on, for examples. -/
def wasmExample : Env where
  keccak := fun b => b.take 32 ++ List.replicate (32 - b.length) 7
  listRoot := fun _ => []
  sealOk := fun _ => true
  recover := fun _ _ _ => none
  execute := fun _ _ _ => .ok []
  memory := true

/-- The bytes of a text. -/
def wasmText (s : String) : Bytes := s.toList.map fun c => UInt8.ofNat c.toNat

/-- What was returned. -/
def returned : Outcome Empty (Heap × List Value) → Option (List Value)
  | .ok r => some r.2
  | _ => none

/-- C156 is violated: if there is no memory for the root of the state, it is copied to null. -/
theorem c156_root_without_memory_violated : ¬ C156_statement := by
  intro h
  refine h { wasmExample with memory := false } [.newState, .stateRootHash (.object 0)] ?_ (by rfl)
  exact ⟨trivial, ⟨0, .state, rfl, rfl, rfl⟩, trivial⟩

/-- C156 is violated: the text `c3808080` makes a transaction whose decoding reads what is not there. -/
theorem c156_truncated_transaction_violated : ¬ C156_statement := by
  intro h
  refine h wasmExample [.newBuffer 8, .hostWrite (.object 0) (wasmText "c3808080"), .newBytesFromHex (.object 0) 8,
    .newTransaction (.object 1)] ?_ (by rfl)
  refine ⟨trivial, ⟨0, .whole, 0, .buffer (List.replicate 8 false), 8, rfl, rfl, rfl, by decide⟩, ?_⟩
  refine ⟨⟨0, .whole, 0, .buffer (List.replicate 8 true), rfl, rfl, by decide, ?_⟩, ?_⟩
  · intro i _ hi
    rw [List.getElem?_replicate, if_pos (by omega)]
  · exact ⟨⟨1, .bytes none, rfl, rfl, rfl⟩, trivial⟩

/-- C156, partial: what a host does within the rules is defined as long as what the functions make use of is; and there are then
exactly the objects that the host knows of. Missing: memory that runs out, truncated transactions. -/
theorem c156_host_rules_partial (e : Env) (cs : List Call) (hr : HostKeepsRules e Ledger.empty {} cs)
    (hd : CalleesDefined e {} cs) :
    ∃ r, session e {} cs = .ok r ∧ ∀ id, known Ledger.empty cs r.2 id = none ↔ r.1.objects.get? id = none := by
  have key : ∀ (cs : List Call) (L : Ledger) (h : Heap), Describes L h → HostKeepsRules e L h cs → CalleesDefined e h cs →
      ∃ r, session e h cs = .ok r ∧ Describes (known L cs r.2) r.1 := by
    intro cs
    induction cs with
    | nil => exact fun L h d _ _ => ⟨(h, []), rfl, d⟩
    | cons c cs ih =>
      intro L h d hr hd
      obtain ⟨h', v, hs, d'⟩ := step_ok d hr.1 hd.1
      have hr' := hr.2
      have hd' := hd.2
      rw [hs] at hr' hd'
      obtain ⟨r, hr1, hr2⟩ := ih _ _ d' hr' hd'
      exact ⟨(r.1, v :: r.2), by simp [session, hs, hr1], hr2⟩
  obtain ⟨r, h1, h2⟩ := key cs _ _ Describes.empty hr hd
  refine ⟨r, h1, fun id => ?_⟩
  have := h2.agree id
  cases hk : known Ledger.empty cs r.2 id <;> cases ho : r.1.objects.get? id <;> rw [hk, ho] at this
  · simp
  · exact this.elim
  · exact this.elim
  · simp

/-- C156: a host that deleted everything it knows of has left nothing in memory. -/
theorem c156_nothing_left (e : Env) (cs : List Call) (hr : HostKeepsRules e Ledger.empty {} cs) (hd : CalleesDefined e {} cs)
    (r : Heap × List Value) (hs : session e {} cs = .ok r) (hk : ∀ id, known Ledger.empty cs r.2 id = none) :
    r.1.objects = [] := by
  obtain ⟨r', h1, h2⟩ := c156_host_rules_partial e cs hr hd
  rw [hs] at h1
  cases h1
  cases ho : r.1.objects with
  | nil => rfl
  | cons x xs =>
    have := (h2 x.1).mp (hk x.1)
    rw [ho, AMap.get?_cons, if_pos rfl] at this
    cases this

-- An account is made with a balance, put into a state under the address 07 … 07, and read back.
example : returned (session wasmExample {}
    [.newUint256 5 1 0 0, .newAccount 3 (.object 0), .newState, .newBuffer 20, .hostWrite (.object 3) (List.replicate 20 7),
     .updateAccount (.object 2) (.object 3) (.object 1), .numberOfAccounts (.object 2), .readAccount (.object 2) (.object 3),
     .accountNonce (.object 4), .accountBalance (.object 4), .hostRead (.to 4 .balance 0) 9, .readAccount (.object 2) (.to 4 .balance 0),
     .deleteAccount (.object 4)]) =
    some [.pointer (.object 0), .pointer (.object 1), .pointer (.object 2), .pointer (.object 3), .unit, .unit, .number 1,
      .pointer (.object 4), .number 3, .pointer (.to 4 .balance 0), .bytes [5, 0, 0, 0, 0, 0, 0, 0, 1], .pointer .null, .unit] := by
  decide +kernel

/-- C156: an object that was deleted is never used again with a defined result, and is not deleted twice. -/
theorem c156_use_after_delete (e : Env) (xs ys : List Call) (del c : Call) (id : Nat) (m m' : Member) (o o' : Nat)
    (hd : deletes del = some (.to id m o)) (hc : .to id m' o' ∈ uses c) : session e {} (xs ++ [del] ++ ys ++ [c]) = .ub := by
  rw [session_append]
  have total : ∀ (cs : List Call) (h : Heap), session e h cs = .ub ∨ ∃ r, session e h cs = .ok r := by
    intro cs h
    cases session e h cs with
    | ok r => exact .inr ⟨r, rfl⟩
    | err x => cases x
    | ub => exact .inl rfl
  rcases total (xs ++ [del] ++ ys) {} with h1 | ⟨r, h1⟩
  · rw [h1]; rfl
  · rw [h1, Outcome.ok_bind]
    have hgone : r.1.objects.get? id = none := by
      rw [session_append, Outcome.bind_eq_ok] at h1
      obtain ⟨r1, h2, h1⟩ := h1
      rw [Outcome.bind_eq_ok] at h1
      obtain ⟨r2, h3, h1⟩ := h1
      cases h1
      rw [session_append, Outcome.bind_eq_ok] at h2
      obtain ⟨r3, h4, h2⟩ := h2
      rw [Outcome.bind_eq_ok] at h2
      obtain ⟨r4, h5, h2⟩ := h2
      cases h2
      simp only [session, Outcome.bind_eq_ok] at h5
      obtain ⟨s, h5, s', h6, h7⟩ := h5
      cases h6
      cases h7
      have hf : Fresh r3.1 := (session_keeps h4).2.2 (fun _ _ => rfl)
      have inv := step_inv (h' := s.1) (v := s.2) h5
      have hlive : r3.1.objects.get? id ≠ none := by
        refine inv.1 (.to id m o) ?_ id m o rfl
        cases del <;> cases hd <;> simp [uses]
      have hlt : id < r3.1.next := Nat.lt_of_not_le fun hle => hlive (hf id hle)
      have hg := delete_gone (h' := s.1) (v := s.2) h5 hd
      exact (session_keeps h3).2.1 id (Nat.lt_of_lt_of_le hlt inv.2.1) hg
    have hub : step e r.1 c = .ub := by
      rcases step_cases e r.1 c with h2 | ⟨s, h2⟩
      · exact h2
      · exact absurd hgone ((step_inv (h' := s.1) (v := s.2) h2).1 _ hc id m' o' rfl)
    simp only [session, hub, Outcome.ub_bind]

-- The balance of an account goes with it.
example : session wasmExample {} [.newAccount 1 .null, .accountBalance (.object 0), .deleteAccount (.object 0),
    .hostRead (.to 0 .balance 0) 32] = .ub := by rfl

/-- C156: nothing is known in memory but what calls returned: no function follows null where it needs an object. -/
theorem c156_null (e : Env) (h : Heap) (p q : Pointer) (n k : Nat) (b : Bool) :
    step e h (.newTransaction .null) = .ub ∧ step e h (.newBlock .null) = .ub ∧ step e h (.bytesLength .null) = .ub ∧
    step e h (.accountNonce .null) = .ub ∧ step e h (.headerNumber .null) = .ub ∧ step e h (.stateRootHash .null) = .ub ∧
    step e h (.insertBlock .null q b) = .ub ∧ step e h (.newBlockchain .null p q) = .ub ∧ step e h (.setDao .null n) = .ub ∧
    step e h (.hostRead .null k) = .ub := by
  refine ⟨rfl, rfl, rfl, rfl, rfl, rfl, rfl, rfl, rfl, rfl⟩

/-- C156: null can be deleted, as an object of every kind. -/
theorem c156_delete_null (e : Env) (h : Heap) (c : Call) (hc : deletes c = some .null) : step e h c = .ok (h, .unit) := by
  cases c <;> cases hc <;> rfl

/-- C156: a constructor that gives null has changed nothing. -/
theorem c156_failed_constructor (e : Env) (h h' : Heap) (c : Call) (hf : ∀ id, h.next ≤ id → h.objects.get? id = none)
    (hc : (∃ p n, c = .newBytesFromHex p n) ∨ (∃ p, c = .newTransaction p) ∨ (∃ p, c = .newBlock p) ∨
      (∃ s p, c = .readAccount s p) ∨ ∃ n, c = .newBuffer n)
    (hs : step e h c = .ok (h', .pointer .null)) : ∀ id, h'.objects.get? id = h.objects.get? id := by
  have tr : ∀ (o : Object) (id : Nat), ((h.alloc o).1.objects.erase h.next).get? id = h.objects.get? id := by
    intro o id
    show ((h.objects.set h.next o).erase h.next).get? id = h.objects.get? id
    rw [AMap.get?_erase, AMap.get?_set]
    by_cases hi : id = h.next
    · rw [if_pos hi, hi, hf h.next (Nat.le_refl _)]
    · rw [if_neg hi, if_neg hi]
  have al : ∀ (o : Object), (h.alloc o).2 ≠ .null := by intro o hh; cases hh
  rcases hc with ⟨p, n, rfl⟩ | ⟨p, rfl⟩ | ⟨p, rfl⟩ | ⟨s, p, rfl⟩ | ⟨n, rfl⟩ <;> obtain ⟨q, e1, e2⟩ := givesPointer_eq hs <;> cases e2
  · simp only [newBytesFromHex, Outcome.bind_eq_ok] at e1
    obtain ⟨b, _, e1⟩ := e1
    split at e1 <;> cases e1
    exact fun _ => rfl
  · simp only [newTransaction, Outcome.bind_eq_ok] at e1
    obtain ⟨b, _, e1⟩ := e1
    split at e1
    · cases e1
    · cases e1; exact tr _
    · split at e1
      · cases e1
      · cases e1; exact tr _
  · simp only [newBlock, Outcome.bind_eq_ok] at e1
    obtain ⟨b, _, e1⟩ := e1
    split at e1
    · cases e1
    · cases e1; exact tr _
    · split at e1
      · cases e1
      · cases e1; exact tr _
  · simp only [readAccount, Outcome.bind_eq_ok] at e1
    obtain ⟨m, _, a, _, e1⟩ := e1
    split at e1 <;> cases e1
    exact fun _ => rfl
  · unfold newBuffer at e1
    split at e1 <;> cases e1
    exact fun _ => rfl

-- No digit; an odd number of digits.
example : returned (session wasmExample {} [.newBuffer 3, .hostWrite (.object 0) (wasmText "0g1"), .newBytesFromHex (.object 0) 2,
    .newBytesFromHex (.object 0) 3]) = some [.pointer (.object 0), .unit, .pointer .null, .pointer .null] := by decide +kernel

/-- C156: a chain needs the state and the configuration it was made with for as long as blocks are inserted. -/
theorem c156_chain_refers (e : Env) (h : Heap) (id s : Nat) (c : Nat ⊕ Nat) (bad : AMap Bytes ValidationError) (block : Pointer)
    (check : Bool) (hc : h.objects.get? id = some (.chain s c bad))
    (hg : h.objects.get? s = none ∨ ∃ i, c = .inr i ∧ h.objects.get? i = none) :
    step e h (.insertBlock (.object id) block check) = .ub := by
  have hch : h.chain (.object id) = .ok (id, s, c, bad) := by simp [Heap.chain, Pointer.object, hc]
  simp only [step, insertBlock, hch, Outcome.ok_bind]
  rcases hg with hg | ⟨i, rfl, hg⟩
  · have : h.state (.object s) = .ub := by simp [Heap.state, Pointer.object, hg]
    rw [this]; rfl
  · have : h.config (refPointer (.inr i)) = .ub := by simp [Heap.config, refPointer, Pointer.object, hg]
    rw [this]
    cases h.state (.object s) with
    | ok m => rfl
    | err x => cases x
    | ub => rfl

/-- C156: what was not written is not read. -/
theorem c156_unwritten (e : Env) (h : Heap) (id offset n : Nat) (cells : List (Option UInt8))
    (ho : h.objects.get? id = some (.buffer cells)) (i : Nat) (hi : offset ≤ i) (hn : i < offset + n)
    (hc : cells[i]? = some none ∨ cells[i]? = none) : step e h (.hostRead (.to id .whole offset) n) = .ub := by
  have hub : h.read (.to id .whole offset) n = .ub := by
    unfold Heap.read
    simp only [ho]
    split
    · rename_i hlt
      have hlt : offset + n ≤ cells.length := hlt
      have hx : cells[i]? = some none := by
        rcases hc with hc | hc
        · exact hc
        · rw [List.getElem?_eq_none_iff] at hc; omega
      have hmem : (none : Option UInt8) ∈ (cells.drop offset).take n := by
        rw [List.mem_iff_getElem?]
        refine ⟨i - offset, ?_⟩
        rw [List.getElem?_take, if_pos (by omega), List.getElem?_drop, show offset + (i - offset) = i by omega, hx]
      have hnone : ∀ l : List (Option UInt8), none ∈ l → definedBytes l = none := by
        intro l
        induction l with
        | nil => intro h; cases h
        | cons x xs ih =>
          intro h
          cases x with
          | none => rfl
          | some a =>
            rcases List.mem_cons.mp h with h | h
            · cases h
            · simp [definedBytes, ih h]
      have : definedBytes ((((Object.buffer cells).cells .whole).drop offset).take n) = none := hnone _ hmem
      rw [this]
    · rfl
  simp only [step, hub, Outcome.ub_bind]

-- Every rule about what is given is needed.
-- A balance is no object of its own.
example : session wasmExample {} [.newAccount 1 .null, .deleteUint256 (.to 0 .balance 0)] = .ub := by rfl
-- Bytes are not deleted as a buffer, nor their characters.
example : session wasmExample {} [.newBuffer 0, .newBytesFromHex (.object 0) 0, .deleteBuffer (.object 1)] = .ub := by rfl
example : session wasmExample {} [.newBuffer 0, .newBytesFromHex (.object 0) 0, .bytesData (.object 1),
  .deleteBuffer (.to 1 .data 0)] = .ub := by rfl
-- An eleventh fork.
example : session wasmExample {} [.newConfig 7, .setForkBlock (.object 0) 11 5] = .ub := by rfl
example : returned (session wasmExample {} [.newConfig 7, .setForkBlock (.object 0) 10 5]) = some [.pointer (.object 0), .unit] := by
  decide +kernel
-- The configurations of the public networks cannot be changed or deleted.
example : session wasmExample {} [.lookupConfig 1, .setDao (.network 1) 5] = .ub := by rfl
example : session wasmExample {} [.lookupConfig 1, .deleteConfig (.network 1)] = .ub := by rfl
-- A state that was deleted before its chain.
example : step wasmExample ⟨[(1, .chain 0 (.inl 1) []), (2, .block {})], 3⟩ (.insertBlock (.object 1) (.object 2) true) = .ub := by rfl

end Silkworm.Properties
