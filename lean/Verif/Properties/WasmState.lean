import Verif.Wasm.States
import Verif.Properties.WasmMemory
import Verif.Properties.StateRoot
import Verif.Tools.ConsensusLemmas

/-!
# C157: the states of the WebAssembly functions
-/

namespace Silkworm.Properties

open Silkworm.Wasm
open Silkworm.Spec.Wasm (World Update leavesState)

/-- What a state holds. -/
def worldOf (m : MemoryBuffer) : World := ⟨m.readAccount, m.readCode, m.readStorage⟩

/-- The call changes the state `s` in this way. Locations and values are given by bytes: the last of them is the lowest; zeros are put
in front of less than 32. -/
inductive Changes (h : Heap) (s : Nat) : Call → Update → Prop
  | account (p : Pointer) (a : Bytes) (i : Nat) (x : Account) (ha : h.read p 20 = .ok a)
      (hx : h.objects.get? i = some (.account x)) : Changes h s (.updateAccount (.object s) p (.object i)) (.account a (some x))
  | remove (p : Pointer) (a : Bytes) (ha : h.read p 20 = .ok a) :
      Changes h s (.updateAccount (.object s) p .null) (.account a none)
  | code (p : Pointer) (a : Bytes) (i j : Nat) (x : Account) (c : Bytes) (ha : h.read p 20 = .ok a)
      (hx : h.objects.get? i = some (.account x)) (hc : h.objects.get? j = some (.bytes c)) :
      Changes h s (.updateCode (.object s) p (.object i) (.object j)) (.code x.codeHash c)
  | storage (p : Pointer) (a : Bytes) (i j k : Nat) (x : Account) (l v : Bytes) (ha : h.read p 20 = .ok a)
      (hx : h.objects.get? i = some (.account x)) (hl : h.objects.get? j = some (.bytes l))
      (hv : h.objects.get? k = some (.bytes v)) (ll : l.length ≤ 32) (lv : v.length ≤ 32) :
      Changes h s (.updateStorage (.object s) p (.object i) (.object j) (.object k))
        (.storage a x.incarnation (List.replicate (32 - l.length) 0 ++ l) (List.replicate (32 - v.length) 0 ++ v))

/-- Calls that change the state `s` in these ways, among others that do not. -/
inductive History (e : Env) (s : Nat) : Heap → List Call → List Update → Heap → Prop
  | nil (h : Heap) : History e s h [] [] h
  | change (h h' h'' : Heap) (c : Call) (cs : List Call) (u : Update) (us : List Update) (v : Value) :
      Changes h s c u → step e h c = .ok (h', v) → History e s h' cs us h'' → History e s h (c :: cs) (u :: us) h''
  | other (h h' h'' : Heap) (c : Call) (cs : List Call) (us : List Update) (v : Value) :
      leavesState s c → step e h c = .ok (h', v) → History e s h' cs us h'' → History e s h (c :: cs) us h''

theorem read_length {h : Heap} {p : Pointer} {n : Nat} {b : Bytes} (e : h.read p n = .ok b) : b.length = n := by
  have dl : ∀ (l : List (Option UInt8)) (b : Bytes), definedBytes l = some b → b.length = l.length := by
    intro l
    induction l with
    | nil => intro b h; cases h; rfl
    | cons x xs ih =>
      intro b h
      cases x with
      | none => cases h
      | some a =>
        simp only [definedBytes, Option.map_eq_some_iff] at h
        obtain ⟨c, hc, rfl⟩ := h
        simp [ih c hc]
  unfold Heap.read at e
  split at e <;> try contradiction
  split at e <;> try contradiction
  split at e <;> try contradiction
  rename_i hlt
  split at e <;> try contradiction
  rename_i hb
  cases e
  rw [dl _ _ hb, List.length_take, List.length_drop]
  omega

theorem toArray_pad {n : Nat} {b : Bytes} (h : b.length ≤ n) : toArray n b = List.replicate (n - b.length) 0 ++ b := by
  unfold toArray
  simp [Nat.min_eq_left h]

theorem toAddress_same {a : Bytes} (h : a.length = 20) : toAddress a = a := by
  unfold toAddress
  rw [toArray_pad (by omega), h]
  rfl

theorem worldOf_account (m : MemoryBuffer) (a : Bytes) (i x : Option Account) :
    worldOf (m.updateAccount a i x) = (worldOf m).apply (.account a x) := by
  have : (m.updateAccount a i x).accounts = match x with
    | some c => m.accounts.set a c
    | none => m.accounts.erase a := by cases x <;> rfl
  have hc : (m.updateAccount a i x).code = m.code := by cases x <;> rfl
  have hs : (m.updateAccount a i x).storage = m.storage := by cases x <;> rfl
  simp only [worldOf, World.apply, World.mk.injEq]
  refine ⟨?_, ?_, ?_⟩
  · funext b
    unfold MemoryBuffer.readAccount
    rw [this]
    cases x with
    | some c => simp only [AMap.get?_set]
    | none => simp only [AMap.get?_erase]
  · funext b
    unfold MemoryBuffer.readCode
    rw [hc]
  · funext b n k
    unfold MemoryBuffer.readStorage
    rw [hs]

theorem worldOf_code (m : MemoryBuffer) (k c : Bytes) :
    worldOf (m.updateAccountCode k c) = (worldOf m).apply (.code k c) := by
  simp only [worldOf, World.apply, World.mk.injEq]
  refine ⟨rfl, ?_, rfl⟩
  funext j
  unfold MemoryBuffer.readCode MemoryBuffer.updateAccountCode
  simp only [AMap.get?_set]
  split <;> rfl

theorem worldOf_storage (m : MemoryBuffer) (a : Bytes) (i : Nat) (l x v : Bytes) :
    worldOf (m.updateStorage a i l x v) = (worldOf m).apply (.storage a i l v) := by
  simp only [worldOf, World.apply, World.mk.injEq]
  refine ⟨rfl, rfl, ?_⟩
  funext b n k
  exact Tools.readStorage_update m a i l x v b n k

/-- A change is what the specification says, and is a call of the state. -/
theorem change_spec {e : Env} {h h' : Heap} {s : Nat} {c : Call} {u : Update} {v : Value} {m : MemoryBuffer}
    (hm : h.objects.get? s = some (.state m)) (hc : Changes h s c u) (hs : step e h c = .ok (h', v)) :
    ∃ m', h'.objects.get? s = some (.state m') ∧ worldOf m' = (worldOf m).apply u ∧
      (Reachable m → u.Ok → Reachable m') := by
  have hst := state_get hm
  have put : ∀ m', (h.put s (.state m')).objects.get? s = some (.state m') := by
    intro m'
    show (h.objects.set s (.state m')).get? s = _
    rw [AMap.get?_set, if_pos rfl]
  have adr : ∀ {p : Pointer} {a : Bytes}, h.read p 20 = .ok a → addressAt h p = .ok a := by
    intro p a ha
    simp only [addressAt, ha, Outcome.ok_bind, toAddress_same (read_length ha)]
  cases hc with
  | account p a i x ha hx =>
    have hacc : h.accountOrNull (.object i) = .ok (some x) := by
      simp [Heap.accountOrNull, Pointer.object, Heap.account, hx]
    simp only [step, updateAccount, hst, adr ha, hacc, Outcome.ok_bind, givesNothing] at hs
    cases hs
    exact ⟨_, put _, worldOf_account m a none (some x), fun hr ho =>
      .call m (.updateAccount a none (some x)) hr ⟨(by simp), by rintro y ⟨⟩; exact ⟨ho.1, ho.2.1, ho.2.2.1, ho.2.2.2⟩⟩⟩
  | remove p a ha =>
    simp only [step, updateAccount, hst, adr ha, Heap.accountOrNull, Outcome.ok_bind, givesNothing] at hs
    cases hs
    exact ⟨_, put _, worldOf_account m a none none, fun hr _ =>
      .call m (.updateAccount a none none) hr ⟨(by simp), by simp⟩⟩
  | code p a i j x c ha hx hc =>
    have hacc : h.account (.object i) = .ok (i, x) := by simp [Pointer.object, Heap.account, hx]
    have hb : h.bytes (.object j) = .ok c := by simp [Pointer.object, Heap.bytes, Heap.object, hc]
    simp only [step, updateCode, hst, adr ha, hacc, hb, Outcome.ok_bind, givesNothing] at hs
    cases hs
    exact ⟨_, put _, worldOf_code m x.codeHash c, fun hr _ =>
      .call m (.updateAccountCode a x.incarnation x.codeHash c) hr trivial⟩
  | storage p a i j k x l w ha hx hl hv ll lv =>
    have hacc : h.account (.object i) = .ok (i, x) := by simp [Pointer.object, Heap.account, hx]
    have hb : h.bytes (.object j) = .ok l := by simp [Pointer.object, Heap.bytes, Heap.object, hl]
    have hb' : h.bytes (.object k) = .ok w := by simp [Pointer.object, Heap.bytes, Heap.object, hv]
    simp only [step, updateStorage, hst, adr ha, hacc, hb, hb', Outcome.ok_bind, givesNothing] at hs
    rw [show toBytes32 l = _ from toArray_pad ll, show toBytes32 w = _ from toArray_pad lv] at hs
    cases hs
    exact ⟨_, put _, worldOf_storage m a x.incarnation _ zero32 _, fun hr ho =>
      .call m (.updateStorage a x.incarnation _ zero32 _) hr ⟨by decide, ho⟩⟩

/-- C157: after any calls, a state holds what the changes made to it say, and nothing else. -/
theorem c157_history (e : Env) (s : Nat) (h h' : Heap) (cs : List Call) (us : List Update) (m : MemoryBuffer)
    (hf : ∀ id, h.next ≤ id → h.objects.get? id = none) (hm : h.objects.get? s = some (.state m))
    (hh : History e s h cs us h') :
    ∃ m', h'.objects.get? s = some (.state m') ∧ worldOf m' = (worldOf m).applyAll us ∧
      (Reachable m → (∀ u ∈ us, u.Ok) → Reachable m') := by
  induction hh generalizing m with
  | nil h => exact ⟨m, hm, rfl, fun hr _ => hr⟩
  | change h h1 h2 c cs u us v hc hs _ ih =>
    obtain ⟨m1, g1, g2, g3⟩ := change_spec hm hc hs
    obtain ⟨m2, k1, k2, k3⟩ := ih m1 ((step_inv hs).2.2.2 hf) g1
    refine ⟨m2, k1, ?_, fun hr ho => k3 (g3 hr (ho u (List.mem_cons_self ..))) (fun x hx => ho x (List.mem_cons_of_mem _ hx))⟩
    rw [k2, g2]
    rfl
  | other h h1 h2 c cs us v hl hs _ ih => exact ih m ((step_inv hs).2.2.2 hf) (step_leaves hf hs hm hl)

/-- A new state is empty. -/
theorem worldOf_empty : worldOf {} = World.empty := rfl

-- An account is removed from a new state.
example (e : Env) : ∃ us m', History e 0 ⟨[(1, .buffer (List.replicate 20 (some 1))), (0, .state {})], 2⟩
    [.updateAccount (.object 0) (.object 1) .null] us
    ⟨[(0, .state m'), (1, .buffer (List.replicate 20 (some 1)))], 2⟩ ∧ us = [.account (List.replicate 20 1) none] :=
  ⟨_, _, .change _ _ _ _ _ _ _ .unit (.remove (.object 1) (List.replicate 20 1) rfl) rfl (.nil _), rfl⟩

/-- C157: an account is read from a state as it is; there is null for none. -/
theorem c157_read_account (e : Env) (h : Heap) (s : Nat) (m : MemoryBuffer) (p : Pointer) (a : Bytes)
    (hm : h.objects.get? s = some (.state m)) (ha : h.read p 20 = .ok a) :
    match (worldOf m).account a with
    | none => step e h (.readAccount (.object s) p) = .ok (h, .pointer .null)
    | some x => ∃ h', step e h (.readAccount (.object s) p) = .ok (h', .pointer (.object h.next)) ∧
        h'.objects.get? h.next = some (.account x) := by
  have hadr : addressAt h p = .ok a := by simp only [addressAt, ha, Outcome.ok_bind, toAddress_same (read_length ha)]
  show match m.readAccount a with
    | none => _
    | some x => _
  cases hx : m.readAccount a with
  | none => simp only [step, givesPointer, readAccount, state_get hm, hadr, Outcome.ok_bind, hx]
  | some x =>
    refine ⟨(h.alloc (.account x)).1, ?_, ?_⟩
    · simp only [step, givesPointer, readAccount, state_get hm, hadr, Outcome.ok_bind, hx, Heap.alloc]
    · show (h.objects.set h.next _).get? h.next = _
      rw [AMap.get?_set, if_pos rfl]

/-- C157: code is read from a state by its hash. -/
theorem c157_read_code (e : Env) (h : Heap) (s : Nat) (m : MemoryBuffer) (p : Pointer) (k : Bytes)
    (hm : h.objects.get? s = some (.state m)) (hk : h.read p 32 = .ok k) :
    ∃ h', step e h (.readCode (.object s) p) = .ok (h', .pointer (.object h.next)) ∧
      h'.objects.get? h.next = some (.bytes ((worldOf m).code k)) := by
  have h32 : bytes32At h p = .ok k := by
    simp only [bytes32At, hk, Outcome.ok_bind, toBytes32]
    rw [toArray_pad (by rw [read_length hk]), read_length hk]
    rfl
  refine ⟨(h.alloc (.bytes (m.readCode k))).1, ?_, ?_⟩
  · simp only [step, givesPointer, readCode, state_get hm, h32, Outcome.ok_bind, Heap.alloc]
  · show (h.objects.set h.next _).get? h.next = _
    rw [AMap.get?_set, if_pos rfl]
    rfl

theorem zerolessView_spec (b : Bytes) : (zerolessView b).head? ≠ some 0 ∧ ∃ n, b = List.replicate n 0 ++ zerolessView b := by
  induction b with
  | nil => exact ⟨by simp [zerolessView], 0, rfl⟩
  | cons x xs ih =>
    unfold zerolessView
    split
    · rename_i hx
      obtain ⟨h1, n, h2⟩ := ih
      refine ⟨h1, n + 1, ?_⟩
      rw [List.replicate_succ, List.cons_append, ← h2, hx]
    · rename_i hx
      exact ⟨by simpa using hx, 0, rfl⟩

/-- C157: a value is read from a state without the zeros in front. -/
theorem c157_read_storage (e : Env) (h : Heap) (s i j : Nat) (m : MemoryBuffer) (p : Pointer) (a l : Bytes) (x : Account)
    (hm : h.objects.get? s = some (.state m)) (ha : h.read p 20 = .ok a) (hx : h.objects.get? i = some (.account x))
    (hl : h.objects.get? j = some (.bytes l)) (ll : l.length ≤ 32) :
    ∃ h' b n, step e h (.readStorage (.object s) p (.object i) (.object j)) = .ok (h', .pointer (.object h.next)) ∧
      h'.objects.get? h.next = some (.bytes b) ∧ b.head? ≠ some 0 ∧
      (worldOf m).storage a x.incarnation (List.replicate (32 - l.length) 0 ++ l) = List.replicate n 0 ++ b := by
  have hadr : addressAt h p = .ok a := by simp only [addressAt, ha, Outcome.ok_bind, toAddress_same (read_length ha)]
  have hacc : h.account (.object i) = .ok (i, x) := by simp [Pointer.object, Heap.account, hx]
  have hb : h.bytes (.object j) = .ok l := by simp [Pointer.object, Heap.bytes, Heap.object, hl]
  obtain ⟨g1, n, g2⟩ := zerolessView_spec (m.readStorage a x.incarnation (List.replicate (32 - l.length) 0 ++ l))
  refine ⟨(h.alloc (.bytes (zerolessView (m.readStorage a x.incarnation (List.replicate (32 - l.length) 0 ++ l))))).1,
    _, n, ?_, ?_, g1, g2⟩
  · simp only [step, givesPointer, readStorage, state_get hm, hadr, hacc, hb, Outcome.ok_bind]
    rw [show toBytes32 l = _ from toArray_pad ll]
    rfl
  · show (h.objects.set h.next _).get? h.next = _
    rw [AMap.get?_set, if_pos rfl]

/-- C157: the number of accounts is the number of addresses that have one. -/
theorem c157_number_of_accounts (e : Env) (h : Heap) (s : Nat) (m : MemoryBuffer) (hm : h.objects.get? s = some (.state m))
    (hr : Reachable m) : ∃ addresses : List Bytes,
      step e h (.numberOfAccounts (.object s)) = .ok (h, .number addresses.length) ∧ addresses.Nodup ∧
      ∀ a, a ∈ addresses ↔ (worldOf m).account a ≠ none := by
  refine ⟨AMap.keys m.accounts, ?_, (reachable_ok hr).keys, fun a => ?_⟩
  · simp only [step, state_get hm, Outcome.ok_bind, MemoryBuffer.numberOfAccounts, AMap.keys, List.length_map]
  · show _ ↔ m.accounts.get? a ≠ none
    rw [ne_eq, AMap.get?_eq_none_iff, not_not]

/-- C157: the size of a storage is the number of locations with a value other than zero. -/
theorem c157_storage_size (e : Env) (h : Heap) (s i : Nat) (m : MemoryBuffer) (p : Pointer) (a : Bytes) (x : Account)
    (hm : h.objects.get? s = some (.state m)) (hr : Reachable m) (ha : h.read p 20 = .ok a)
    (hx : h.objects.get? i = some (.account x)) : ∃ locations : List Bytes,
      step e h (.storageSize (.object s) p (.object i)) = .ok (h, .number locations.length) ∧ locations.Nodup ∧
      ∀ l, l ∈ locations ↔ (worldOf m).storage a x.incarnation l ≠ List.replicate 32 0 := by
  have hadr : addressAt h p = .ok a := by simp only [addressAt, ha, Outcome.ok_bind, toAddress_same (read_length ha)]
  have hacc : h.account (.object i) = .ok (i, x) := by simp [Pointer.object, Heap.account, hx]
  have ok := Trie.storageOf_ok (reachable_ok hr).storage a x.incarnation
  refine ⟨AMap.keys (Trie.storageOf m a x.incarnation), ?_, ok.wf, fun l => ?_⟩
  · simp only [step, storageSize, state_get hm, hadr, hacc, Outcome.ok_bind, AMap.keys, List.length_map]
    unfold MemoryBuffer.storageSize Trie.storageOf
    cases m.storage.get? a with
    | none => rfl
    | some m1 => cases h1 : m1.get? x.incarnation <;> simp [h1]
  · have hrd : (worldOf m).storage a x.incarnation l = (AMap.get? (Trie.storageOf m a x.incarnation) l).getD zero32 := by
      show m.readStorage a x.incarnation l = _
      unfold MemoryBuffer.readStorage MemoryBuffer.nestedGet? Trie.storageOf
      cases m.storage.get? a with
      | none => rfl
      | some m1 => cases h1 : m1.get? x.incarnation <;> simp [h1]
    rw [hrd, show List.replicate 32 (0 : UInt8) = zero32 from rfl]
    cases hg : AMap.get? (Trie.storageOf m a x.incarnation) l with
    | none =>
      rw [AMap.get?_eq_none_iff] at hg
      simp [hg]
    | some v =>
      have hmem := AMap.mem_of_get? hg
      have : l ∈ AMap.keys (Trie.storageOf m a x.incarnation) := List.mem_map.mpr ⟨_, hmem, rfl⟩
      simp only [Option.getD_some, this, true_iff]
      exact ok.nonzero _ hmem

/-- C157: the root of a state is given in a buffer of 32 bytes, and is that of the Yellow Paper. -/
theorem c157_root (e : Env) (h : Heap) (s : Nat) (m : MemoryBuffer) (hm : h.objects.get? s = some (.state m)) (hr : Reachable m)
    (hk : HashOk e.keccak m) (hmem : e.memory = true) :
    ∃ h', step e h (.stateRootHash (.object s)) = .ok (h', .pointer (.object h.next)) ∧
      step e h' (.hostRead (.object h.next) 32) = .ok (h',
        .bytes (Spec.stateRoot e.keccak (m.accounts.map (fun x => (x.1, x.2, Trie.storageOf m x.1 x.2.incarnation))))) := by
  have hroot := c70_state_root e.keccak m hr hk
  have hl : (Spec.stateRoot e.keccak (m.accounts.map (fun x => (x.1, x.2, Trie.storageOf m x.1 x.2.incarnation)))).length = 32 :=
    hk.length _
  generalize Spec.stateRoot e.keccak (m.accounts.map (fun x => (x.1, x.2, Trie.storageOf m x.1 x.2.incarnation))) = root at *
  have hw : (h.alloc (.buffer (List.replicate 32 none))).1.write (.object h.next) root =
      .ok ((h.alloc (.buffer (List.replicate 32 none))).1.put h.next (.buffer (root.map some))) := by
    unfold Heap.write Pointer.object
    simp only [Heap.alloc, AMap.get?_set, if_true, Object.store, List.length_replicate, hl, Nat.le_refl, Nat.zero_add, overwrite,
      List.take_zero, List.nil_append, Heap.put]
    simp [hl]
  refine ⟨(h.alloc (.buffer (List.replicate 32 none))).1.put h.next (.buffer (root.map some)), ?_, ?_⟩
  · simp only [step, givesPointer, stateRootHash, state_get hm, hroot, Outcome.ok_bind, newBuffer, hmem, if_true, fixed_eq hl]
    rw [show (h.alloc (.buffer (List.replicate 32 none))).2 = .object h.next from rfl, hw]
    rfl
  · have := read_some (h := (h.alloc (.buffer (List.replicate 32 none))).1.put h.next (.buffer (root.map some))) (id := h.next)
      (m := .whole) (offset := 0) (n := 32) (o := .buffer (root.map some)) (b := root)
      (by show AMap.get? (AMap.set _ _ _) _ = _; rw [AMap.get?_set, if_pos rfl]) rfl (by omega)
    simp only [step, Pointer.object, this, Outcome.ok_bind]
    rw [List.drop_zero, List.take_of_length_le (by omega)]

/-- C157: states that hold the same have the same root, however they came about. -/
theorem c157_root_of_world (e : Env) (h : Heap) (s t : Nat) (m n : MemoryBuffer) (hm : h.objects.get? s = some (.state m))
    (hn : h.objects.get? t = some (.state n)) (rm : Reachable m) (rn : Reachable n) (km : HashOk e.keccak m)
    (kn : HashOk e.keccak n) (hw : worldOf m = worldOf n) :
    step e h (.stateRootHash (.object s)) = step e h (.stateRootHash (.object t)) := by
  have ha : m.readAccount = n.readAccount := congrArg World.account hw
  have hs : m.readStorage = n.readStorage := congrArg World.storage hw
  have hroot := c70_root_of_observable_state e.keccak m n rm rn km kn (fun a => by rw [ha]) (fun a x _ k => by rw [hs])
  simp only [step, stateRootHash, state_get hm, state_get hn, Outcome.ok_bind, hroot]

/-! ## What the host cannot do -/

/-- A state, an address, an account, two locations of 33 bytes, a value and an account that is the same. -/
def wasmLong : Heap := ⟨[(0, .state {}), (1, .buffer (List.replicate 20 (some 1))), (2, .account { balance := 9 }),
  (3, .bytes (List.replicate 32 0 ++ [1])), (4, .bytes (List.replicate 32 0 ++ [2])), (5, .bytes [7])], 6⟩

/-- C157 is violated for locations of more than 32 bytes: their last bytes are left out, and a value that was written at one of them is
found at another. -/
theorem c157_long_location_violated :
    (session wasmExample wasmLong [.updateStorage (.object 0) (.object 1) (.object 2) (.object 3) (.object 5),
      .readStorage (.object 0) (.object 1) (.object 2) (.object 4)]).bind (fun r => (.ok (r.1.objects.get? 6) : Outcome Empty _)) =
      .ok (some (.bytes [7])) := by rfl

/-- C157 is violated for values of more than 32 bytes: the last bytes are left out, so one is written as zero. -/
theorem c157_long_value_violated :
    returned (session wasmExample wasmLong [.updateStorage (.object 0) (.object 1) (.object 2) (.object 5) (.object 3),
      .storageSize (.object 0) (.object 1) (.object 2)]) = some [.unit, .number 0] := by rfl

/-- C157 is violated for accounts that are removed: their storage is not, and belongs to the account that is made in their place, because
the host makes accounts of the incarnation 0 only. -/
theorem c157_removed_storage_violated :
    returned (session wasmExample wasmLong [.updateAccount (.object 0) (.object 1) (.object 2),
      .updateStorage (.object 0) (.object 1) (.object 2) (.object 5) (.object 5), .updateAccount (.object 0) (.object 1) .null,
      .newAccount 0 .null, .updateAccount (.object 0) (.object 1) (.object 6), .storageSize (.object 0) (.object 1) (.object 6)]) =
      some [.unit, .unit, .unit, .pointer (.object 6), .unit, .number 1] := by rfl

/-- A state with an account of the incarnation 3, and its address. -/
def wasmContract : Heap :=
  ⟨[(0, .state { accounts := [(List.replicate 20 1, { incarnation := 3 })] }), (1, .buffer (List.replicate 20 (some 1)))], 2⟩

/-- C157 is violated for the incarnations of accounts that are removed: none is kept, since the function does not tell the state what was
there before; `update_account` of the state keeps it. -/
theorem c157_previous_incarnation_violated :
    ((session wasmExample wasmContract [.updateAccount (.object 0) (.object 1) .null]).bind (fun r =>
      (r.1.state (.object 0)).bind fun m => .ok (m.2.prevIncarnations.get? (List.replicate 20 1)))) = .ok none ∧
    ((wasmContract.state (.object 0)).bind fun m => .ok ((m.2.updateAccount (List.replicate 20 1)
      (m.2.readAccount (List.replicate 20 1)) none).prevIncarnations.get? (List.replicate 20 1))) = .ok (some 3) := by
  constructor <;> rfl

-- An account and a value of its storage are written and read.
example : returned (session wasmExample wasmLong [.updateAccount (.object 0) (.object 1) (.object 2),
      .updateStorage (.object 0) (.object 1) (.object 2) (.object 5) (.object 5), .numberOfAccounts (.object 0),
      .storageSize (.object 0) (.object 1) (.object 2), .readAccount (.object 0) (.object 1),
      .readStorage (.object 0) (.object 1) (.object 2) (.object 5), .bytesLength (.object 7), .hostRead (.to 7 .data 0) 1]) =
    some [.unit, .unit, .number 1, .number 1, .pointer (.object 6), .pointer (.object 7), .number 1, .bytes [7]] := by rfl

end Silkworm.Properties
