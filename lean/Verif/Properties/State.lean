import Verif.State.Observe

/-!
# Properties C28 - C33: the state
-/

namespace Silkworm.Properties

open IntraBlockState State
open Spec (IsRead SameReads SameObservations NoClash CodeFits traceCodes phaseCodes result SafeDb SafePhases)

variable {keccak : Bytes → Bytes} {db : StateReader}

/-! ## Examples -/

/-- A stand-in for the hash function in the examples. -/
def exKeccak (code : Bytes) : Bytes := if code = [] then kEmptyHash else List.replicate 31 0 ++ [code.headD 0]

def exX : Bytes := List.replicate 20 7
def exY : Bytes := List.replicate 20 8
def exK : Bytes := List.replicate 31 0 ++ [1]
def exVal (n : UInt8) : Bytes := List.replicate 31 0 ++ [n]

/-- A buffer with a contract of incarnation 1 whose slot `exK` holds 5. -/
def exBuffer : MemoryBuffer :=
  { accounts := [(exX, { nonce := 1, balance := 10, codeHash := exKeccak [9], incarnation := 1 }), (exY, { balance := 3 })]
    code := [(exKeccak [9], [9])]
    storage := [(exX, [(1, [(exK, exVal 5)])])] }

theorem exBuffer_storage (a : Bytes) (n : Nat) (k : Bytes) (h : ¬ (a = exX ∧ n = 1)) :
    exBuffer.readStorage a n k = zero32 := by
  unfold MemoryBuffer.readStorage MemoryBuffer.nestedGet? exBuffer
  simp only [AMap.get?_cons, AMap.get?_nil]
  by_cases ha : exX = a
  · rw [if_pos ha]
    have hn : ¬ (1 = n) := fun e => h ⟨ha.symm, e.symm⟩
    simp only [AMap.get?_cons, AMap.get?_nil]
    rw [if_neg hn]
    rfl
  · rw [if_neg ha]
    rfl

theorem exBuffer_account (a : Bytes) (c : Account) (h : exBuffer.readAccount a = some c) :
    (a = exX ∧ c.incarnation = 1) ∨ (c.incarnation = 0 ∧ c.codeHash = kEmptyHash) := by
  unfold MemoryBuffer.readAccount exBuffer at h
  simp only [AMap.get?_cons, AMap.get?_nil] at h
  by_cases ha : exX = a
  · rw [if_pos ha] at h; cases h; exact Or.inl ⟨ha.symm, rfl⟩
  · rw [if_neg ha] at h
    by_cases hb : exY = a
    · rw [if_pos hb] at h; cases h; exact Or.inr ⟨rfl, rfl⟩
    · rw [if_neg hb] at h; cases h

/-- The buffer of the examples has no left-over storage. -/
theorem safeDb_ex : SafeDb exBuffer.reader := by
  refine ⟨fun a k => exBuffer_storage a 0 k (fun h => by omega), fun a n k _ h => ?_, fun a i _ _ => Nat.zero_le _,
    fun a i h h0 => ?_, fun a => ⟨(by decide : 0 + 1 < 2 ^ 64), fun i h => ?_⟩⟩
  · refine exBuffer_storage a n k (fun e => ?_)
    have := h _ (by rw [e.1]; rfl : exBuffer.reader.readAccount a = some _)
    have h1 : (1 : Nat) < n := this
    omega
  · rcases exBuffer_account a i h with ⟨_, h1⟩ | ⟨_, h1⟩
    · omega
    · exact h1
  · rcases exBuffer_account a i h with ⟨_, h1⟩ | ⟨h1, _⟩ <;> omega

/-- Sequence of operations. -/
def opsOf : List Op → Trace
  | [] => .nil
  | o :: os => .op o (opsOf os)

/-- Operations as a phase, and the end of a transaction. -/
def exTx (os : List Op) : List Phase :=
  [.ops (opsOf os), .destructSuicides, .destructTouchedDead, .finalizeTransaction, .clearJournalAndSubstate]

/-- The state after phases over a buffer. -/
def exRun (b : MemoryBuffer) (ps : List Phase) : IntraBlockState := (runPhases exKeccak b.reader ps {}).2

/-- The buffer after a block. -/
def exCommit (b : MemoryBuffer) (n : Nat) (ps : List Phase) : MemoryBuffer := b.applyAll ((exRun b ps).writeToDb n)

/-! ## C28 -/

/-- C28: whatever is done after taking a snapshot, nested snapshots and reverts included, reverting to it restores every
observation. The only assumption is that the codes written do not collide with codes of accounts. -/
theorem c28_revert_restores (t : Trace) (s : IntraBlockState) (hc : NoClash keccak db s (traceCodes t)) :
    SameObservations keccak db s ((t.run keccak db s).2.revertToSnapshot s.takeSnapshot) := by
  have hok := run_ok (keccak := keccak) (db := db) (strict := False) (W := fun c => c ∈ traceCodes t) t s
    (fun h => h.elim) (trace_codeIn t s (fun c h => h))
  obtain ⟨h1, _, h3, h4, h5, _⟩ := revert_ok hok
  have hcode : ∀ x, lookupCode db ((t.run keccak db s).2.revertToSnapshot s.takeSnapshot) x =
      lookupCode db (t.run keccak db s).2 x := fun x => by unfold lookupCode; rw [h5]
  generalize hu : (t.run keccak db s).2.revertToSnapshot s.takeSnapshot = u at *
  have some_of : ∀ a, (view db s).cur a ≠ none → (curOf db s a).isSome := fun a h => by
    show ((view db s).cur a).isSome
    exact Option.isSome_iff_ne_none.mpr h
  refine ⟨fun o ho => ?_, fun a => ?_, fun a k => ?_, h3.symm, h1.selfDestructs, ?_, fun a ha => ?_⟩
  · rw [result_read s ho, result_read u ho]
    refine read_congr (v := view db s) (w := view db u) (fun a => h1.cur a) (fun a k h => h1.orig a (Or.inr (some_of a h)) k)
      (fun a k h => h1.curv a (Or.inr (some_of a h)) k) (fun a c hcur he => ?_) (fun _ => h4.symm)
    show lookupCode db s c.codeHash = lookupCode db u c.codeHash
    rw [hcode]
    rcases hok.code c.codeHash with e | ⟨code, hm, hk, hl⟩
    · exact e.symm
    · rw [hl]
      exact noClash_view hc hm hcur hk he
  · rw [result_accessAccount, result_accessAccount, h1.accessedAddresses]
  · rw [result_accessStorage, result_accessStorage, h1.keys]
  · unfold numberOfSelfDestructs; rw [h1.selfDestructs]
  · have key : ∀ l : List Bytes, a ∈ l ↔ a ∈ l.filter (· != kRipemdAddress) := fun l => by
      rw [List.mem_filter]; simp [ha]
    rw [key s.touched, key u.touched, h1.touched]

/-- C28: after a revert everything that follows behaves as if the reverted operations had never been executed: all
later results and all later observations are the same. (For reverted operations that write no code, no touch of the
RIPEMD-160 precompile that was not there before, and storage written only to existing accounts.) -/
theorem c28_later_behaviour (t : Trace) (s : IntraBlockState) (ps : List Phase) (hcodes : traceCodes t = [])
    (hf : CodeFits keccak s (phaseCodes ps)) (hf' : CodeFits keccak (t.run keccak db s).2 (phaseCodes ps))
    (hr : kRipemdAddress ∈ (t.run keccak db s).2.touched ↔ kRipemdAddress ∈ s.touched)
    (hl : t.All keccak db (fun o s => o.LiveStorage db s) s)
    (hlp : PhasesAll keccak db (fun o s => o.LiveStorage db s) ps s) :
    (runPhases keccak db ps ((t.run keccak db s).2.revertToSnapshot s.takeSnapshot)).1 = (runPhases keccak db ps s).1 ∧
      SameObservations keccak db (runPhases keccak db ps s).2
        (runPhases keccak db ps ((t.run keccak db s).2.revertToSnapshot s.takeSnapshot)).2 := by
  have hok := run_ok (keccak := keccak) (db := db) (strict := True) (W := fun _ => False) t s
    (fun _ => hl) (trace_codeIn t s (fun c h => by rw [hcodes] at h; cases h))
  have hcode : (view db (t.run keccak db s).2).code = (view db s).code := by
    show lookupCode db _ = lookupCode db s
    funext x
    rcases hok.code x with e | ⟨_, h, _⟩
    · exact e
    · exact absurd h id
  have hrip : (view db (t.run keccak db s).2).ripemd = (view db s).ripemd := by
    show (t.run keccak db s).2.touched.contains kRipemdAddress = s.touched.contains kRipemdAddress
    rw [Bool.eq_iff_iff]
    simpa using hr
  have hv : view db ((t.run keccak db s).2.revertToSnapshot s.takeSnapshot) = view db s := by
    rw [revert_view hok, hcode, hrip]
  have hu := (revert_ok hok).2.2.2.2.1
  generalize (t.run keccak db s).2.revertToSnapshot s.takeSnapshot = u at *
  have hk : ∀ (r : IntraBlockState), CodeFits keccak r (phaseCodes ps) → ∀ code ∈ phaseCodes ps, known keccak r code = code := by
    intro r h code hm
    unfold known
    cases hg : r.code.get? (keccak code) with
    | none => rfl
    | some x => exact h code hm x hg
  have cong : Cong keccak db (fun c => c ∈ phaseCodes ps) s u := by
    refine ⟨hv.symm, fun code hm => ?_⟩
    rw [hk s hf code hm, hk u (fun c hc x hx => hf' c hc x (by rw [← hu]; exact hx)) code hm]
  obtain ⟨h1, h2⟩ := phases_cong ps cong hlp (phases_codeIn ps s (fun c h => h))
  exact ⟨h1.symm, observations_of_view h2.view⟩

/-- Nested snapshots, contract creation, destruction and storage writes, all undone. -/
def exReverted : Trace :=
  .op (.setStorage exX exK (exVal 6)) <| .op (.addToBalance exY 4) <|
  .scope (.op (.createContract exX) <| .op (.setStorage exX exK (exVal 7)) <| .op (.setCode exX [4]) .nil) true <|
  .scope (.op (.recordSuicide exX) <| .op (.setNonce exY 9) <| .op (.addRefund 15000) .nil) false <|
  .op (.accessStorage exX exK) <| .op (.createContract exY) .nil

example :
    let s := (exReverted.run exKeccak exBuffer.reader {}).2
    let r := s.revertToSnapshot ({} : IntraBlockState).takeSnapshot
    result exKeccak exBuffer.reader s (.getCurrentStorage exX exK) = .bytes (exVal 6) ∧
    result exKeccak exBuffer.reader r (.getCurrentStorage exX exK) = .bytes (exVal 5) ∧
    result exKeccak exBuffer.reader s (.getBalance exY) = .nat 7 ∧
    result exKeccak exBuffer.reader r (.getBalance exY) = .nat 3 ∧
    result exKeccak exBuffer.reader r (.getCode exX) = .bytes [9] ∧
    s.selfDestructs = [exX] ∧ r.selfDestructs = [] ∧ s.refund = 15000 ∧ r.refund = 0 := by decide +kernel

/-! ## C29 -/

/-- A sequence of reads. -/
def readAll (keccak : Bytes → Bytes) (db : StateReader) (s : IntraBlockState) (l : List Op) : IntraBlockState :=
  l.foldl (fun s o => (o.step keccak db s).2) s

theorem readAll_same (l : List Op) (s : IntraBlockState) (h : ∀ o ∈ l, IsRead o) : Same db s (readAll keccak db s l) := by
  induction l generalizing s with
  | nil => exact Same.refl s
  | cons o l ih =>
    exact (read_same s (h o List.mem_cons_self)).trans (ih _ (fun p hp => h p (List.mem_cons_of_mem _ hp)))

/-- C29: reads change no observation. -/
theorem c29_reads_pure (l : List Op) (s : IntraBlockState) (h : ∀ o ∈ l, IsRead o) :
    SameObservations keccak db s (readAll keccak db s l) :=
  observations_of_view (view_of_same (readAll_same l s h)).symm

theorem readAll_known (l : List Op) (s : IntraBlockState) (h : ∀ o ∈ l, IsRead o) {codes : List Bytes}
    (hc : NoClash keccak db s codes) {code : Bytes} (hm : code ∈ codes) :
    known keccak (readAll keccak db s l) code = known keccak s code := by
  induction l generalizing s with
  | nil => rfl
  | cons o l ih =>
    have hs := read_same (keccak := keccak) (db := db) s (h o List.mem_cons_self)
    have hc' : NoClash keccak db (o.step keccak db s).2 codes := by
      intro code hm hk a
      have hv := view_of_same hs
      rw [result_read _ (by trivial), result_read _ (by trivial), hv]
      have := hc code hm hk a
      rwa [result_read _ (by trivial), result_read _ (by trivial)] at this
    have hi := ih (o.step keccak db s).2 (fun p hp => h p (List.mem_cons_of_mem _ hp)) hc'
    refine hi.trans ?_
    have ho := h o List.mem_cons_self
    have keep : (o.step keccak db s).2.code = s.code → known keccak (o.step keccak db s).2 code = known keccak s code :=
      fun e => known_of_code e code
    cases o with
    | doesExist a => exact keep (exists?_code s a)
    | isDead a => exact keep (isDead_code s a)
    | getBalance a => exact keep (getBalance_code s a)
    | getNonce a => exact keep (getNonce_code s a)
    | getCodeHash a => exact keep (getCodeHash_code s a)
    | getCurrentStorage a k => exact keep (getStorage_keeps s a k false).code
    | getOriginalStorage a k => exact keep (getStorage_keeps s a k true).code
    | getRefund => rfl
    | getCode a =>
      show known keccak (getCode db s a).2 code = _
      rw [getCode_known]
      cases hcur : curOf db s a with
      | none => rfl
      | some c =>
        simp only
        by_cases he : c.codeHash ≠ kEmptyHash ∧ c.codeHash = keccak code
        · rw [if_pos he]
          have hl := noClash_view hc hm hcur he.2.symm he.1
          rw [he.2] at hl
          rw [hl]
          unfold known
          unfold lookupCode at hl
          cases hg : s.code.get? (keccak code) with
          | none => rfl
          | some x => rw [hg] at hl; exact hl.symm
        · rw [if_neg he]
    | _ => exact absurd ho id

/-- C29: whatever is done after a sequence of reads returns the same results, and leads to the same observations, as
without the reads. -/
theorem c29_reads_do_not_matter_later (l : List Op) (s : IntraBlockState) (h : ∀ o ∈ l, IsRead o) (ps : List Phase)
    (hc : NoClash keccak db s (phaseCodes ps)) (hl : PhasesAll keccak db (fun o s => o.LiveStorage db s) ps s) :
    (runPhases keccak db ps (readAll keccak db s l)).1 = (runPhases keccak db ps s).1 ∧
      SameObservations keccak db (runPhases keccak db ps s).2 (runPhases keccak db ps (readAll keccak db s l)).2 := by
  have cong : Cong keccak db (fun c => c ∈ phaseCodes ps) s (readAll keccak db s l) :=
    ⟨(view_of_same (readAll_same l s h)).symm, fun code hm => (readAll_known l s h hc hm).symm⟩
  obtain ⟨h1, h2⟩ := phases_cong ps cong hl (phases_codeIn ps s (fun c h => h))
  exact ⟨h1.symm, observations_of_view h2.view⟩

/-- The reads fill all caches. -/
def exReads : List Op := [.getCode exX, .getCurrentStorage exX exK, .getBalance exY, .doesExist [1]]

example : (readAll exKeccak exBuffer.reader {} exReads).objects.length = 2 ∧
    (readAll exKeccak exBuffer.reader {} exReads).storage.length = 1 ∧
    (readAll exKeccak exBuffer.reader {} exReads).code.length = 1 ∧
    (runPhases exKeccak exBuffer.reader (exTx [.createContract exX, .getCurrentStorage exX exK, .getBalance exX])
      (readAll exKeccak exBuffer.reader {} exReads)).1 = [.unit, .bytes zero32, .nat 10] := by decide +kernel

/-! ## C30 -/

/-- C30: a write is read back. A code is read back if the state holds nothing else under its hash and only the empty
code has the hash of the empty code; storage is read back on existing accounts. -/
theorem c30_write_read_back (s : IntraBlockState) (a k : Bytes) (n : Nat) (v : Bytes) :
    result keccak db ((Op.setBalance a n).step keccak db s).2 (.getBalance a) = .nat n ∧
    (∀ old, result keccak db s (.getBalance a) = .nat old →
      result keccak db ((Op.addToBalance a n).step keccak db s).2 (.getBalance a) = .nat ((old + n) % 2 ^ 256) ∧
      (n ≤ old → old < 2 ^ 256 →
        result keccak db ((Op.subtractFromBalance a n).step keccak db s).2 (.getBalance a) = .nat (old - n))) ∧
    result keccak db ((Op.setNonce a n).step keccak db s).2 (.getNonce a) = .nat n ∧
    result keccak db ((Op.setCode a v).step keccak db s).2 (.getCodeHash a) = .bytes (keccak v) ∧
    (CodeFits keccak s [v] → (keccak v = kEmptyHash → v = []) →
      result keccak db ((Op.setCode a v).step keccak db s).2 (.getCode a) = .bytes v) ∧
    (result keccak db s (.doesExist a) = .bool true →
      result keccak db ((Op.setStorage a k v).step keccak db s).2 (.getCurrentStorage a k) = .bytes v) := by
  refine ⟨?_, ?_, ?_, ?_, ?_, ?_⟩
  · rw [result_write s (by trivial) (by trivial)]
    simp only [writeView, shapeStep, View.read, View.modify_cur, if_true, Option.map_some, Option.getD_some]
  · intro old ho
    rw [result_read s (by trivial)] at ho
    simp only [View.read, OpResult.nat.injEq] at ho
    have hb : (((view db s).cur a).getD {}).balance = old := by
      cases hc : (view db s).cur a with
      | none => rw [hc] at ho; exact ho
      | some c => rw [hc] at ho; exact ho
    constructor
    · rw [result_write s (by trivial) (by trivial)]
      simp only [writeView, shapeStep, View.read, View.modify_cur, if_true, Option.map_some, Option.getD_some]
      rw [hb]
    · intro hle hlt
      rw [result_write s (by trivial) (by trivial)]
      simp only [writeView, shapeStep, View.read, View.modify_cur, if_true, Option.map_some, Option.getD_some]
      rw [hb]
      congr 1
      have h1 : n % 2 ^ 256 = n := Nat.mod_eq_of_lt (by omega)
      rw [h1]
      have h2 : old + (2 ^ 256 - n) = old - n + 2 ^ 256 := by omega
      rw [h2, Nat.add_mod_right, Nat.mod_eq_of_lt (by omega)]
  · rw [result_write s (by trivial) (by trivial)]
    simp only [writeView, shapeStep, View.read, View.modify_cur, if_true, Option.map_some, Option.getD_some]
  · rw [result_write s (by trivial) (by trivial)]
    have hcur : (writeView keccak db s (.setCode a v)).cur a =
        ((view db s).modify a (fun c => { c with codeHash := keccak v })).cur a := rfl
    simp only [View.read, hcur, View.modify_cur, if_true, Option.map_some, Option.getD_some]
  · intro hf he
    rw [result_write s (by trivial) (by trivial)]
    have hcur : (writeView keccak db s (.setCode a v)).cur a =
        ((view db s).modify a (fun c => { c with codeHash := keccak v })).cur a := rfl
    simp only [View.read, hcur, View.modify_cur, if_true, View.codeAt]
    by_cases h0 : keccak v = kEmptyHash
    · rw [if_pos h0, he h0]
    · rw [if_neg h0]
      congr 1
      show upd (view db s).code (keccak v) (known keccak s v) (keccak v) = v
      rw [upd_self]
      unfold known
      cases hg : s.code.get? (keccak v) with
      | none => rfl
      | some x => exact hf v (by simp) x hg
  · intro hex
    rw [result_read s (by trivial)] at hex
    simp only [View.read, OpResult.bool.injEq] at hex
    rw [result_write s (by trivial) (by trivial)]
    simp only [writeView, shapeStep, View.read]
    congr 1
    cases hc : (view db s).cur a with
    | none => rw [hc] at hex; cases hex
    | some c =>
      unfold View.setStorage
      rw [hc]
      simp only
      by_cases hv : (view db s).curv a k = v
      · rw [if_pos hv]
        unfold View.slot
        rw [hc]
        exact hv
      · rw [if_neg hv]
        unfold View.slot
        have : View.cur { view db s with curv := upd (view db s).curv a (upd ((view db s).curv a) k v) } a = some c := hc
        rw [this]
        simp only [Bool.false_eq_true, if_false, upd_self]

/-- C30: an account is dead exactly when its code hash is that of the empty code, its nonce and its balance are zero;
after a write (to an existing account, for storage) the account exists. -/
theorem c30_dead_and_exists (s : IntraBlockState) (a : Bytes) :
    (∀ x n m, result keccak db s (.getCodeHash a) = .bytes x → result keccak db s (.getNonce a) = .nat n →
      result keccak db s (.getBalance a) = .nat m →
      result keccak db s (.isDead a) = .bool (decide (x = kEmptyHash ∧ n = 0 ∧ m = 0))) ∧
    (∀ w, Spec.IsWrite w → Spec.writeAddress w = some a → (∀ k v, w ≠ .setStorage a k v) →
      result keccak db (w.step keccak db s).2 (.doesExist a) = .bool true) ∧
    (∀ k v, result keccak db ((Op.setStorage a k v).step keccak db s).2 (.doesExist a) = result keccak db s (.doesExist a)) := by
  refine ⟨fun x n m h1 h2 h3 => ?_, fun w hw ha hns => ?_, fun k v => ?_⟩
  · rw [result_read s (by trivial)] at h1 h2 h3 ⊢
    simp only [View.read, OpResult.bytes.injEq, OpResult.nat.injEq, OpResult.bool.injEq] at h1 h2 h3 ⊢
    cases hc : (view db s).cur a with
    | none =>
      rw [hc] at h1 h2 h3
      subst h1 h2 h3
      simp [deadAcc]
    | some c =>
      rw [hc] at h1 h2 h3
      subst h1 h2 h3
      rw [Bool.eq_iff_iff]
      simp [deadAcc, and_assoc]
  · rw [result_write s hw (by trivial)]
    simp only [View.read, OpResult.bool.injEq]
    cases w with
    | setStorage b k v => cases ha; exact absurd rfl (hns k v)
    | setCode b v =>
      cases ha
      show (((view db s).modify a (fun c => { c with codeHash := keccak v })).cur a).isSome = true
      rw [View.modify_cur, if_pos rfl]; rfl
    | setBalance b v => cases ha; simp only [writeView, shapeStep]; rw [View.modify_cur, if_pos rfl]; rfl
    | addToBalance b v => cases ha; simp only [writeView, shapeStep]; rw [View.modify_cur, if_pos rfl]; rfl
    | subtractFromBalance b v => cases ha; simp only [writeView, shapeStep]; rw [View.modify_cur, if_pos rfl]; rfl
    | setNonce b v => cases ha; simp only [writeView, shapeStep]; rw [View.modify_cur, if_pos rfl]; rfl
    | _ => exact absurd hw id
  · rw [result_write s (by trivial) (by trivial), result_read s (by trivial)]
    simp only [writeView, shapeStep, View.read]
    rcases setStorage_cases (view db s) a k v with e | e <;> rw [e]
    rfl

/-- C30: a write changes no other observation, in any state (for the storage of the account itself: if the account
exists; for code: if the code does not collide with the code of another account). -/
theorem c30_frame (s : IntraBlockState) (w o : Op) (hw : Spec.IsWrite w) (ho : IsRead o) (hn : ¬ Spec.Affects w o)
    (hcode : ∀ a code, w = .setCode a code → NoClash keccak db s [code])
    (hst : ∀ a k, Spec.writeAddress w = some a → o = .getCurrentStorage a k ∨ o = .getOriginalStorage a k →
      result keccak db s (.doesExist a) = .bool true) :
    result keccak db (w.step keccak db s).2 o = result keccak db s o := by
  refine write_frame s hw ho hn hcode (fun a k ha h => Or.inl (fun hc => ?_))
  have := hst a k ha h
  rw [result_read s (by trivial)] at this
  simp only [View.read, hc, OpResult.bool.injEq] at this
  cases this

/-- C30: in states reached by safe executions over a safe database a write changes no other observation, whether the
account exists or not. -/
theorem c30_frame_reachable (hdb : SafeDb db) (ps : List Phase) (hps : SafePhases keccak db ps {}) (w o : Op)
    (hw : Spec.IsWrite w) (ho : IsRead o) (hn : ¬ Spec.Affects w o)
    (hcode : ∀ a code, w = .setCode a code → NoClash keccak db (runPhases keccak db ps {}).2 [code]) :
    result keccak db (w.step keccak db (runPhases keccak db ps {}).2).2 o =
      result keccak db (runPhases keccak db ps {}).2 o := by
  have hp := phases_stable hdb (plainZero_stable (keccak := keccak) hdb) ps hps
    (PhasesAll.triv (fun _ _ => trivial) ps {}) inv_init (plainZero_init hdb)
  refine write_frame _ hw ho hn hcode (fun a k _ _ => ?_)
  cases hc : (view db (runPhases keccak db ps {}).2).cur a with
  | some c => exact Or.inl (by simp)
  | none => exact Or.inr (hp a k (by rw [hc]; rfl))

example :
    let s := exRun exBuffer (exTx [.setStorage exX exK (exVal 6), .setCode exY [4], .setNonce exX 5])
    result exKeccak exBuffer.reader s (.getCurrentStorage exX exK) = .bytes (exVal 6) ∧
    result exKeccak exBuffer.reader s (.getCurrentStorage exX (exVal 2)) = .bytes zero32 ∧
    result exKeccak exBuffer.reader s (.getCode exY) = .bytes [4] ∧
    result exKeccak exBuffer.reader s (.getCode exX) = .bytes [9] ∧
    result exKeccak exBuffer.reader s (.getBalance exX) = .nat 10 ∧
    result exKeccak exBuffer.reader s (.getNonce exX) = .nat 5 := by decide +kernel

/-! ## C31 -/

/-- C31, partial: after the operations of a block that are safe in the sense of `Spec.SafePhases` (no incarnation is
reused), written to a buffer without left-over storage in any order of its hash maps, a fresh state over the buffer
reads what the state of the block reads. The full statement, without the safety conditions, is false:
`c31_commit_violated_storage`, `c31_commit_violated_code`. -/
theorem c31_commit_partial (b : MemoryBuffer) (hdb : SafeDb b.reader) (ps : List Phase)
    (hps : SafePhases keccak b.reader ps {}) (hset : Spec.Settled keccak b.reader (runPhases keccak b.reader ps {}).2)
    (hc : NoClash keccak b.reader {} (phaseCodes ps)) (n : Nat) (L : List BufferCall)
    (hL : Spec.CommitCalls (runPhases keccak b.reader ps {}).2 n L) (o : Op) (ho : IsRead o) (hr : o ≠ .getRefund) :
    result keccak (b.applyAll L).reader {} o = result keccak b.reader (runPhases keccak b.reader ps {}).2 o := by
  have hi := phases_inv hdb ps hps inv_init
  have hext := phases_codeExt (keccak := keccak) (db := b.reader) ps {} (W := fun c => c ∈ phaseCodes ps) (fun c h => h)
  generalize (runPhases keccak b.reader ps {}).2 = s at *
  have hsc := commitCalls_same hL
  have hacc : ∀ a, (b.applyAll L).readAccount a = curOf b.reader s a := commit_account hi.order.wfObjects hsc
  rw [result_read _ ho, result_read _ ho]
  refine read_congr (v := view (b.applyAll L).reader {}) (w := view b.reader s) (fun a => ?_) (fun a k h => ?_)
    (fun a k h => ?_) (fun a c hcur he => ?_) (fun h => absurd h hr)
  · rw [fresh_cur, hacc]; rfl
  · rw [fresh_cur] at h
    cases hca : (b.applyAll L).readAccount a with
    | none => exact absurd hca h
    | some c =>
      rw [(fresh_slot _ hca k).1]
      exact commit_value hi hsc ((hacc a).symm.trans hca) k
  · rw [fresh_cur] at h
    cases hca : (b.applyAll L).readAccount a with
    | none => exact absurd hca h
    | some c =>
      have hcs := (hacc a).symm.trans hca
      rw [(fresh_slot _ hca k).2]
      exact (commit_value hi hsc hcs k).trans (settled_view hset hcs k).symm
  · rw [fresh_cur] at hcur
    have hcs := (hacc a).symm.trans hcur
    show (b.applyAll L).readCode c.codeHash = lookupCode b.reader s c.codeHash
    refine commit_code (keccak := keccak) (W := fun c => c ∈ phaseCodes ps) hi (fun x => hext x) ?_ hsc hcs he
    intro a' i code hai hm hk he'
    have hcur' : curOf b.reader {} a' = some i := (fresh_cur b a').trans hai
    exact noClash_view hc hm hcur' hk he'

/-- C31: the end of a transaction leaves nothing pending, as `c31_commit_partial` requires. -/
theorem c31_settled_after_finalize (s : IntraBlockState) : Spec.Settled keccak db s.finalizeTransaction ∧
    Spec.Settled keccak db s.finalizeTransaction.clearJournalAndSubstate := by
  have h : Spec.Settled keccak db s.finalizeTransaction := by
    intro a k
    rw [result_read _ (by trivial), result_read _ (by trivial), finalize_view]
    rfl
  refine ⟨h, fun a k => ?_⟩
  have h1 := h a k
  rw [result_read _ (by trivial), result_read _ (by trivial)] at h1 ⊢
  exact h1

/-- C31 (negation): a contract destroyed, funded and created again in one block reuses its incarnation; the values it
still sees in the block are not those that a fresh state reads afterwards. Here the second block creates the contract
and reads zero before, five after the commit. -/
theorem c31_commit_violated_storage : ∃ (b : MemoryBuffer) (ps : List Phase) (o : Op), IsRead o ∧ o ≠ .getRefund ∧
    result exKeccak b.reader (exRun b ps) o = .bytes zero32 ∧
    result exKeccak (exCommit b 2 ps).reader {} o = .bytes (exVal 5) := by
  let b := exCommit exBuffer 1 (exTx [.recordSuicide exX] ++ exTx [.addToBalance exX 1])
  refine ⟨b, exTx [.createContract exX, .setNonce exX 1], .getCurrentStorage exX exK, trivial, by simp, ?_, ?_⟩ <;>
    decide +kernel

/-- C31 (negation): in the same situation the code of the new contract is not written. -/
theorem c31_commit_violated_code : ∃ (b : MemoryBuffer) (ps : List Phase) (o : Op), IsRead o ∧ o ≠ .getRefund ∧
    SafeDb b.reader ∧ result exKeccak b.reader (exRun b ps) o = .bytes [4] ∧
    result exKeccak (exCommit b 2 ps).reader {} o = .bytes [] := by
  refine ⟨exBuffer, exTx [.recordSuicide exX] ++ exTx [.addToBalance exX 1] ++ exTx [.createContract exX, .setCode exX [4]],
    .getCode exX, trivial, by simp, safeDb_ex, ?_, ?_⟩ <;> decide +kernel

/-- A block with a creation, a write of code and writes of storage. -/
def exSafe : List Phase :=
  exTx [.createContract [1], .setCode [1] [4], .setStorage [1] exK (exVal 7), .setStorage exX exK (exVal 6),
    .recordSuicide exY]

theorem exSafe_safe : SafePhases exKeccak exBuffer.reader exSafe {} := by
  refine ⟨⟨fun o h => (by cases h), ⟨_, _, rfl, rfl, by decide, fun i h => (by cases h)⟩, ⟨_, _, rfl, rfl, by decide⟩,
    ⟨_, _, rfl, rfl, by decide⟩, trivial, trivial⟩, trivial, trivial, trivial, trivial, trivial⟩

example (L : List BufferCall) (hL : Spec.CommitCalls (exRun exBuffer exSafe) 1 L) :
    result exKeccak (exBuffer.applyAll L).reader {} (.getCurrentStorage [1] exK) = .bytes (exVal 7) ∧
    result exKeccak (exBuffer.applyAll L).reader {} (.getCurrentStorage exX exK) = .bytes (exVal 6) ∧
    result exKeccak (exBuffer.applyAll L).reader {} (.getCode [1]) = .bytes [4] ∧
    result exKeccak (exBuffer.applyAll L).reader {} (.doesExist exY) = .bool false := by
  have hc : NoClash exKeccak exBuffer.reader {} (phaseCodes exSafe) := by
    intro code hm _ a hh
    have : code = [4] := by simpa [exSafe, exTx, opsOf, phaseCodes, traceCodes, Spec.opCodes] using hm
    subst this
    rw [result_read _ (by trivial)] at hh
    simp only [View.read, fresh_cur, OpResult.bytes.injEq] at hh
    cases ha : exBuffer.readAccount a with
    | none => rw [ha] at hh; exact absurd hh (by decide +kernel)
    | some c =>
      rw [ha] at hh
      simp only [Option.map_some, Option.getD_some] at hh
      unfold MemoryBuffer.readAccount exBuffer at ha
      simp only [AMap.get?_cons, AMap.get?_nil] at ha
      by_cases hx : exX = a
      · rw [if_pos hx] at ha; cases ha; exact absurd hh (by decide +kernel)
      · rw [if_neg hx] at ha
        by_cases hy : exY = a
        · rw [if_pos hy] at ha; cases ha; exact absurd hh (by decide +kernel)
        · rw [if_neg hy] at ha; cases ha
  have hset : Spec.Settled exKeccak exBuffer.reader (runPhases exKeccak exBuffer.reader exSafe {}).2 := by
    exact (c31_settled_after_finalize _).2
  have key := c31_commit_partial exBuffer safeDb_ex exSafe exSafe_safe hset hc 1 L hL
  refine ⟨?_, ?_, ?_, ?_⟩
  · rw [key _ (by trivial) (by simp)]; decide +kernel
  · rw [key _ (by trivial) (by simp)]; decide +kernel
  · rw [key _ (by trivial) (by simp)]; decide +kernel
  · rw [key _ (by trivial) (by simp)]; decide +kernel

/-! ## C32 -/

/-- C32: unwinding a block whose calls recorded what was in the buffer restores all accounts and storage values. -/
theorem c32_unwind_restores (b : MemoryBuffer) (n : Nat) (L : List BufferCall) (hL : ∀ c ∈ L, Spec.RecordsInitial b c) :
    Spec.SameContents ((b.applyAll (.beginBlock n :: L)).unwindStateChanges n) b := by
  have := MemoryBuffer.recorded_applyAll L (MemoryBuffer.recorded_begin b n) (fun c hc => by
    have h := hL c hc
    cases c with
    | beginBlock m => exact h
    | updateAccount a i c => exact h
    | updateAccountCode a n x c => trivial
    | updateStorage a n k i c => exact h)
  exact MemoryBuffer.unwind_recorded this

/-- C32, partial: unwinding blocks executed by safe operations, latest first, restores all accounts and storage values.
The full statement, for all executions, is false: `c32_unwind_violated`. -/
theorem c32_unwind_blocks_partial (b b' : MemoryBuffer) (ns : List Nat) (hdb : SafeDb b.reader)
    (h : Spec.Blocks keccak b ns b') (hn : ns.Nodup) : Spec.SameContents (Spec.unwindAll b' ns.reverse) b :=
  blocks_unwind h hdb hn

/-- C32 (negation): the third block creates again a contract that the second has replaced by a plain account. Its
storage value was recorded as zero, so unwinding the third and the second block leaves the slot of the first block
erased. -/
theorem c32_unwind_violated : ∃ (b0 : MemoryBuffer) (ps2 ps3 : List Phase) (a k : Bytes),
    let b2 := exCommit b0 2 ps2
    let b3 := exCommit b2 3 ps3
    result exKeccak b0.reader {} (.getCurrentStorage a k) = .bytes (exVal 5) ∧
    result exKeccak (Spec.unwindAll b3 [3, 2]).reader {} (.getCurrentStorage a k) = .bytes zero32 := by
  refine ⟨exBuffer, exTx [.recordSuicide exX] ++ exTx [.addToBalance exX 1],
    exTx [.createContract exX, .setNonce exX 1, .setStorage exX exK (exVal 7)], exX, exK, ?_, ?_⟩ <;> decide +kernel

/-- `Spec.SafeEnd` for one cached object. -/
def safeEndObject (db : StateReader) (e : Bytes × Object) : Bool :=
  match e.2.current, e.2.initial with
  | some c, some i => (c.incarnation != 0 || i.incarnation == 0) && decide (c.incarnation + 1 < 2 ^ 64)
  | some c, none => decide (c.incarnation + 1 < 2 ^ 64)
  | none, some i => i.incarnation != 0 || db.previousIncarnation e.1 == 0
  | none, none => true

theorem safeEnd_of_objects (hdb : SafeDb db) (s : IntraBlockState) (h : s.objects.all (safeEndObject db) = true) :
    Spec.SafeEnd db s := by
  rw [List.all_eq_true] at h
  have key : ∀ a o, (getObject db s a).1 = some o → safeEndObject db (a, o) = true := by
    intro a o ho
    rw [getObject_fst] at ho
    unfold effObj at ho
    cases hg : s.objects.get? a with
    | some p => rw [hg] at ho; cases ho; exact h _ (AMap.mem_of_get? hg)
    | none =>
      rw [hg] at ho
      simp only at ho
      cases hr : db.readAccount a with
      | none => rw [hr] at ho; cases ho
      | some x =>
        rw [hr] at ho
        cases ho
        have := (hdb.bound a).2 x hr
        unfold safeEndObject
        simp only [Bool.and_eq_true, decide_eq_true_eq]
        refine ⟨?_, this⟩
        by_cases h0 : x.incarnation = 0 <;> simp [h0]
  refine ⟨fun a o c i ho hc hi h0 => ?_, fun a o i ho hc hi h0 => ?_, fun a o c ho hc => ?_⟩
  · have := key a o ho
    unfold safeEndObject at this
    simp [hc, hi, h0] at this
    exact this
  · have := key a o ho
    unfold safeEndObject at this
    simp [hc, hi, h0] at this
    exact this
  · have := key a o ho
    unfold safeEndObject at this
    cases hi : o.initial with
    | none => simp [hc, hi] at this; exact this
    | some i => simp [hc, hi] at this; exact this.2

/-- A block executed over the buffer of the examples. -/
theorem exBlocks : Spec.Blocks exKeccak exBuffer [1] (exCommit exBuffer 1 exSafe) :=
  .block exBuffer 1 exSafe _ [] _ exSafe_safe (c31_settled_after_finalize _).2
    (safeEnd_of_objects safeDb_ex _ (by decide +kernel)) ⟨List.Perm.refl _, _, rfl⟩ (.nil _)

example : Spec.SameContents (Spec.unwindAll (exCommit exBuffer 1 exSafe) [1]) exBuffer ∧
    (exCommit exBuffer 1 exSafe).readAccount [1] ≠ none ∧ exBuffer.readAccount [1] = none :=
  ⟨c32_unwind_blocks_partial _ _ _ safeDb_ex exBlocks (by decide), by decide +kernel, by decide +kernel⟩

/-! ## C33 -/

/-- C33, partial: after creating a contract, as long as a slot is not written, it reads zero, in the same and in later
transactions of the block, over any buffer reached by safe blocks from a buffer without left-over storage. The full
statement, without the safety conditions, is false: `c33_stale_storage_violated_same_block`,
`c33_stale_storage_violated_later_block`. -/
theorem c33_created_storage_zero_partial (b b' : MemoryBuffer) (ns : List Nat) (hdb : SafeDb b.reader)
    (h : Spec.Blocks keccak b ns b') (before after : List Phase) (a k : Bytes)
    (h1 : SafePhases keccak b'.reader before {})
    (h2 : Spec.SafeCreate b'.reader (runPhases keccak b'.reader before {}).2 a)
    (h3 : SafePhases keccak b'.reader after ((Op.createContract a).step keccak b'.reader (runPhases keccak b'.reader before {}).2).2)
    (h4 : PhasesAll keccak b'.reader (fun o _ => ∀ v, o ≠ .setStorage a k v) after
      ((Op.createContract a).step keccak b'.reader (runPhases keccak b'.reader before {}).2).2) :
    let s := (runPhases keccak b'.reader after
      ((Op.createContract a).step keccak b'.reader (runPhases keccak b'.reader before {}).2).2).2
    result keccak b'.reader s (.getCurrentStorage a k) = .bytes zero32 ∧
      result keccak b'.reader s (.getOriginalStorage a k) = .bytes zero32 := by
  intro s
  have hdb' := blocks_safeDb h hdb
  have hi := phases_inv hdb' before h1 inv_init
  have hi2 := (step_inv (keccak := keccak) hdb' _ (.createContract a) h2 hi).1
  have hz : ZeroAt a k (view b'.reader ((Op.createContract a).step keccak b'.reader (runPhases keccak b'.reader before {}).2).2) := by
    show ZeroAt a k (view b'.reader (createContract b'.reader (runPhases keccak b'.reader before {}).2 a))
    rw [createContract_view]
    exact zeroAt_create hdb' hi h2 k
  have hq : PhasesAll keccak b'.reader (fun o _ => NoWrite a k o) after
      ((Op.createContract a).step keccak b'.reader (runPhases keccak b'.reader before {}).2).2 := by
    refine PhasesAll.mono (fun o s h => ?_) h4
    cases o with
    | setStorage b j v => rintro ⟨rfl, rfl⟩; exact h v rfl
    | _ => trivial
  have hfin := phases_stable hdb' (zeroAt_stable (keccak := keccak) hdb' a k) after h3 hq hi2 hz
  rw [result_read s (by trivial), result_read s (by trivial)]
  simp only [View.read, View.slot]
  have e1 : (view b'.reader s).orig a k = zero32 := hfin.1
  have e2 : (view b'.reader s).curv a k = zero32 := hfin.2
  rw [e1, e2]
  cases (view b'.reader s).cur a <;> exact ⟨rfl, rfl⟩

/-- The empty buffer has no left-over storage. -/
theorem safeDb_empty : SafeDb ({} : MemoryBuffer).reader :=
  ⟨fun _ _ => rfl, fun _ _ _ _ _ => rfl, fun _ _ h => (by cases h), fun _ _ h => (by cases h),
    fun _ => ⟨(by decide : 0 + 1 < 2 ^ 64), fun _ h => (by cases h)⟩⟩

/-- Destroyed in one transaction and created again in the next. -/
example : result exKeccak exBuffer.reader
    (exRun exBuffer (exTx [.recordSuicide exX] ++ exTx [.createContract exX, .setNonce exX 1]))
    (.getCurrentStorage exX exK) = .bytes zero32 := by
  have h := c33_created_storage_zero_partial (keccak := exKeccak) exBuffer exBuffer [] safeDb_ex (.nil _)
    (exTx [.recordSuicide exX]) (exTx [.setNonce exX 1]) exX exK ⟨⟨trivial, trivial⟩, trivial, trivial, trivial, trivial, trivial⟩
    (fun o ho => by
      have : o = { initial := some { nonce := 1, balance := 10, codeHash := exKeccak [9], incarnation := 1 }, current := none } := by
        have e : (getObject exBuffer.reader (runPhases exKeccak exBuffer.reader (exTx [.recordSuicide exX]) {}).2 exX).1 =
          some { initial := some { nonce := 1, balance := 10, codeHash := exKeccak [9], incarnation := 1 }, current := none } := by
            decide +kernel
        rw [e] at ho
        cases ho
        rfl
      subst this
      exact ⟨fun c i h => (by cases h), fun c h => (by cases h)⟩)
    ⟨⟨trivial, trivial⟩, trivial, trivial, trivial, trivial, trivial⟩
    ⟨⟨fun v h => (by cases h), trivial⟩, trivial, trivial, trivial, trivial, trivial⟩
  exact h.1

/-- C33 (negation): destroyed, funded and created again in one block, the contract sees its old storage. -/
theorem c33_stale_storage_violated_same_block :
    result exKeccak exBuffer.reader
      (exRun exBuffer (exTx [.recordSuicide exX] ++ exTx [.addToBalance exX 1] ++ exTx [.createContract exX, .setNonce exX 1]))
      (.getCurrentStorage exX exK) = .bytes (exVal 5) := by decide +kernel

/-- C33 (negation): destroyed and funded in one block, created again in the next, the contract sees its old storage in
the block after that. -/
theorem c33_stale_storage_violated_later_block :
    result exKeccak (exCommit (exCommit exBuffer 1 (exTx [.recordSuicide exX] ++ exTx [.addToBalance exX 1])) 2
      (exTx [.createContract exX, .setNonce exX 1])).reader {} (.getCurrentStorage exX exK) = .bytes (exVal 5) := by
  decide +kernel

end Silkworm.Properties
