import Verif.Db.Agreement
import Verif.Properties.State

/-!
# C132: the two implementations of the state behave alike
-/

namespace Silkworm.Properties

open State IntraBlockState Spec

/-- C132 as one would want it: blocks executed on the two buffers, and written by the same calls, leave the buffers with
the same answers. False: `c132_previous_violated`, `c132_storage_violated`. -/
def C132Statement : Prop :=
  ∀ (keccak : Bytes → Bytes) (bitmapRead : Bytes → Option (List Nat)) (db : Db.Database) (b b' : Db.Buffer)
    (m m' : MemoryBuffer) (xs : List Executed),
    SameState bitmapRead db b m → TypedKeys m → ExecutedFits xs → MemoryBlocks keccak m xs m' →
    DatabaseBlocks keccak bitmapRead db b xs b' → SameState bitmapRead db b' m'

variable {keccak : Bytes → Bytes} {bitmapRead : Bytes → Option (List Nat)} {db : Db.Database}

/-- C132: while the buffers have the same answers, whatever is executed gives the same results and the same state. -/
theorem c132_execution {b : Db.Buffer} {m : MemoryBuffer} (h : SameState bitmapRead db b m) (ht : TypedKeys m)
    (ps : List Phase) (s : IntraBlockState) :
    runPhases keccak (dbReader bitmapRead db b) ps s = runPhases keccak m.reader ps s := by
  rw [Db.Buffer.dbReader_eq h ht]

/-- C132, partial: whatever a block consists of, and in whatever order its calls are made, the buffers have the same answers
afterwards; if the calls name what was there before, there is one for each account and slot, and no account without
incarnation is deleted where there was a contract before. -/
theorem c132_calls_partial {b : Db.Buffer} {m : MemoryBuffer} (h : SameState bitmapRead db b m) (n : Nat)
    (L : List BufferCall) (hL : OneBlock m L) :
    ∃ b', b.applyAll (.beginBlock n :: L) = .ok b' ∧ SameState bitmapRead db b' (m.applyAll (.beginBlock n :: L)) :=
  Db.Buffer.oneBlock_same n h hL

/-- C132, partial: blocks in which no incarnation is reused can be executed on the buffer in front of the database if they
can on the one in memory, with the same calls, and the buffers have the same answers after them. -/
theorem c132_blocks_partial {b : Db.Buffer} {m m' : MemoryBuffer} {xs : List Executed} (h : SameState bitmapRead db b m)
    (ht : TypedKeys m) (hf : ExecutedFits xs) (hdb : SafeDb m.reader) (hs : SafeBlocks keccak m xs)
    (hm : MemoryBlocks keccak m xs m') :
    (∃ b', DatabaseBlocks keccak bitmapRead db b xs b') ∧
      ∀ b', DatabaseBlocks keccak bitmapRead db b xs b' → SameState bitmapRead db b' m' := by
  obtain ⟨_, _, b', h1, h2⟩ := Db.Buffer.blocks_agree hm h ht hdb hs hf
  exact ⟨⟨b', h1⟩, fun c hc => by rw [Db.Buffer.databaseBlocks_det hc h1]; exact h2⟩

/-- C132, partial: after such blocks, whatever is executed gives the same results. -/
theorem c132_results_partial {b b' : Db.Buffer} {m m' : MemoryBuffer} {xs : List Executed} (h : SameState bitmapRead db b m)
    (ht : TypedKeys m) (hf : ExecutedFits xs) (hdb : SafeDb m.reader) (hs : SafeBlocks keccak m xs)
    (hm : MemoryBlocks keccak m xs m') (hb : DatabaseBlocks keccak bitmapRead db b xs b') (ps : List Phase) :
    (runPhases keccak (dbReader bitmapRead db b') ps {}).1 = (runPhases keccak m'.reader ps {}).1 := by
  obtain ⟨t, _, c, h1, h2⟩ := Db.Buffer.blocks_agree hm h ht hdb hs hf
  rw [Db.Buffer.databaseBlocks_det hb h1, Db.Buffer.dbReader_eq h2 t]

/-! ## Examples -/

def exNoHistory (_ : Bytes) : Option (List Nat) := none

/-- The buffers before the first block. -/
theorem exSame : SameState exNoHistory {} {} {} :=
  ⟨fun _ _ => rfl, fun _ _ => rfl, fun _ _ _ _ _ _ => rfl, fun _ _ => rfl⟩

theorem exTypedKeys : TypedKeys {} := ⟨fun _ _ => rfl, fun _ _ => rfl, fun _ _ _ _ => rfl, fun _ _ => rfl⟩

/-- The calls of a block. -/
def exCalls (m : MemoryBuffer) (n : Nat) (ps : List Phase) : List BufferCall := (exRun m ps).writeToDb n

/-- Blocks from a number on, with their calls, executed in memory. -/
def exExecuted (m : MemoryBuffer) (n : Nat) : List (List Phase) → List Executed
  | [] => []
  | ps :: l => (ps, exCalls m n ps) :: exExecuted (m.applyAll (exCalls m n ps)) (n + 1) l

/-- The buffer in memory after blocks. -/
def exMemory (m : MemoryBuffer) (xs : List Executed) : MemoryBuffer := xs.foldl (fun m x => m.applyAll x.2) m

/-- The buffer in front of the database after blocks. -/
def exDatabase (b : Db.Buffer) : List Executed → Db.Buffer
  | [] => b
  | x :: xs => match b.applyAll x.2 with
    | .ok c => exDatabase c xs
    | _ => b

theorem exMemoryBlocks (l : List (List Phase)) (m : MemoryBuffer) (n : Nat) :
    MemoryBlocks exKeccak m (exExecuted m n l) (exMemory m (exExecuted m n l)) := by
  induction l generalizing m n with
  | nil => exact .nil m
  | cons ps l ih => exact .block m ps n _ _ _ ⟨List.Perm.refl _, _, rfl⟩ (ih _ _)

deriving instance DecidableEq for BufferCall

/-- The blocks give the same calls when executed over the database. -/
def exSameCalls (b : Db.Buffer) (n : Nat) : List Executed → Bool
  | [] => true
  | x :: xs => match b.applyAll x.2 with
    | .ok c => decide ((runPhases exKeccak (dbReader exNoHistory {} b) x.1 {}).2.writeToDb n = x.2) && exSameCalls c (n + 1) xs
    | _ => false

theorem exDatabaseBlocks (xs : List Executed) (b : Db.Buffer) (n : Nat) (h : exSameCalls b n xs = true) :
    DatabaseBlocks exKeccak exNoHistory {} b xs (exDatabase b xs) := by
  induction xs generalizing b n with
  | nil => exact .nil b
  | cons x xs ih =>
    obtain ⟨ps, L⟩ := x
    unfold exSameCalls at h
    unfold exDatabase
    simp only at h ⊢
    cases hc : b.applyAll L with
    | err e => rw [hc] at h; cases h
    | ub => rw [hc] at h; cases h
    | ok c =>
      rw [hc] at h
      simp only [Bool.and_eq_true, decide_eq_true_eq] at h
      exact .block b ps n L xs _ c (by rw [← h.1]; exact ⟨List.Perm.refl _, _, rfl⟩) hc (ih c (n + 1) h.2)

/-- `Account.WF`, if there is an account. -/
def exAccountFits : Option Account → Bool
  | none => true
  | some x => decide (x.nonce < 2 ^ 64) && decide (x.balance < 2 ^ 256) && decide (x.codeHash.length = 32) &&
      decide (x.incarnation < 2 ^ 64)

theorem exAccountFits_wf {x : Option Account} (h : exAccountFits x = true) (y : Account) (hy : x = some y) : y.WF := by
  subst hy
  simp only [exAccountFits, Bool.and_eq_true, decide_eq_true_eq] at h
  exact ⟨h.1.1.1, h.1.1.2, h.1.2, h.2⟩

/-- `CallFits`. -/
def exCallFits : BufferCall → Bool
  | .beginBlock n => decide (n < 2 ^ 64)
  | .updateAccount a i c => decide (a.length = 20) && exAccountFits i && exAccountFits c
  | .updateAccountCode a n h _ => decide (a.length = 20 ∧ n < 2 ^ 64 ∧ h.length = 32)
  | .updateStorage a n k i c => decide (a.length = 20 ∧ n < 2 ^ 64 ∧ k.length = 32 ∧ i.length = 32 ∧ c.length = 32)

theorem exCallFits_all {xs : List Executed} (h : (xs.all fun x => x.2.all exCallFits) = true) : ExecutedFits xs := by
  intro x hx c hc
  have := List.all_eq_true.mp (List.all_eq_true.mp h x hx) c hc
  cases c with
  | beginBlock n => simp only [exCallFits, decide_eq_true_eq] at this; exact this
  | updateAccount a i c =>
    simp only [exCallFits, Bool.and_eq_true, decide_eq_true_eq] at this
    exact ⟨this.1.1, exAccountFits_wf this.1.2, exAccountFits_wf this.2⟩
  | updateAccountCode a n h _ => simp only [exCallFits, decide_eq_true_eq] at this; exact this
  | updateStorage a n k i c => simp only [exCallFits, decide_eq_true_eq] at this; exact this

/-- A contract is created and written to; its storage is written again; it is destroyed. -/
def exLife : List Executed :=
  exExecuted {} 1 [exTx [.createContract exX, .setCode exX [9], .setStorage exX exK (exVal 5), .setBalance exY 4],
    exTx [.setStorage exX exK (exVal 6), .setNonce exY 1], exTx [.recordSuicide exX]]

theorem safeDb_nothing : SafeDb ({} : MemoryBuffer).reader :=
  ⟨fun _ _ => rfl, fun _ _ _ _ _ => rfl, fun _ _ h => (by cases h), fun _ _ h => (by cases h),
    fun _ => ⟨(by decide : 0 + 1 < 2 ^ 64), fun _ h => (by cases h)⟩⟩

/-- One more safe block. -/
theorem exSafe_step {m : MemoryBuffer} {x : Executed} {xs : List Executed} (hdb : SafeDb m.reader)
    (ht : ∃ b, SameState exNoHistory {} b m) (hk : TypedKeys m) (hf : ∀ c ∈ x.2, CallFits c)
    (hx : x.2 = exCalls m n x.1) (safe : SafePhases exKeccak m.reader x.1 {})
    (hend : (runPhases exKeccak m.reader x.1 {}).2.objects.all (safeEndObject m.reader) = true)
    (rest : SafeDb (m.applyAll x.2).reader → (∃ b, SameState exNoHistory {} b (m.applyAll x.2)) → TypedKeys (m.applyAll x.2) →
      SafeBlocks exKeccak (m.applyAll x.2) xs) : SafeBlocks exKeccak m (x :: xs) := by
  have he := safeEnd_of_objects hdb _ hend
  obtain ⟨b, hb⟩ := ht
  obtain ⟨t1, t2, b', _, h4⟩ := Db.Buffer.blocks_agree (xs := [x]) (m' := m.applyAll x.2)
    (.block m x.1 n x.2 [] _ (by rw [hx]; exact ⟨List.Perm.refl _, _, rfl⟩) (.nil _)) hb hk hdb ⟨safe, he, trivial⟩
    (fun y hy => by rw [List.mem_singleton.mp hy]; exact hf)
  exact ⟨safe, he, rest t2 ⟨b', h4⟩ t1⟩

theorem exLife_fits : ExecutedFits exLife := exCallFits_all (by decide +kernel)

theorem exLife_safe : SafeBlocks exKeccak {} exLife := by
  have hf := exLife_fits
  refine exSafe_step safeDb_nothing ⟨_, exSame⟩ exTypedKeys (hf _ (List.mem_cons_self ..)) rfl
    ⟨⟨fun o h => (by cases h), ⟨_, _, rfl, rfl, by decide, fun i h => (by cases h)⟩, ⟨_, _, rfl, rfl, by decide⟩, trivial, trivial⟩,
      trivial, trivial, trivial, trivial, trivial⟩ (by decide +kernel) (fun h1 h2 h3 => ?_)
  refine exSafe_step h1 h2 h3 (hf _ (List.mem_cons_of_mem _ (List.mem_cons_self ..))) rfl
    ⟨⟨⟨_, _, rfl, rfl, by decide⟩, trivial, trivial⟩, trivial, trivial, trivial, trivial, trivial⟩ (by decide +kernel) (fun h1 h2 h3 => ?_)
  exact exSafe_step h1 h2 h3 (hf _ (List.mem_cons_of_mem _ (List.mem_cons_of_mem _ (List.mem_cons_self ..)))) rfl
    ⟨⟨trivial, trivial⟩, trivial, trivial, trivial, trivial, trivial⟩ (by decide +kernel) (fun _ _ _ => trivial)

/-- The contract has incarnation 1 and its code at the end of the second block, and neither buffer knows it after the third. -/
example : SameState exNoHistory {} (exDatabase {} exLife) (exMemory {} exLife) ∧
    (exMemory {} exLife).readAccount exX = none ∧ (exMemory {} exLife).previousIncarnation exX = 1 ∧
    (exMemory {} exLife).readStorage exX 1 exK = exVal 6 ∧ (exMemory {} exLife).readCode (exKeccak [9]) = [9] := by
  refine ⟨(c132_blocks_partial exSame exTypedKeys exLife_fits safeDb_nothing exLife_safe (exMemoryBlocks _ _ _)).2 _
    (exDatabaseBlocks _ _ 1 (by decide +kernel)), ?_, ?_, ?_, ?_⟩ <;> decide +kernel

example : ∃ b', ({} : Db.Buffer).applyAll [.beginBlock 1, .updateStorage exX 1 exK zero32 (exVal 5), .updateAccount exX none (some {}) ] = .ok b' ∧
    Db.Buffer.readStorage exNoHistory {} none b' exX 1 exK = .ok (exVal 5) := by
  have hL : OneBlock {} [.updateStorage exX 1 exK zero32 (exVal 5), .updateAccount exX none (some {})] := by
    refine ⟨fun c hc => ?_, fun a i c i' c' h h' => ?_, fun a n k v w v' w' h h' => ?_, fun a x h => ?_⟩
    · rcases List.mem_cons.mp hc with rfl | hc
      · rfl
      · rw [List.mem_singleton.mp hc]; rfl
    · simp at h h'; rw [h.2.2, h'.2.2]
    · simp at h h'; rw [h.2.2.2.2, h'.2.2.2.2]
    · simp at h
  obtain ⟨b', h1, h2⟩ := c132_calls_partial exSame 1 _ hL
  exact ⟨b', h1, by rw [h2.storage _ _ _ (by decide) (by decide) (by decide)]; decide +kernel⟩

/-! ## Violations -/

/-- A contract is destroyed, its address is sent money, and then a contract is created there and destroyed in one
transaction. -/
def exForget : List Executed :=
  exExecuted {} 1 [exTx [.createContract exX, .setNonce exX 1, .setStorage exX exK (exVal 5)], exTx [.recordSuicide exX],
    exTx [.addToBalance exX 1], exTx [.createContract exX, .recordSuicide exX]]

/-- C132 (negation): `MemoryBuffer` forgets the previous incarnation of the address, `db::Buffer` does not. -/
theorem c132_previous_violated : ¬ C132Statement := by
  intro h
  have := (h exKeccak exNoHistory {} {} _ {} _ exForget exSame exTypedKeys (exCallFits_all (by decide +kernel)) (exMemoryBlocks _ _ _)
    (exDatabaseBlocks _ _ 1 (by decide +kernel))).previous exX (by decide)
  exact absurd this (by decide +kernel)

/-- C132 (negation), what follows from it: the contract created there next has in memory the storage of the one destroyed
first, and none over the database. -/
theorem c132_results_violated : ∃ ps L L' b m, CommitCalls (runPhases exKeccak (exMemory {} exForget).reader ps {}).2 5 L ∧
    CommitCalls (runPhases exKeccak (dbReader exNoHistory {} (exDatabase {} exForget)) ps {}).2 5 L' ∧
    (exMemory {} exForget).applyAll L = m ∧ (exDatabase {} exForget).applyAll L' = .ok b ∧
    result exKeccak m.reader {} (.getCurrentStorage exX exK) = .bytes (exVal 5) ∧
    result exKeccak (dbReader exNoHistory {} b) {} (.getCurrentStorage exX exK) = .bytes zero32 := by
  let L' := (runPhases exKeccak (dbReader exNoHistory {} (exDatabase {} exForget)) (exTx [.createContract exX, .setNonce exX 1]) {}).2.writeToDb 5
  refine ⟨exTx [.createContract exX, .setNonce exX 1], _, L', exDatabase (exDatabase {} exForget) [([], L')], _,
    ⟨List.Perm.refl _, _, rfl⟩, ⟨List.Perm.refl _, _, rfl⟩, rfl, ?_, ?_, ?_⟩
  · obtain ⟨b', h, _⟩ := Db.Buffer.applyAll_spec L' (exDatabase {} exForget)
    have e : exDatabase (exDatabase {} exForget) [([], L')] = b' := by
      generalize exDatabase {} exForget = d at h
      unfold exDatabase
      rw [h]; rfl
    rw [e, h]
  · decide +kernel
  · decide +kernel

/-- A contract is destroyed and its address is sent money in one block, so that the incarnation is used again. -/
def exReuse : List Executed :=
  exExecuted {} 1 [exTx [.createContract exX, .setNonce exX 1, .setStorage exX exK (exVal 5)],
    exTx [.recordSuicide exX] ++ exTx [.addToBalance exX 1],
    exTx [.createContract exX, .setNonce exX 1, .setStorage exX exK (exVal 7), .setStorage exX exK zero32]]

/-- C132 (negation): a slot that is zero before and after is written by `MemoryBuffer` and skipped by `db::Buffer`, where
the value of the destroyed contract stays. -/
theorem c132_storage_violated : ¬ C132Statement := by
  intro h
  have := (h exKeccak exNoHistory {} {} _ {} _ exReuse exSame exTypedKeys (exCallFits_all (by decide +kernel)) (exMemoryBlocks _ _ _)
    (exDatabaseBlocks _ _ 1 (by decide +kernel))).storage exX 1 exK (by decide) (by decide) (by decide)
  exact absurd this (by decide +kernel)

end Silkworm.Properties
