import Verif.Execution.Balances

/-!
# What messages do to the state

Helper definitions: the state changes only by the effects below, in nested scopes that may be reverted. A guarded account,
that is one without code, does nothing itself; what it spends and how often its nonce is increased is counted.
-/

namespace Silkworm.Evm

open IntraBlockState
open Spec.Execution (balance nonce codeHash live slot originalSlot)

/-- Elementary changes of the state. -/
inductive Effect where
  | accessAccount (a : Bytes)
  | accessStorage (a k : Bytes)
  | sstore (a k v : Bytes)
  | log (l : Log)
  | selfdestruct (a b : Bytes)
  | touch (a : Bytes)
  | transfer (a b : Bytes) (v : Nat)
  | bumpNonce (a : Bytes)
  | newContract (a : Bytes)
  | deposit (a code : Bytes)

/-- Their execution. -/
def Effect.run (env : Env) (s : IntraBlockState) : Effect → IntraBlockState
  | .accessAccount a => (s.accessAccount a).2
  | .accessStorage a k => (s.accessStorage a k).2
  | .sstore a k v => (setStorage env s a k v).2
  | .log l => s.addLog l
  | .selfdestruct a b => Evm.selfdestruct env s a b
  | .touch a => s.touch a
  | .transfer a b v => addToBalance env.db (subtractFromBalance env.db s a v) b v
  | .bumpNonce a => setNonce env.db s a ((nonce env.db s a + 1) % 2 ^ 64)
  | .newContract a =>
    let s := createContract env.db s a
    if env.revision ≥ Revision.spuriousDragon then setNonce env.db s a 1 else s
  | .deposit a code => s.setCode env.crypto.keccak env.db a code

/-- When they occur. -/
def Effect.Ok (env : Env) (s : IntraBlockState) : Effect → Prop
  | .sstore a _ _ => live env.db s a = true
  | .selfdestruct a _ => live env.db s a = true
  | .transfer a _ v => v ≤ balance env.db s a
  | .newContract a => nonce env.db s a = 0 ∧ codeHash env.db s a = kEmptyHash
  | .deposit a code => live env.db s a = true ∧ (env.revision ≥ Revision.london → code.head? ≠ some 0xEF) ∧
      (env.revision ≥ Revision.spuriousDragon → code.length ≤ 0x6000)
  | _ => True

/-- The account that acts. -/
def Effect.actor : Effect → Option Bytes
  | .sstore a _ _ => some a
  | .log l => some l.address
  | .selfdestruct a _ => some a
  | .transfer a _ _ => some a
  | .bumpNonce a => some a
  | .newContract a => some a
  | .deposit a _ => some a
  | _ => none

/-- What a guarded account may do. -/
def Effect.Guarded (env : Env) (guard : Option Bytes) (s : IntraBlockState) (e : Effect) : Prop :=
  ∀ x, guard = some x → e.actor = some x →
    match e with
    | .transfer _ _ _ => True
    | .bumpNonce _ => nonce env.db s x + 1 < 2 ^ 64
    | _ => False

/-- What is counted of it. -/
structure Acc where
  spent : Nat := 0
  bumps : Nat := 0

/-- Count an effect. -/
def Effect.count (guard : Option Bytes) (A : Acc) : Effect → Acc
  | .transfer a _ v => if guard = some a then { A with spent := A.spent + v } else A
  | .bumpNonce a => if guard = some a then { A with bumps := A.bumps + 1 } else A
  | _ => A

/-- Those that are allowed in static mode. -/
def Effect.harmless : Effect → Bool
  | .accessAccount _ => true
  | .accessStorage _ _ => true
  | .touch _ => true
  | _ => false

/-- The operation only reads. -/
def IsReadOp : Op → Bool
  | .doesExist _ => true
  | .isDead _ => true
  | .getBalance _ => true
  | .getNonce _ => true
  | .getCode _ => true
  | .getCodeHash _ => true
  | .getCurrentStorage _ _ => true
  | .getOriginalStorage _ _ => true
  | _ => false

/-- From one state and count to another. -/
inductive Effects (env : Env) (guard : Option Bytes) (static : Bool) :
    IntraBlockState → Acc → IntraBlockState → Acc → Prop
  | nil {s : IntraBlockState} {A : Acc} : Effects env guard static s A s A
  | read {s : IntraBlockState} {A : Acc} (o : Op) : IsReadOp o = true →
      Effects env guard static s A (o.step env.crypto.keccak env.db s).2 A
  | step {s : IntraBlockState} {A : Acc} (e : Effect) : e.Ok env s → (static = true → e.harmless = true) →
      e.Guarded env guard s → Effects env guard static s A (e.run env s) (e.count guard A)
  | trans {s t u : IntraBlockState} {A A' A'' : Acc} :
      Effects env guard static s A t A' → Effects env guard static t A' u A'' → Effects env guard static s A u A''
  | revert {s t : IntraBlockState} {A A' : Acc} :
      Effects env guard static s A t A' → Effects env guard static s A (t.revertToSnapshot s.takeSnapshot) A

theorem Effects.mono {env : Env} {guard : Option Bytes} {x y : Bool} (h : y = true → x = true) {s t : IntraBlockState}
    {A A' : Acc} (e : Effects env guard x s A t A') : Effects env guard y s A t A' := by
  induction e with
  | nil => exact .nil
  | read o ho => exact .read o ho
  | step e h1 h2 h3 => exact .step e h1 (fun hy => h2 (h hy)) h3
  | trans _ _ ih1 ih2 => exact ih1.trans ih2
  | revert _ ih => exact ih.revert

variable {env : Env} {guard : Option Bytes}

theorem read_same (s : IntraBlockState) {o : Op} (h : IsReadOp o = true) :
    Same env.db s (o.step env.crypto.keccak env.db s).2 := by
  cases o with
  | doesExist a => obtain ⟨t, e, k⟩ := exists?_eq (db := env.db) s a; simp only [Op.step, e]; exact k
  | isDead a => obtain ⟨t, e, k⟩ := isDead_eq (db := env.db) s a; simp only [Op.step, e]; exact k
  | getBalance a => obtain ⟨t, e, k⟩ := getBalance_eq (db := env.db) s a; simp only [Op.step, e]; exact k
  | getNonce a => obtain ⟨t, e, k⟩ := getNonce_eq (db := env.db) s a; simp only [Op.step, e]; exact k
  | getCode a => obtain ⟨t, e, k⟩ := getCode_eq (db := env.db) s a; simp only [Op.step, e]; exact k
  | getCodeHash a => obtain ⟨t, e, k⟩ := getCodeHash_eq (db := env.db) s a; simp only [Op.step, e]; exact k
  | getCurrentStorage a k =>
    obtain ⟨t, e, k⟩ := getStorage_eq (db := env.db) s a k false
    simp only [Op.step, getCurrentStorage, e]; exact k
  | getOriginalStorage a k =>
    obtain ⟨t, e, k⟩ := getStorage_eq (db := env.db) s a k true
    simp only [Op.step, getOriginalStorage, e]; exact k
  | _ => cases h

/-! ## As operations of the state -/

/-- Some operations lead from `s` to `t`; storage is written only of accounts that exist. -/
def Steps (env : Env) (s t : IntraBlockState) : Prop :=
  ∃ tr : Trace, (tr.run env.crypto.keccak env.db s).2 = t ∧
    tr.All env.crypto.keccak env.db (fun o s => o.LiveStorage env.db s) s

/-- One trace after the other. -/
def _root_.Silkworm.Trace.append : Trace → Trace → Trace
  | .nil, q => q
  | .op o rest, q => .op o (rest.append q)
  | .scope body revert rest, q => .scope body revert (rest.append q)

theorem run_append (p q : Trace) (k : Bytes → Bytes) (db : StateReader) (s : IntraBlockState) :
    ((p.append q).run k db s).2 = (q.run k db (p.run k db s).2).2 := by
  induction p generalizing s with
  | nil => rfl
  | op o rest ih => exact ih _
  | scope body revert rest _ ih => exact ih _

theorem all_append (p q : Trace) (k : Bytes → Bytes) (db : StateReader) (P : Op → IntraBlockState → Prop)
    (s : IntraBlockState) : (p.append q).All k db P s ↔ p.All k db P s ∧ q.All k db P (p.run k db s).2 := by
  induction p generalizing s with
  | nil => exact ⟨fun h => ⟨trivial, h⟩, fun h => h.2⟩
  | op o rest ih =>
    show (_ ∧ _) ↔ (_ ∧ _) ∧ _
    rw [ih]
    exact ⟨fun h => ⟨⟨h.1, h.2.1⟩, h.2.2⟩, fun h => ⟨h.1.1, h.1.2, h.2⟩⟩
  | scope body revert rest _ ih =>
    show (_ ∧ _) ↔ (_ ∧ _) ∧ _
    rw [ih]
    exact ⟨fun h => ⟨⟨h.1, h.2.1⟩, h.2.2⟩, fun h => ⟨h.1.1, h.1.2, h.2⟩⟩

theorem Steps.refl (s : IntraBlockState) : Steps env s s := ⟨.nil, rfl, trivial⟩

theorem Steps.trans {s t u : IntraBlockState} (h : Steps env s t) (g : Steps env t u) : Steps env s u := by
  obtain ⟨p, rfl, hp⟩ := h
  obtain ⟨q, rfl, hq⟩ := g
  exact ⟨p.append q, run_append .., (all_append ..).mpr ⟨hp, hq⟩⟩

theorem Steps.op (s : IntraBlockState) (o : Op) (h : o.LiveStorage env.db s) :
    Steps env s (o.step env.crypto.keccak env.db s).2 := ⟨.op o .nil, rfl, h, trivial⟩

theorem Steps.revert {s t : IntraBlockState} (h : Steps env s t) : Steps env s (t.revertToSnapshot s.takeSnapshot) := by
  obtain ⟨p, rfl, hp⟩ := h
  exact ⟨.scope p true .nil, rfl, hp, trivial⟩

theorem live_of_same {s t : IntraBlockState} (h : Same env.db s t) (a : Bytes) : live env.db t a = live env.db s a := by
  rw [live_view, live_view, view_of_same h]

theorem Steps.setStorage (s : IntraBlockState) (a k v : Bytes) (h : live env.db s a = true) :
    Steps env s (setStorage env s a k v).2 := by
  have h1 : Steps env s (getCurrentStorage env.db s a k).2 := Steps.op s (.getCurrentStorage a k) trivial
  have k1 : Same env.db s (getCurrentStorage env.db s a k).2 := read_same (env := env) s (o := .getCurrentStorage a k) rfl
  have h2 : Steps env (getCurrentStorage env.db s a k).2
      (IntraBlockState.setStorage env.db (getCurrentStorage env.db s a k).2 a k v) :=
    Steps.op _ (.setStorage a k v) (show live env.db (getCurrentStorage env.db s a k).2 a = true by
      rw [live_of_same k1]; exact h)
  unfold Evm.setStorage
  dsimp only
  split
  · exact h1
  · refine (h1.trans h2).trans ?_
    generalize IntraBlockState.setStorage env.db (getCurrentStorage env.db s a k).2 a k v = t
    generalize (getCurrentStorage env.db s a k).1 = cur
    have add : ∀ (s : IntraBlockState) n, Steps env s (s.addRefund n) := fun s n => Steps.op s (.addRefund n) trivial
    have sub : ∀ (s : IntraBlockState) n, Steps env s (s.subtractRefund n) :=
      fun s n => Steps.op s (.subtractRefund n) trivial
    have net : ∀ (s : IntraBlockState) o, Steps env s (netMetering env.revision s o cur v).2 := by
      intro s o
      unfold netMetering
      split
      · split
        · exact .refl s
        · dsimp only
          split
          · exact add _ _
          · exact .refl s
      · dsimp only
        refine Steps.trans (t := if o ≠ zero32 ∧ cur = zero32 then s.subtractRefund (sstoreClearsRefund env.revision) else s)
          ?_ ?_
        · split
          · exact sub _ _
          · exact .refl s
        · generalize (if o ≠ zero32 ∧ cur = zero32 then s.subtractRefund (sstoreClearsRefund env.revision) else s) = s1
          refine Steps.trans (t := if o ≠ zero32 ∧ v = zero32 then s1.addRefund (sstoreClearsRefund env.revision) else s1)
            ?_ ?_
          · split
            · exact add _ _
            · exact .refl s1
          · generalize (if o ≠ zero32 ∧ v = zero32 then s1.addRefund (sstoreClearsRefund env.revision) else s1) = s2
            split
            · split <;> exact add _ _
            · exact .refl s2
    split
    · exact Steps.trans (Steps.op t (.getOriginalStorage a k) trivial) (net _ _)
    · unfold grossMetering
      split
      · exact .refl t
      · split
        · exact add _ _
        · exact .refl t

theorem Steps.effect (s : IntraBlockState) (e : Effect) (h : e.Ok env s) : Steps env s (e.run env s) := by
  cases e with
  | accessAccount a => exact Steps.op s (.accessAccount a) trivial
  | accessStorage a k => exact Steps.op s (.accessStorage a k) trivial
  | sstore a k v => exact Steps.setStorage s a k v h
  | log l => exact Steps.op s (.addLog l) trivial
  | selfdestruct a b =>
    have h1 : Steps env s (recordSuicide s a) := Steps.op s (.recordSuicide a) trivial
    refine h1.trans ?_
    have h2 : Steps env (recordSuicide s a) (getBalance env.db (recordSuicide s a) a).2 :=
      Steps.op _ (.getBalance a) trivial
    refine h2.trans ?_
    have h3 : ∀ (t : IntraBlockState) n, Steps env t (addToBalance env.db t b n) :=
      fun t n => Steps.op t (.addToBalance b n) trivial
    have h4 : ∀ (t : IntraBlockState), Steps env t (setBalance env.db t a 0) :=
      fun t => Steps.op t (.setBalance a 0) trivial
    exact (h3 _ _).trans (h4 _)
  | touch a => exact Steps.op s (.touch a) trivial
  | transfer a b v =>
    have h1 : Steps env s (subtractFromBalance env.db s a v) := Steps.op s (.subtractFromBalance a v) trivial
    have h2 : ∀ (t : IntraBlockState), Steps env t (addToBalance env.db t b v) :=
      fun t => Steps.op t (.addToBalance b v) trivial
    exact h1.trans (h2 _)
  | bumpNonce a =>
    have h1 : ∀ n, Steps env s (setNonce env.db s a n) := fun n => Steps.op s (.setNonce a n) trivial
    exact h1 _
  | newContract a =>
    have h1 : Steps env s (createContract env.db s a) := Steps.op s (.createContract a) trivial
    refine h1.trans ?_
    unfold Effect.run
    dsimp only
    split
    · exact Steps.op _ (.setNonce a 1) trivial
    · exact .refl _
  | deposit a code => exact Steps.op s (.setCode a code) trivial

theorem Effects.steps {x : Bool} {s t : IntraBlockState} {A A' : Acc} (h : Effects env guard x s A t A') : Steps env s t := by
  induction h with
  | nil => exact .refl _
  | read o ho => exact Steps.op _ o (by cases o <;> first | trivial | cases ho)
  | step e h1 _ _ => exact .effect _ e h1
  | trans _ _ ih1 ih2 => exact ih1.trans ih2
  | revert _ ih => exact ih.revert

/-- What can be undone. -/
abbrev Undoable (env : Env) (s t : IntraBlockState) : Prop :=
  StepOk env.crypto.keccak env.db True (fun _ => True) s t

theorem Effects.undoable {x : Bool} {s t : IntraBlockState} {A A' : Acc} (h : Effects env guard x s A t A') :
    Undoable env s t := by
  obtain ⟨p, rfl, hp⟩ := h.steps
  refine run_ok p s (fun _ => hp) ?_
  clear hp h
  induction p generalizing s with
  | nil => trivial
  | op o rest ih => exact ⟨by cases o <;> trivial, ih⟩
  | scope body revert rest ih1 ih2 => exact ⟨ih1, ih2⟩

/-- The parts of the view that a reverted scope restores. -/
theorem revert_view {s t : IntraBlockState} (h : Undoable env s t) :
    (view env.db (t.revertToSnapshot s.takeSnapshot)).obj = (view env.db s).obj ∧
    (view env.db (t.revertToSnapshot s.takeSnapshot)).orig = (view env.db s).orig ∧
    (view env.db (t.revertToSnapshot s.takeSnapshot)).curv = (view env.db s).curv ∧
    (t.revertToSnapshot s.takeSnapshot).selfDestructs = s.selfDestructs ∧
    (t.revertToSnapshot s.takeSnapshot).logs = s.logs ∧
    (t.revertToSnapshot s.takeSnapshot).refund = s.refund := by
  obtain ⟨h1, _, h3, h4, _, _⟩ := revert_ok h
  exact ⟨funext fun a => (h1.obj a).symm, funext fun a => funext fun k => (h1.orig a (Or.inl trivial) k).symm,
    funext fun a => funext fun k => (h1.curv a (Or.inl trivial) k).symm, h1.selfDestructs.symm, h3, h4⟩

end Silkworm.Evm
