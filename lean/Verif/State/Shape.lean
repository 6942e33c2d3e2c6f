import Verif.State.Invariant
import Verif.State.Congruence

/-!
# Storage along safe executions

Helper lemmas: a property of objects and storage values that safe operations preserve also survives reverts and the end
of transactions; plain accounts have no storage; storage that is not written stays zero.
-/

namespace Silkworm.IntraBlockState

open State Spec

variable {keccak : Bytes → Bytes} {db : StateReader}

/-- Two views agree on objects and storage. -/
structure SameShape (v w : View) : Prop where
  obj : v.obj = w.obj
  orig : v.orig = w.orig
  curv : v.curv = w.curv

theorem SameShape.refl (v : View) : SameShape v v := ⟨rfl, rfl, rfl⟩

/-- What an operation does to objects and storage. -/
def shapeStep (keccak : Bytes → Bytes) (db : StateReader) (o : Op) (v : View) : View :=
  match o with
  | .createContract a => v.createContract db a
  | .setBalance a x => v.modify a (fun c => { c with balance := x })
  | .addToBalance a x => v.modify a (fun c => { c with balance := (c.balance + x) % 2 ^ 256 })
  | .subtractFromBalance a x => v.modify a (fun c => { c with balance := (c.balance + (2 ^ 256 - x % 2 ^ 256)) % 2 ^ 256 })
  | .setNonce a n => v.modify a (fun c => { c with nonce := n })
  | .setCode a code => v.modify a (fun c => { c with codeHash := keccak code })
  | .setStorage a k x => v.setStorage a k x
  | _ => v

theorem touch_shape (v : View) (a : Bytes) : SameShape (v.touch a) v := by
  unfold View.touch
  by_cases h : a = kRipemdAddress
  · rw [if_pos h]; exact ⟨rfl, rfl, rfl⟩
  · rw [if_neg h]; exact ⟨rfl, rfl, rfl⟩

theorem step_shape (s : IntraBlockState) (o : Op) :
    SameShape (view db (o.step keccak db s).2) (shapeStep keccak db o (view db s)) := by
  have same : ∀ {t}, Same db s t → SameShape (view db t) (view db s) := fun h => by
    rw [view_of_same h]; exact SameShape.refl _
  cases o with
  | doesExist a =>
    obtain ⟨t, e, h⟩ := exists?_eq (db := db) s a
    simp only [Op.step, e]; exact same h
  | isDead a =>
    obtain ⟨t, e, h⟩ := isDead_eq (db := db) s a
    simp only [Op.step, e]; exact same h
  | createContract a => simp only [Op.step]; rw [createContract_view]; exact SameShape.refl _
  | recordSuicide a => simp only [Op.step]; rw [recordSuicide_view]; exact ⟨rfl, rfl, rfl⟩
  | touch a => simp only [Op.step]; rw [touch_view]; exact touch_shape _ a
  | getBalance a =>
    obtain ⟨t, e, h⟩ := getBalance_eq (db := db) s a
    simp only [Op.step, e]; exact same h
  | setBalance a x =>
    simp only [Op.step, setBalance]
    rw [touch_view, modifyCurrent_view _ _ _ (by intro c; rfl)]
    exact touch_shape _ a
  | addToBalance a x =>
    simp only [Op.step, addToBalance]
    rw [touch_view, modifyCurrent_view _ _ _ (by intro c; rfl)]
    exact touch_shape _ a
  | subtractFromBalance a x =>
    simp only [Op.step, subtractFromBalance]
    rw [touch_view, modifyCurrent_view _ _ _ (by intro c; rfl)]
    exact touch_shape _ a
  | getNonce a =>
    obtain ⟨t, e, h⟩ := getNonce_eq (db := db) s a
    simp only [Op.step, e]; exact same h
  | setNonce a n =>
    simp only [Op.step, setNonce]
    rw [modifyCurrent_view _ _ _ (by intro c; rfl)]
    exact SameShape.refl _
  | getCode a =>
    obtain ⟨t, e, h⟩ := getCode_eq (db := db) s a
    simp only [Op.step, e]; exact same h
  | getCodeHash a =>
    obtain ⟨t, e, h⟩ := getCodeHash_eq (db := db) s a
    simp only [Op.step, e]; exact same h
  | setCode a code => simp only [Op.step]; rw [setCode_view]; exact ⟨rfl, rfl, rfl⟩
  | accessAccount a => simp only [Op.step]; rw [accessAccount_view]; exact ⟨rfl, rfl, rfl⟩
  | accessStorage a k => simp only [Op.step]; rw [accessStorage_view]; exact ⟨rfl, rfl, rfl⟩
  | getCurrentStorage a k =>
    obtain ⟨t, e, h⟩ := getStorage_eq (db := db) s a k false
    simp only [Op.step, getCurrentStorage, e]; exact same h
  | getOriginalStorage a k =>
    obtain ⟨t, e, h⟩ := getStorage_eq (db := db) s a k true
    simp only [Op.step, getOriginalStorage, e]; exact same h
  | setStorage a k x => simp only [Op.step]; rw [setStorage_view]; exact SameShape.refl _
  | addLog l => exact ⟨rfl, rfl, rfl⟩
  | addRefund n => exact ⟨rfl, rfl, rfl⟩
  | subtractRefund n => exact ⟨rfl, rfl, rfl⟩
  | getRefund => exact SameShape.refl _

theorem safeStorage_live {s : IntraBlockState} {a : Bytes} (h : SafeStorage db s a) : (exists? db s a).1 = true := by
  obtain ⟨o, c, h1, h2, _⟩ := h
  obtain ⟨t, e, _⟩ := exists?_eq (db := db) s a
  rw [e]
  rw [getObject_fst] at h1
  show (curOf db s a).isSome = true
  unfold curOf
  rw [h1]
  simp [h2]

theorem safeOp_live {o : Op} {s : IntraBlockState} (h : SafeOp db o s) : o.LiveStorage db s := by
  cases o with
  | setStorage a k v => exact safeStorage_live h
  | _ => trivial

theorem Trace.All.mono {P Q : Op → IntraBlockState → Prop} (h : ∀ o s, P o s → Q o s) {t : Trace} {s : IntraBlockState}
    (ht : t.All keccak db P s) : t.All keccak db Q s := by
  induction t generalizing s with
  | nil => trivial
  | op o rest ih => exact ⟨h _ _ ht.1, ih ht.2⟩
  | scope body revert rest ihb ihr => exact ⟨ihb ht.1, ihr ht.2⟩

theorem PhasesAll.mono {P Q : Op → IntraBlockState → Prop} (h : ∀ o s, P o s → Q o s) {ps : List Phase}
    {s : IntraBlockState} (ht : PhasesAll keccak db P ps s) : PhasesAll keccak db Q ps s := by
  induction ps generalizing s with
  | nil => trivial
  | cons p ps ih =>
    refine ⟨?_, ih ht.2⟩
    have h1 := ht.1
    cases p with
    | ops t => exact Trace.All.mono h h1
    | _ => trivial

theorem Trace.All.and {P Q : Op → IntraBlockState → Prop} {t : Trace} {s : IntraBlockState}
    (h1 : t.All keccak db P s) (h2 : t.All keccak db Q s) : t.All keccak db (fun o s => P o s ∧ Q o s) s := by
  induction t generalizing s with
  | nil => trivial
  | op o rest ih => exact ⟨⟨h1.1, h2.1⟩, ih h1.2 h2.2⟩
  | scope body revert rest ihb ihr => exact ⟨ihb h1.1 h2.1, ihr h1.2 h2.2⟩

theorem PhasesAll.and {P Q : Op → IntraBlockState → Prop} {ps : List Phase} {s : IntraBlockState}
    (h1 : PhasesAll keccak db P ps s) (h2 : PhasesAll keccak db Q ps s) :
    PhasesAll keccak db (fun o s => P o s ∧ Q o s) ps s := by
  induction ps generalizing s with
  | nil => trivial
  | cons p ps ih =>
    refine ⟨?_, ih h1.2 h2.2⟩
    have g1 := h1.1
    have g2 := h2.1
    cases p with
    | ops t => exact Trace.All.and g1 g2
    | _ => trivial

theorem Trace.All.triv {P : Op → IntraBlockState → Prop} (h : ∀ o s, P o s) (t : Trace) (s : IntraBlockState) :
    t.All keccak db P s := by
  induction t generalizing s with
  | nil => trivial
  | op o rest ih => exact ⟨h _ _, ih _⟩
  | scope body revert rest ihb ihr => exact ⟨ihb _, ihr _⟩

theorem PhasesAll.triv {P : Op → IntraBlockState → Prop} (h : ∀ o s, P o s) (ps : List Phase) (s : IntraBlockState) :
    PhasesAll keccak db P ps s := by
  induction ps generalizing s with
  | nil => trivial
  | cons p ps ih =>
    refine ⟨?_, ih _⟩
    cases p with
    | ops t => exact Trace.All.triv h t s
    | _ => trivial

/-- Reverting brings back objects and storage. -/
theorem revert_shape (p : Trace) {s : IntraBlockState} (hs : p.All keccak db (SafeOp db) s) :
    SameShape (view db ((p.run keccak db s).2.revertToSnapshot s.takeSnapshot)) (view db s) := by
  have h := run_ok (keccak := keccak) (db := db) (strict := True) (W := fun _ => True) p s
    (fun _ => Trace.All.mono (fun o s => safeOp_live) hs)
    (Trace.All.triv (fun o s => by cases o <;> trivial) p s)
  rw [revert_view h]
  exact ⟨rfl, rfl, rfl⟩

/-- A property of views that does not look beyond objects and storage and is preserved by admissible operations. -/
structure Stable (keccak : Bytes → Bytes) (db : StateReader) (Q : Op → Prop) (P : View → Prop) : Prop where
  congr : ∀ {v w}, SameShape v w → P v → P w
  step : ∀ s o, Inv db s → SafeOp db o s → Q o → P (view db s) → P (shapeStep keccak db o (view db s))
  destruct : ∀ s a, Inv db s → P (view db s) → P ((view db s).destruct db a)
  finalize : ∀ s, Inv db s → P (view db s) → P ((view db s).finalize)

theorem SameShape.symm {v w : View} (h : SameShape v w) : SameShape w v := ⟨h.obj.symm, h.orig.symm, h.curv.symm⟩

theorem run_stable (hdb : SafeDb db) {Q : Op → Prop} {P : View → Prop} (hP : Stable keccak db Q P) (p : Trace)
    {s : IntraBlockState} (hs : p.All keccak db (SafeOp db) s) (hq : p.All keccak db (fun o _ => Q o) s) (hi : Inv db s)
    (h : P (view db s)) : P (view db (p.run keccak db s).2) := by
  induction p generalizing s with
  | nil => exact h
  | op o rest ih =>
    refine ih hs.2 hq.2 (step_inv hdb s o hs.1 hi).1 ?_
    exact hP.congr (step_shape s o).symm (hP.step s o hi hs.1 hq.1 h)
  | scope body revert rest ihb ihr =>
    obtain ⟨h1, h2⟩ := run_inv hdb body hs.1 hi
    cases revert with
    | false => exact ihr hs.2 hq.2 h1 (ihb hs.1 hq.1 hi h)
    | true => exact ihr hs.2 hq.2 (revert_inv hi h1 h2).1 (hP.congr (revert_shape body hs.1).symm h)

theorem phases_stable (hdb : SafeDb db) {Q : Op → Prop} {P : View → Prop} (hP : Stable keccak db Q P) (ps : List Phase)
    {s : IntraBlockState} (hs : PhasesAll keccak db (SafeOp db) ps s) (hq : PhasesAll keccak db (fun o _ => Q o) ps s)
    (hi : Inv db s) (h : P (view db s)) : P (view db (runPhases keccak db ps s).2) := by
  induction ps generalizing s with
  | nil => exact h
  | cons p ps ih =>
    have key : Inv db (p.run keccak db s).2 ∧ P (view db (p.run keccak db s).2) := by
      have hi' := phases_inv (keccak := keccak) hdb [p] ⟨hs.1, trivial⟩ hi
      refine ⟨hi', ?_⟩
      cases p with
      | ops t => exact run_stable hdb hP t hs.1 hq.1 hi h
      | destructSuicides =>
        show P (view db (s.selfDestructs.foldl (fun s a => destruct db s a) s))
        generalize s.selfDestructs = l
        clear hi' hs hq ih
        induction l generalizing s with
        | nil => exact h
        | cons a l ih =>
          rw [List.foldl_cons]
          exact ih (destruct_inv hdb hi a) (by rw [destruct_view]; exact hP.destruct s a hi h)
      | destructTouchedDead =>
        show P (view db (s.touched.foldl _ s))
        generalize s.touched = l
        clear hi' hs hq ih
        induction l generalizing s with
        | nil => exact h
        | cons a l ih =>
          rw [List.foldl_cons]
          refine ih ?_ ?_
          · exact foldl_touched_inv hdb [a] hi
          · have e := (touchedStep_view (db := db) s a).1
            refine Eq.mpr (congrArg P e) ?_
            unfold View.destructDead
            by_cases hd : deadAcc ((view db s).cur a)
            · rw [if_pos hd]; exact hP.destruct s a hi h
            · rw [if_neg hd]; exact h
      | finalizeTransaction =>
        show P (view db (IntraBlockState.finalizeTransaction s))
        rw [finalize_view]
        exact hP.finalize s hi h
      | clearJournalAndSubstate => exact hP.congr (v := view db s) ⟨rfl, rfl, rfl⟩ h
    exact ih hs.2 hq.2 key.1 key.2

theorem View.modify_cur (v : View) (a b : Bytes) (f : Account → Account) :
    (v.modify a f).cur b = if b = a then some (f ((v.cur a).getD {})) else v.cur b := by
  unfold View.modify View.cur
  by_cases hb : b = a
  · subst hb; simp only [upd_self, if_true]; rfl
  · simp only [upd_ne _ _ hb, if_neg hb]

theorem dbView_zero (hdb : SafeDb db) (i : Option Account) (a k : Bytes) : dbView db i 0 a k = zero32 := by
  unfold dbView
  cases i with
  | none => rfl
  | some i =>
    simp only
    by_cases h : i.incarnation ≠ 0
    · rw [if_pos h]
    · rw [if_neg h]; exact hdb.zero a k

/-- A created contract has a positive incarnation under which nothing is stored. -/
theorem created_dbView (hdb : SafeDb db) {s : IntraBlockState} (hi : Inv db s) {a : Bytes} (hs : SafeCreate db s a) (k : Bytes) :
    (fallbackIncarnation db a (((view db s).obj a).bind objectIncarnation) + 1) % 2 ^ 64 ≠ 0 ∧
    dbView db ((view db s).ini a)
      ((fallbackIncarnation db a (((view db s).obj a).bind objectIncarnation) + 1) % 2 ^ 64) a k = zero32 := by
  obtain ⟨_, h2, h3⟩ := getObject_invO hdb hi.order a
  unfold SafeCreate at hs
  rw [getObject_fst] at h2 h3 hs
  show _ ∧ dbView db ((effObj db s a).bind (·.initial)) _ a k = zero32
  have e : (view db s).obj a = effObj db s a := rfl
  rw [e]
  cases ho : effObj db s a with
  | none =>
    have hb := (hdb.bound a).1
    refine ⟨?_, rfl⟩
    show (db.previousIncarnation a + 1) % 2 ^ 64 ≠ 0
    rw [Nat.mod_eq_of_lt hb]
    exact Nat.succ_ne_zero _
  | some o =>
    obtain ⟨s1, s2⟩ := hs o ho
    obtain ⟨b1, b2, b3⟩ := created_bounds hdb (h2 o ho) s1 s2
    simp only [Option.bind_some]
    rw [Nat.mod_eq_of_lt b1]
    refine ⟨Nat.succ_ne_zero _, ?_⟩
    unfold dbView
    cases hini : o.initial with
    | none => rfl
    | some i =>
      simp only
      have := b3 i hini
      rw [if_pos (by omega)]

theorem setStorage_cases (v : View) (a k x : Bytes) :
    v.setStorage a k x = v ∨ v.setStorage a k x = { v with curv := upd v.curv a (upd (v.curv a) k x) } := by
  unfold View.setStorage
  by_cases h : (match v.cur a with | none => zero32 | some _ => v.curv a k) = x
  · exact Or.inl (if_pos h)
  · exact Or.inr (if_neg h)

/-- Accounts without incarnation have no storage. -/
def PlainZero (v : View) : Prop := ∀ a k, incOf (v.cur a) = 0 → v.orig a k = zero32 ∧ v.curv a k = zero32

theorem modify_incOf (v : View) (a b : Bytes) (f : Account → Account) (hf : ∀ c, (f c).incarnation = c.incarnation) :
    incOf ((v.modify a f).cur b) = incOf (v.cur b) := by
  rw [View.modify_cur]
  by_cases hb : b = a
  · subst hb
    rw [if_pos rfl]
    show (f _).incarnation = _
    rw [hf]
    cases v.cur b <;> rfl
  · rw [if_neg hb]

theorem plainZero_stable (hdb : SafeDb db) : Stable keccak db (fun _ => True) PlainZero where
  congr := by
    intro v w h hv a k hc
    have : v.cur a = w.cur a := by unfold View.cur; rw [h.obj]
    rw [← h.orig, ← h.curv]
    exact hv a k (by rw [this]; exact hc)
  step := by
    intro s o hi hs _ h
    have mod : ∀ a f, (∀ c : Account, (f c).incarnation = c.incarnation) → PlainZero ((view db s).modify a f) := by
      intro a f hf b k hb
      rw [modify_incOf _ _ _ _ hf] at hb
      exact h b k hb
    cases o with
    | createContract a =>
      intro b k hb
      simp only [shapeStep] at hb ⊢
      unfold View.createContract at hb ⊢
      unfold View.cur at hb
      simp only at hb ⊢
      by_cases hba : b = a
      · subst hba
        simp only [upd_self] at hb ⊢
        exact absurd hb (created_dbView hdb hi hs k).1
      · simp only [upd_ne _ _ hba] at hb ⊢
        exact h b k hb
    | setBalance a x => unfold shapeStep; exact mod a _ (by intro c; rfl)
    | addToBalance a x => unfold shapeStep; exact mod a _ (by intro c; rfl)
    | subtractFromBalance a x => unfold shapeStep; exact mod a _ (by intro c; rfl)
    | setNonce a x => unfold shapeStep; exact mod a _ (by intro c; rfl)
    | setCode a x => unfold shapeStep; exact mod a _ (by intro c; rfl)
    | setStorage a k x =>
      intro b j hb
      simp only [shapeStep] at hb ⊢
      have hcur : ((view db s).setStorage a k x).cur b = (view db s).cur b := by
        rcases setStorage_cases (view db s) a k x with e | e <;> rw [e] <;> rfl
      rw [hcur] at hb
      have hba : b ≠ a := by
        rintro rfl
        obtain ⟨o, c, h1, h2, h3⟩ := hs
        rw [getObject_fst] at h1
        have : (view db s).cur b = some c := by
          show (effObj db s b).bind (·.current) = some c
          rw [h1]; exact h2
        rw [this] at hb
        exact h3 hb
      rcases setStorage_cases (view db s) a k x with e | e
      · rw [e]; exact h b j hb
      · rw [e]; simp only [upd_ne _ _ hba]; exact h b j hb
    | _ => exact h
  destruct := by
    intro s a _ h b k hb
    rw [View.destruct_cur] at hb
    unfold View.destruct
    simp only
    by_cases hba : b = a
    · subst hba
      simp only [upd_self]
      exact ⟨dbView_zero hdb _ _ _, dbView_zero hdb _ _ _⟩
    · rw [if_neg hba] at hb
      simp only [upd_ne _ _ hba]
      exact h b k hb
  finalize := by
    intro s _ h a k hc
    exact ⟨(h a k hc).2, (h a k hc).2⟩

theorem plainZero_init (hdb : SafeDb db) : PlainZero (view db {}) := by
  intro a k hc
  show dbView db (iniOf db {} a) (incOf (curOf db {} a)) a k = zero32 ∧ dbView db (iniOf db {} a) (incOf (curOf db {} a)) a k = zero32
  have : incOf (curOf db {} a) = 0 := hc
  rw [this]
  exact ⟨dbView_zero hdb _ _ _, dbView_zero hdb _ _ _⟩

/-- The slot reads zero. -/
def ZeroAt (a k : Bytes) (v : View) : Prop := v.orig a k = zero32 ∧ v.curv a k = zero32

/-- The operation does not write the slot. -/
def NoWrite (a k : Bytes) : Op → Prop
  | .setStorage b j _ => ¬ (b = a ∧ j = k)
  | _ => True

theorem zeroAt_create (hdb : SafeDb db) {s : IntraBlockState} (hi : Inv db s) {a : Bytes} (hs : SafeCreate db s a) (k : Bytes) :
    ZeroAt a k ((view db s).createContract db a) := by
  unfold ZeroAt View.createContract
  simp only [upd_self]
  exact ⟨(created_dbView hdb hi hs k).2, (created_dbView hdb hi hs k).2⟩

theorem zeroAt_stable (hdb : SafeDb db) (a k : Bytes) : Stable keccak db (NoWrite a k) (ZeroAt a k) where
  congr := by
    intro v w h hv
    unfold ZeroAt
    rw [← h.orig, ← h.curv]
    exact hv
  step := by
    intro s o hi hs hq h
    cases o with
    | createContract b =>
      by_cases hb : a = b
      · subst hb; exact zeroAt_create hdb hi hs k
      · simp only [shapeStep]
        unfold ZeroAt View.createContract
        simp only [upd_ne _ _ hb]
        exact h
    | setStorage b j x =>
      simp only [shapeStep]
      rcases setStorage_cases (view db s) b j x with e | e
      · rw [e]; exact h
      · rw [e]
        unfold ZeroAt
        simp only
        refine ⟨h.1, ?_⟩
        by_cases hb : a = b
        · subst hb
          rw [upd_self]
          have hj : k ≠ j := fun e => hq ⟨rfl, e.symm⟩
          rw [upd_ne _ _ hj]
          exact h.2
        · rw [upd_ne _ _ hb]; exact h.2
    | _ => exact h
  destruct := by
    intro s b _ h
    unfold ZeroAt View.destruct
    simp only
    by_cases hb : a = b
    · subst hb
      simp only [upd_self]
      exact ⟨dbView_zero hdb _ _ _, dbView_zero hdb _ _ _⟩
    · simp only [upd_ne _ _ hb]
      exact h
  finalize := by
    intro s _ h
    exact ⟨h.2, h.2⟩

end Silkworm.IntraBlockState
