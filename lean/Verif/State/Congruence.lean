import Verif.State.Semantics

/-!
# States with equal views behave alike

Helper lemmas: operations executed on two states with the same view return the same results and lead to states with the
same view.
-/

namespace Silkworm.IntraBlockState

open State

variable {keccak : Bytes → Bytes} {db : StateReader} {W : Bytes → Prop}

/-- What `set_code` would leave under the hash of a code. -/
def known (keccak : Bytes → Bytes) (s : IntraBlockState) (code : Bytes) : Bytes := (s.code.get? (keccak code)).getD code

/-- Same view, and the same outcome of writing any code of `W`. -/
structure Cong (keccak : Bytes → Bytes) (db : StateReader) (W : Bytes → Prop) (s t : IntraBlockState) : Prop where
  view : view db s = view db t
  known : ∀ code, W code → known keccak s code = known keccak t code

theorem Cong.refl (s : IntraBlockState) : Cong keccak db W s s := ⟨rfl, fun _ _ => rfl⟩

theorem Cong.symm {s t : IntraBlockState} (h : Cong keccak db W s t) : Cong keccak db W t s :=
  ⟨h.view.symm, fun c hc => (h.known c hc).symm⟩

theorem Cong.trans {s t u : IntraBlockState} (h : Cong keccak db W s t) (g : Cong keccak db W t u) :
    Cong keccak db W s u := ⟨h.view.trans g.view, fun c hc => (h.known c hc).trans (g.known c hc)⟩

theorem known_of_code {s t : IntraBlockState} (h : t.code = s.code) (code : Bytes) :
    known keccak t code = known keccak s code := by unfold IntraBlockState.known; rw [h]

theorem cong_of_same {s t : IntraBlockState} (h : Same db s t) (hc : t.code = s.code) : Cong keccak db W s t :=
  ⟨(view_of_same h).symm, fun _ _ => (known_of_code hc _).symm⟩

theorem Cong.obj {s t : IntraBlockState} (h : Cong keccak db W s t) (a : Bytes) : effObj db s a = effObj db t a :=
  congrFun (congrArg View.obj h.view) a

theorem Cong.cur {s t : IntraBlockState} (h : Cong keccak db W s t) (a : Bytes) : curOf db s a = curOf db t a := by
  unfold curOf; rw [h.obj]

/-- Both states keep their code and change their view by the same function. -/
theorem Cong.map {s t s' t' : IntraBlockState} (h : Cong keccak db W s t) (f : View → View)
    (hs : IntraBlockState.view db s' = f (IntraBlockState.view db s))
    (ht : IntraBlockState.view db t' = f (IntraBlockState.view db t))
    (cs : s'.code = s.code) (ct : t'.code = t.code) : Cong keccak db W s' t' := by
  refine ⟨by rw [hs, ht, h.view], fun c hc => ?_⟩
  rw [known_of_code cs, known_of_code ct]
  exact h.known c hc

/-- Reads that do not touch the code. -/
theorem Cong.reads {s t s' t' : IntraBlockState} (h : Cong keccak db W s t) (hs : Same db s s') (ht : Same db t t')
    (cs : s'.code = s.code) (ct : t'.code = t.code) : Cong keccak db W s' t' :=
  h.map id (view_of_same hs) (view_of_same ht) cs ct

/-- The code a read of `a` would cache. -/
theorem getCode_code (s : IntraBlockState) (a : Bytes) :
    (getCode db s a).2.code = match curOf db s a with
      | none => s.code
      | some c =>
        if c.codeHash = kEmptyHash then s.code
        else
          match s.code.get? c.codeHash with
          | some _ => s.code
          | none => s.code.set c.codeHash (db.readCode c.codeHash) := by
  obtain ⟨s1, h, hs⟩ := getObject_eq (db := db) s a
  have hk := (getObject_keeps (db := db) s a).code
  rw [h] at hk
  simp only at hk
  unfold getCode
  rw [h]
  cases ho : effObj db s a with
  | none => simp [curOf, ho, hk]
  | some o =>
    have hc : curOf db s a = o.current := by unfold curOf; rw [ho]; rfl
    rw [hc]
    cases hcur : o.current with
    | none => simp [hcur, hk]
    | some c =>
      simp only [hcur]
      by_cases he : c.codeHash = kEmptyHash
      · simp only [if_pos he]; exact hk
      · simp only [if_neg he, hk]
        cases hg : s.code.get? c.codeHash with
        | some x => exact hk
        | none => rfl

theorem getCode_known (s : IntraBlockState) (a code : Bytes) :
    known keccak (getCode db s a).2 code =
      match curOf db s a with
      | none => known keccak s code
      | some c =>
        if c.codeHash ≠ kEmptyHash ∧ c.codeHash = keccak code then lookupCode db s (keccak code)
        else known keccak s code := by
  have h := getCode_code (db := db) s a
  unfold known lookupCode
  rw [h]
  cases curOf db s a with
  | none => rfl
  | some c =>
    simp only
    by_cases he : c.codeHash = kEmptyHash
    · simp [he]
    · simp only [if_neg he]
      by_cases hk : c.codeHash = keccak code
      · rw [if_pos ⟨he, hk⟩]
        rw [hk]
        cases hg : s.code.get? (keccak code) with
        | some x => simp [hg]
        | none => simp
      · rw [if_neg (fun h => hk h.2)]
        cases hg : s.code.get? c.codeHash with
        | some x => rfl
        | none =>
          simp only
          rw [AMap.get?_set_ne _ (fun h => hk h.symm)]

theorem setCode_view (s : IntraBlockState) (a code : Bytes) :
    view db (setCode keccak db s a code) =
      { (view db s).modify a (fun c => { c with codeHash := keccak code }) with
        code := upd (view db s).code (keccak code) (known keccak s code) } := by
  have hv := modifyCurrent_view (db := db) s a (fun c => { c with codeHash := keccak code }) (fun _ => rfl)
  have hc := (modifyCurrent_keeps (db := db) s a (fun c => { c with codeHash := keccak code })).code
  unfold setCode
  simp only
  generalize modifyCurrent db s a (fun c => { c with codeHash := keccak code }) = s1 at hv hc
  have hl : lookupCode db s1 = lookupCode db s := by funext x; unfold lookupCode; rw [hc]
  cases hg : s1.code.get? (keccak code) with
  | some x =>
    simp only
    rw [hv]
    have : upd (view db s).code (keccak code) (known keccak s code) = (view db s).code := by
      funext y
      by_cases hy : y = keccak code
      · subst hy
        rw [upd_self]
        show _ = lookupCode db s (keccak code)
        unfold known lookupCode
        rw [← hc, hg]
        rfl
      · rw [upd_ne _ _ hy]
    rw [this]
    rfl
  | none =>
    simp only
    have e : lookupCode db { s1 with code := s1.code.set (keccak code) code } =
        upd (lookupCode db s) (keccak code) (known keccak s code) := by
      funext y
      unfold lookupCode upd
      simp only [AMap.get?_set]
      by_cases hy : y = keccak code
      · rw [if_pos hy, if_pos hy]
        unfold known
        rw [← hc, hg]
        rfl
      · rw [if_neg hy, if_neg hy, hc]
    have hov : view db { s1 with code := s1.code.set (keccak code) code } =
        { view db s1 with code := lookupCode db { s1 with code := s1.code.set (keccak code) code } } := rfl
    rw [hov, e, hv]
    rfl

theorem setCode_known (s : IntraBlockState) (a code x : Bytes) :
    known keccak (setCode keccak db s a code) x =
      if keccak x = keccak code then known keccak s code else known keccak s x := by
  have hc := (modifyCurrent_keeps (db := db) s a (fun c => { c with codeHash := keccak code })).code
  unfold setCode
  simp only
  generalize modifyCurrent db s a (fun c => { c with codeHash := keccak code }) = s1 at hc
  unfold known
  cases hg : s1.code.get? (keccak code) with
  | some y =>
    simp only
    by_cases h : keccak x = keccak code
    · rw [if_pos h, h, ← hc, hg]; rfl
    · rw [if_neg h, hc]
  | none =>
    simp only
    by_cases h : keccak x = keccak code
    · rw [if_pos h, h, AMap.get?_set_self, ← hc, hg]; rfl
    · rw [if_neg h, AMap.get?_set_ne _ h, hc]

theorem codeOf_cong {s t : IntraBlockState} (h : Cong keccak db W s t) (c : Option Account) : codeOf db s c = codeOf db t c := by
  have hl : ∀ x, lookupCode db s x = lookupCode db t x := fun x => congrFun (congrArg View.code h.view) x
  unfold codeOf
  cases c with
  | none => rfl
  | some c => simp only [hl]

theorem storageView_cong {s t : IntraBlockState} (h : Cong keccak db W s t) (a k : Bytes) (o : Bool) :
    storageView db s a k o = storageView db t a k o := by
  have h1 : origOf db s a k = origOf db t a k := congrFun (congrFun (congrArg View.orig h.view) a) k
  have h2 : curvOf db s a k = curvOf db t a k := congrFun (congrFun (congrArg View.curv h.view) a) k
  unfold storageView
  rw [h.cur, h1, h2]

/-- `recordSuicide` on views. -/
theorem recordSuicide_view (s : IntraBlockState) (a : Bytes) :
    view db (recordSuicide s a) = { view db s with selfDestructs := setInsert (view db s).selfDestructs a } := by
  unfold recordSuicide
  by_cases h : s.selfDestructs.contains a
  · rw [if_pos h, setInsert_of_mem]
    show a ∈ s.selfDestructs
    simpa using h
  · rw [if_neg h]
    rfl

theorem accessAccount_view (s : IntraBlockState) (a : Bytes) :
    view db (accessAccount s a).2 =
      { view db s with accessedAddresses := setInsert (view db s).accessedAddresses a } := by
  unfold accessAccount
  by_cases h : s.accessedAddresses.contains a
  · rw [if_pos h, setInsert_of_mem]
    show a ∈ s.accessedAddresses
    simpa using h
  · rw [if_neg h]
    rfl

theorem accessAccount_fst (s : IntraBlockState) (a : Bytes) :
    (accessAccount s a).1 = !(s.accessedAddresses.contains a) := by
  unfold accessAccount
  by_cases h : s.accessedAddresses.contains a
  · rw [if_pos h, h]; rfl
  · rw [if_neg h, Bool.eq_false_iff.mpr h]; rfl

theorem accessStorage_view (s : IntraBlockState) (a k : Bytes) :
    view db (accessStorage s a k).2 =
      { view db s with keys := upd (view db s).keys a (setInsert ((view db s).keys a) k) } := by
  have hk : (view db s).keys a = keysOf s a := rfl
  unfold accessStorage
  by_cases h : ((s.accessedStorageKeys.get? a).getD []).contains k
  · simp only [if_pos h]
    have hm : k ∈ keysOf s a := by unfold keysOf; simpa using h
    rw [hk, setInsert_of_mem hm]
    let m := s.accessedStorageKeys.set a ((s.accessedStorageKeys.get? a).getD [])
    have e : keysOf { s with accessedStorageKeys := m } = upd (keysOf s) a (keysOf s a) := by
      funext b
      refine (keysOf_set s a b _).trans ?_
      rfl
    show View.mk _ _ _ _ _ _ _ _ _ _ (keysOf { s with accessedStorageKeys := m }) = _
    rw [e]
    rfl
  · simp only [if_neg h]
    let m := s.accessedStorageKeys.set a (setInsert ((s.accessedStorageKeys.get? a).getD []) k)
    have e : keysOf { s.push (.storageAccess a k) with accessedStorageKeys := m } =
        upd (keysOf s) a (setInsert (keysOf s a) k) := by
      funext b
      refine (keysOf_set s a b _).trans ?_
      rfl
    show View.mk _ _ _ _ _ _ _ _ _ _ (keysOf { s.push (.storageAccess a k) with accessedStorageKeys := m }) = _
    rw [e]
    rfl

theorem accessStorage_fst (s : IntraBlockState) (a k : Bytes) :
    (accessStorage s a k).1 = !((keysOf s a).contains k) := by
  unfold accessStorage keysOf
  by_cases h : ((s.accessedStorageKeys.get? a).getD []).contains k
  · simp only [if_pos h, h]; rfl
  · simp only [if_neg h, Bool.eq_false_iff.mpr h]; rfl

theorem accessAccount_code (s : IntraBlockState) (a : Bytes) : (accessAccount s a).2.code = s.code := by
  unfold accessAccount
  by_cases h : s.accessedAddresses.contains a
  · rw [if_pos h]
  · rw [if_neg h]; rfl

theorem accessStorage_code (s : IntraBlockState) (a k : Bytes) : (accessStorage s a k).2.code = s.code := by
  unfold accessStorage
  by_cases h : ((s.accessedStorageKeys.get? a).getD []).contains k
  · simp only [if_pos h]
  · simp only [if_neg h]; rfl

theorem recordSuicide_code (s : IntraBlockState) (a : Bytes) : (recordSuicide s a).code = s.code := by
  unfold recordSuicide
  by_cases h : s.selfDestructs.contains a
  · rw [if_pos h]
  · rw [if_neg h]; rfl

theorem exists?_code (s : IntraBlockState) (a : Bytes) : (exists? db s a).2.code = s.code := by
  have h := (getObject_keeps (db := db) s a).code
  unfold exists?
  cases hg : getObject db s a with
  | mk o s1 => rw [hg] at h; cases o <;> exact h

theorem isDead_code (s : IntraBlockState) (a : Bytes) : (isDead db s a).2.code = s.code := by
  have h := (getObject_keeps (db := db) s a).code
  unfold isDead
  cases hg : getObject db s a with
  | mk o s1 =>
    rw [hg] at h
    cases o with
    | none => exact h
    | some o => cases hc : o.current <;> simp only [hc] <;> exact h

theorem getBalance_code (s : IntraBlockState) (a : Bytes) : (getBalance db s a).2.code = s.code := by
  have h := (getObject_keeps (db := db) s a).code
  unfold getBalance
  cases hg : getObject db s a with
  | mk o s1 =>
    rw [hg] at h
    cases o with
    | none => exact h
    | some o => cases hc : o.current <;> simp only [hc] <;> exact h

theorem getNonce_code (s : IntraBlockState) (a : Bytes) : (getNonce db s a).2.code = s.code := by
  have h := (getObject_keeps (db := db) s a).code
  unfold getNonce
  cases hg : getObject db s a with
  | mk o s1 =>
    rw [hg] at h
    cases o with
    | none => exact h
    | some o => cases hc : o.current <;> simp only [hc] <;> exact h

theorem getCodeHash_code (s : IntraBlockState) (a : Bytes) : (getCodeHash db s a).2.code = s.code := by
  have h := (getObject_keeps (db := db) s a).code
  unfold getCodeHash
  cases hg : getObject db s a with
  | mk o s1 =>
    rw [hg] at h
    cases o with
    | none => exact h
    | some o => cases hc : o.current <;> simp only [hc] <;> exact h

theorem step_cong {s t : IntraBlockState} (h : Cong keccak db W s t) (o : Op) (hw : o.CodeIn W) :
    (o.step keccak db s).1 = (o.step keccak db t).1 ∧ Cong keccak db W (o.step keccak db s).2 (o.step keccak db t).2 := by
  cases o with
  | doesExist a =>
    obtain ⟨s', e, hs⟩ := exists?_eq (db := db) s a
    obtain ⟨t', f, ht⟩ := exists?_eq (db := db) t a
    have cs := exists?_code (db := db) s a; have ct := exists?_code (db := db) t a
    rw [e] at cs; rw [f] at ct
    simp only [Op.step, e, f]
    exact ⟨by rw [h.cur], h.reads hs ht cs ct⟩
  | isDead a =>
    obtain ⟨s', e, hs⟩ := isDead_eq (db := db) s a
    obtain ⟨t', f, ht⟩ := isDead_eq (db := db) t a
    have cs := isDead_code (db := db) s a; have ct := isDead_code (db := db) t a
    rw [e] at cs; rw [f] at ct
    simp only [Op.step, e, f]
    exact ⟨by rw [h.cur], h.reads hs ht cs ct⟩
  | createContract a =>
    exact ⟨rfl, h.map (fun v => v.createContract db a) (createContract_view s a) (createContract_view t a)
      (createContract_keeps s a).code (createContract_keeps t a).code⟩
  | recordSuicide a =>
    exact ⟨rfl, h.map (fun v => { v with selfDestructs := setInsert v.selfDestructs a }) (recordSuicide_view s a)
      (recordSuicide_view t a) (recordSuicide_code s a) (recordSuicide_code t a)⟩
  | touch a =>
    exact ⟨rfl, h.map (fun v => v.touch a) (touch_view s a) (touch_view t a) (touch_keeps s a).code (touch_keeps t a).code⟩
  | getBalance a =>
    obtain ⟨s', e, hs⟩ := getBalance_eq (db := db) s a
    obtain ⟨t', f, ht⟩ := getBalance_eq (db := db) t a
    have cs := getBalance_code (db := db) s a; have ct := getBalance_code (db := db) t a
    rw [e] at cs; rw [f] at ct
    simp only [Op.step, e, f]
    exact ⟨by rw [h.cur], h.reads hs ht cs ct⟩
  | setBalance a v =>
    refine ⟨rfl, h.map (fun x => (x.modify a (fun c => { c with balance := v })).touch a) ?_ ?_ ?_ ?_⟩
    · exact (touch_view _ a).trans (congrArg (View.touch · a) (modifyCurrent_view s a _ (fun _ => rfl)))
    · exact (touch_view _ a).trans (congrArg (View.touch · a) (modifyCurrent_view t a _ (fun _ => rfl)))
    · exact (touch_keeps _ a).code.trans (modifyCurrent_keeps s a _).code
    · exact (touch_keeps _ a).code.trans (modifyCurrent_keeps t a _).code
  | addToBalance a v =>
    refine ⟨rfl, h.map (fun x => (x.modify a (fun c => { c with balance := (c.balance + v) % 2 ^ 256 })).touch a) ?_ ?_ ?_ ?_⟩
    · exact (touch_view _ a).trans (congrArg (View.touch · a) (modifyCurrent_view s a _ (fun _ => rfl)))
    · exact (touch_view _ a).trans (congrArg (View.touch · a) (modifyCurrent_view t a _ (fun _ => rfl)))
    · exact (touch_keeps _ a).code.trans (modifyCurrent_keeps s a _).code
    · exact (touch_keeps _ a).code.trans (modifyCurrent_keeps t a _).code
  | subtractFromBalance a v =>
    refine ⟨rfl, h.map (fun x => (x.modify a
      (fun c => { c with balance := (c.balance + (2 ^ 256 - v % 2 ^ 256)) % 2 ^ 256 })).touch a) ?_ ?_ ?_ ?_⟩
    · exact (touch_view _ a).trans (congrArg (View.touch · a) (modifyCurrent_view s a _ (fun _ => rfl)))
    · exact (touch_view _ a).trans (congrArg (View.touch · a) (modifyCurrent_view t a _ (fun _ => rfl)))
    · exact (touch_keeps _ a).code.trans (modifyCurrent_keeps s a _).code
    · exact (touch_keeps _ a).code.trans (modifyCurrent_keeps t a _).code
  | getNonce a =>
    obtain ⟨s', e, hs⟩ := getNonce_eq (db := db) s a
    obtain ⟨t', f, ht⟩ := getNonce_eq (db := db) t a
    have cs := getNonce_code (db := db) s a; have ct := getNonce_code (db := db) t a
    rw [e] at cs; rw [f] at ct
    simp only [Op.step, e, f]
    exact ⟨by rw [h.cur], h.reads hs ht cs ct⟩
  | setNonce a n =>
    exact ⟨rfl, h.map (fun x => x.modify a (fun c => { c with nonce := n })) (modifyCurrent_view s a _ (fun _ => rfl))
      (modifyCurrent_view t a _ (fun _ => rfl)) (modifyCurrent_keeps s a (fun c => { c with nonce := n })).code
      (modifyCurrent_keeps t a (fun c => { c with nonce := n })).code⟩
  | getCode a =>
    obtain ⟨s', e, hs⟩ := getCode_eq (db := db) s a
    obtain ⟨t', f, ht⟩ := getCode_eq (db := db) t a
    have ks := getCode_known (keccak := keccak) (db := db) s a
    have kt := getCode_known (keccak := keccak) (db := db) t a
    rw [e] at ks; rw [f] at kt
    simp only [Op.step, e, f]
    refine ⟨by rw [h.cur, codeOf_cong h], by rw [view_of_same hs, view_of_same ht, h.view], fun code hc => ?_⟩
    simp only at ks kt
    rw [ks, kt, h.cur]
    have hl : lookupCode db s (keccak code) = lookupCode db t (keccak code) :=
      congrFun (congrArg View.code h.view) _
    rw [hl, h.known code hc]
  | getCodeHash a =>
    obtain ⟨s', e, hs⟩ := getCodeHash_eq (db := db) s a
    obtain ⟨t', f, ht⟩ := getCodeHash_eq (db := db) t a
    have cs := getCodeHash_code (db := db) s a; have ct := getCodeHash_code (db := db) t a
    rw [e] at cs; rw [f] at ct
    simp only [Op.step, e, f]
    exact ⟨by rw [h.cur], h.reads hs ht cs ct⟩
  | setCode a code =>
    refine ⟨rfl, ?_, fun x hx => ?_⟩
    · simp only [Op.step]
      rw [setCode_view, setCode_view, h.view, h.known code hw]
    · simp only [Op.step]
      rw [setCode_known, setCode_known, h.known code hw, h.known x hx]
  | accessAccount a =>
    have hacc : s.accessedAddresses = t.accessedAddresses := congrArg View.accessedAddresses h.view
    refine ⟨?_, h.map (fun v => { v with accessedAddresses := setInsert v.accessedAddresses a }) (accessAccount_view s a)
      (accessAccount_view t a) (accessAccount_code s a) (accessAccount_code t a)⟩
    simp only [Op.step]
    rw [accessAccount_fst, accessAccount_fst, hacc]
  | accessStorage a k =>
    have hkeys : keysOf s a = keysOf t a := congrFun (congrArg View.keys h.view) a
    refine ⟨?_, h.map (fun v => { v with keys := upd v.keys a (setInsert (v.keys a) k) }) (accessStorage_view s a k)
      (accessStorage_view t a k) (accessStorage_code s a k) (accessStorage_code t a k)⟩
    simp only [Op.step]
    rw [accessStorage_fst, accessStorage_fst, hkeys]
  | getCurrentStorage a k =>
    obtain ⟨s', e, hs⟩ := getStorage_eq (db := db) s a k false
    obtain ⟨t', f, ht⟩ := getStorage_eq (db := db) t a k false
    have cs := (getStorage_keeps (db := db) s a k false).code
    have ct := (getStorage_keeps (db := db) t a k false).code
    rw [e] at cs; rw [f] at ct
    simp only [Op.step, getCurrentStorage, e, f]
    exact ⟨by rw [storageView_cong h], h.reads hs ht cs ct⟩
  | getOriginalStorage a k =>
    obtain ⟨s', e, hs⟩ := getStorage_eq (db := db) s a k true
    obtain ⟨t', f, ht⟩ := getStorage_eq (db := db) t a k true
    have cs := (getStorage_keeps (db := db) s a k true).code
    have ct := (getStorage_keeps (db := db) t a k true).code
    rw [e] at cs; rw [f] at ct
    simp only [Op.step, getOriginalStorage, e, f]
    exact ⟨by rw [storageView_cong h], h.reads hs ht cs ct⟩
  | setStorage a k v =>
    exact ⟨rfl, h.map (fun x => x.setStorage a k v) (setStorage_view s a k v) (setStorage_view t a k v)
      (setStorage_keeps s a k v).code (setStorage_keeps t a k v).code⟩
  | addLog l => exact ⟨rfl, h.map (fun x => { x with logs := x.logs ++ [l] }) rfl rfl rfl rfl⟩
  | addRefund n => exact ⟨rfl, h.map (fun x => { x with refund := (x.refund + n) % 2 ^ 64 }) rfl rfl rfl rfl⟩
  | subtractRefund n =>
    exact ⟨rfl, h.map (fun x => { x with refund := (x.refund + (2 ^ 64 - n % 2 ^ 64)) % 2 ^ 64 }) rfl rfl rfl rfl⟩
  | getRefund =>
    have hr : s.refund = t.refund := congrArg View.refund h.view
    exact ⟨by simp only [Op.step, hr], h⟩

theorem liveStorage_cong {s t : IntraBlockState} (h : Cong keccak db W s t) (o : Op) (hl : o.LiveStorage db s) :
    o.LiveStorage db t := by
  cases o with
  | setStorage a k v =>
    obtain ⟨s', e, _⟩ := exists?_eq (db := db) s a
    obtain ⟨t', f, _⟩ := exists?_eq (db := db) t a
    simp only [Op.LiveStorage, e, f] at hl ⊢
    rwa [← h.cur]
  | _ => exact trivial

/-- The view after reverting. -/
theorem revert_view {s t : IntraBlockState} (h : StepOk keccak db True W s t) :
    view db (t.revertToSnapshot s.takeSnapshot) =
      { view db s with code := (view db t).code, ripemd := (view db t).ripemd } := by
  obtain ⟨h1, _, h3, h4, h5, h6⟩ := revert_ok h
  generalize t.revertToSnapshot s.takeSnapshot = u at *
  have e1 : effObj db u = effObj db s := funext fun a => (h1.obj a).symm
  have e2 : origOf db u = origOf db s := funext fun a => funext fun k => (h1.orig a (Or.inl trivial) k).symm
  have e3 : curvOf db u = curvOf db s := funext fun a => funext fun k => (h1.curv a (Or.inl trivial) k).symm
  have e4 : lookupCode db u = lookupCode db t := by funext x; unfold lookupCode; rw [h5]
  have e5 : keysOf u = keysOf s := funext fun a => (h1.keys a).symm
  have e6 : u.touched.contains kRipemdAddress = t.touched.contains kRipemdAddress := by
    rw [Bool.eq_iff_iff]; simpa using h6
  unfold view
  simp only
  rw [e1, e2, e3, e4, e5, e6, h3, h4, ← h1.selfDestructs, ← h1.touched, ← h1.accessedAddresses]

theorem run_cong (p : Trace) {s t : IntraBlockState} (h : Cong keccak db W s t)
    (hl : p.All keccak db (fun o s => o.LiveStorage db s) s) (hw : p.All keccak db (fun o _ => o.CodeIn W) s) :
    (p.run keccak db s).1 = (p.run keccak db t).1 ∧ Cong keccak db W (p.run keccak db s).2 (p.run keccak db t).2 ∧
      p.All keccak db (fun o s => o.LiveStorage db s) t ∧ p.All keccak db (fun o _ => o.CodeIn W) t := by
  induction p generalizing s t with
  | nil => exact ⟨rfl, h, trivial, trivial⟩
  | op o rest ih =>
    obtain ⟨h1, h2⟩ := step_cong h o hw.1
    obtain ⟨h3, h4, h5, h6⟩ := ih h2 hl.2 hw.2
    refine ⟨?_, h4, ⟨liveStorage_cong h o hl.1, h5⟩, ⟨hw.1, h6⟩⟩
    simp only [Trace.run]
    rw [h1, h3]
  | scope body revert rest ihb ihr =>
    obtain ⟨h1, h2, h3, h4⟩ := ihb h hl.1 hw.1
    have key : Cong keccak db W
        (if revert then (body.run keccak db s).2.revertToSnapshot s.takeSnapshot else (body.run keccak db s).2)
        (if revert then (body.run keccak db t).2.revertToSnapshot t.takeSnapshot else (body.run keccak db t).2) := by
      cases revert with
      | false => exact h2
      | true =>
        have us := run_ok (keccak := keccak) (db := db) (strict := True) (W := W) body s (fun _ => hl.1) hw.1
        have ut := run_ok (keccak := keccak) (db := db) (strict := True) (W := W) body t (fun _ => h3) h4
        refine ⟨?_, fun code hc => ?_⟩
        · simp only [if_true]
          rw [revert_view us, revert_view ut, h.view, h2.view]
        · simp only [if_true]
          rw [known_of_code (revert_ok us).2.2.2.2.1, known_of_code (revert_ok ut).2.2.2.2.1]
          exact h2.known code hc
    obtain ⟨g1, g2, g3, g4⟩ := ihr key hl.2 hw.2
    refine ⟨?_, g2, ⟨h3, g3⟩, ⟨h4, g4⟩⟩
    simp only [Trace.run]
    rw [h1, g1]

theorem destruct_code (s : IntraBlockState) (a : Bytes) : (destruct db s a).code = s.code := by
  have h := (getObject_keeps (db := db) { s with storage := s.storage.erase a } a).code
  unfold destruct
  cases hg : getObject db { s with storage := s.storage.erase a } a with
  | mk o s1 => rw [hg] at h; cases o <;> exact h

theorem foldl_destruct_view (l : List Bytes) (s : IntraBlockState) :
    view db (l.foldl (fun s a => destruct db s a) s) = l.foldl (fun v a => v.destruct db a) (view db s) ∧
      (l.foldl (fun s a => destruct db s a) s).code = s.code := by
  induction l generalizing s with
  | nil => exact ⟨rfl, rfl⟩
  | cons a l ih =>
    obtain ⟨h1, h2⟩ := ih (destruct db s a)
    refine ⟨?_, h2.trans (destruct_code s a)⟩
    rw [List.foldl_cons, List.foldl_cons, h1, destruct_view]

/-- Destroying an account if it is dead. -/
def View.destructDead (db : StateReader) (v : View) (a : Bytes) : View :=
  if deadAcc (v.cur a) then v.destruct db a else v

/-- Destroying the touched dead accounts all at once. -/
def View.destructTouched (db : StateReader) (v : View) (l : List Bytes) : View :=
  { v with
    obj := fun b => if b ∈ l ∧ deadAcc (v.cur b) then (v.obj b).map (fun o => { o with current := none }) else v.obj b
    orig := fun b => if b ∈ l ∧ deadAcc (v.cur b) then (fun k => dbView db (v.ini b) 0 b k) else v.orig b
    curv := fun b => if b ∈ l ∧ deadAcc (v.cur b) then (fun k => dbView db (v.ini b) 0 b k) else v.curv b }

theorem View.destruct_ini (v : View) (a b : Bytes) : (v.destruct db a).ini b = v.ini b := by
  unfold View.ini View.destruct
  by_cases hb : b = a
  · subst hb; simp only [upd_self]; cases v.obj b <;> rfl
  · simp only [upd_ne _ _ hb]

theorem View.destruct_cur (v : View) (a b : Bytes) : (v.destruct db a).cur b = if b = a then none else v.cur b := by
  unfold View.cur View.destruct
  by_cases hb : b = a
  · subst hb; simp only [upd_self, if_true]; cases v.obj b <;> rfl
  · simp only [upd_ne _ _ hb, if_neg hb]

theorem foldl_destructDead (l : List Bytes) (v : View) :
    l.foldl (fun v a => v.destructDead db a) v = v.destructTouched db l := by
  induction l generalizing v with
  | nil => unfold View.destructTouched; simp
  | cons a l ih =>
    rw [List.foldl_cons, ih]
    unfold View.destructDead
    by_cases hd : deadAcc (v.cur a)
    · rw [if_pos hd]
      unfold View.destructTouched
      have hdead : ∀ b, (b ∈ l ∧ deadAcc ((v.destruct db a).cur b) = true) ↔
          (b ∈ l ∧ (b = a ∨ deadAcc (v.cur b) = true)) := by
        intro b
        rw [View.destruct_cur]
        by_cases hb : b = a
        · simp [hb, deadAcc]
        · simp [hb]
      have hmem : ∀ b, (b ∈ a :: l ∧ deadAcc (v.cur b) = true) ↔ (b = a ∨ (b ∈ l ∧ deadAcc (v.cur b) = true)) := by
        intro b
        rw [List.mem_cons]
        constructor
        · rintro ⟨h | h, h'⟩
          · exact Or.inl h
          · exact Or.inr ⟨h, h'⟩
        · rintro (h | h)
          · subst h; exact ⟨Or.inl rfl, hd⟩
          · exact ⟨Or.inr h.1, h.2⟩
      have e1 : (fun b => if b ∈ l ∧ deadAcc ((v.destruct db a).cur b) = true then
          ((v.destruct db a).obj b).map (fun o => { o with current := none }) else (v.destruct db a).obj b) =
          (fun b => if b ∈ a :: l ∧ deadAcc (v.cur b) = true then (v.obj b).map (fun o => { o with current := none })
            else v.obj b) := by
        funext b
        by_cases hb : b = a
        · subst hb
          have h2 : (b ∈ b :: l ∧ deadAcc (v.cur b) = true) := (hmem b).mpr (Or.inl rfl)
          rw [if_pos h2]
          have h3 : (v.destruct db b).obj b = (v.obj b).map (fun o => { o with current := none }) := upd_self _ _ _
          rw [h3]
          cases v.obj b with
          | none => simp
          | some o => simp
        · have h3 : (v.destruct db a).obj b = v.obj b := upd_ne _ _ hb
          rw [h3]
          have : (b ∈ l ∧ deadAcc ((v.destruct db a).cur b) = true) ↔ (b ∈ a :: l ∧ deadAcc (v.cur b) = true) := by
            rw [hdead, hmem]; simp [hb]
          simp only [this]
      have e2 : ∀ (g : Bytes → Bytes → Bytes) (g' : Bytes → Bytes → Bytes),
          (g' = upd g a (fun k => dbView db (v.ini a) 0 a k)) →
          (fun b => if b ∈ l ∧ deadAcc ((v.destruct db a).cur b) = true then
            (fun k => dbView db ((v.destruct db a).ini b) 0 b k) else g' b) =
          (fun b => if b ∈ a :: l ∧ deadAcc (v.cur b) = true then (fun k => dbView db (v.ini b) 0 b k) else g b) := by
        intro g g' hg
        funext b
        rw [View.destruct_ini, hg]
        by_cases hb : b = a
        · subst hb
          have h2 : (b ∈ b :: l ∧ deadAcc (v.cur b) = true) := (hmem b).mpr (Or.inl rfl)
          rw [if_pos h2, upd_self]
          simp
        · rw [upd_ne _ _ hb]
          have : (b ∈ l ∧ deadAcc ((v.destruct db a).cur b) = true) ↔ (b ∈ a :: l ∧ deadAcc (v.cur b) = true) := by
            rw [hdead, hmem]; simp [hb]
          simp only [this]
      show View.mk _ _ _ _ _ _ _ _ _ _ _ = View.mk _ _ _ _ _ _ _ _ _ _ _
      rw [e1, e2 v.orig (v.destruct db a).orig rfl, e2 v.curv (v.destruct db a).curv rfl]
      rfl
    · rw [if_neg hd]
      unfold View.destructTouched
      have : ∀ b, (b ∈ l ∧ deadAcc (v.cur b) = true) ↔ (b ∈ a :: l ∧ deadAcc (v.cur b) = true) := by
        intro b
        rw [List.mem_cons]
        constructor
        · rintro ⟨h, h'⟩; exact ⟨Or.inr h, h'⟩
        · rintro ⟨h | h, h'⟩
          · subst h; exact absurd h' hd
          · exact ⟨h, h'⟩
      simp only [this]

theorem touchedStep_view (s : IntraBlockState) (a : Bytes) :
    view db (match isDead db s a with | (true, s) => destruct db s a | (false, s) => s) =
      (view db s).destructDead db a ∧
    (match isDead db s a with | (true, s) => destruct db s a | (false, s) => s).code = s.code := by
  obtain ⟨s', e, hs⟩ := isDead_eq (db := db) s a
  have hc := isDead_code (db := db) s a
  rw [e] at hc ⊢
  unfold View.destructDead
  show _ = (if deadAcc (curOf db s a) = true then _ else _) ∧ _
  cases hd : deadAcc (curOf db s a) with
  | true =>
    simp only [if_true]
    exact ⟨by rw [destruct_view, view_of_same hs], (destruct_code s' a).trans hc⟩
  | false =>
    simp only [Bool.false_eq_true, if_false]
    exact ⟨view_of_same hs, hc⟩

theorem foldl_touched_view (l : List Bytes) (s : IntraBlockState) :
    view db (l.foldl (fun s a => match isDead db s a with | (true, s) => destruct db s a | (false, s) => s) s) =
      l.foldl (fun v a => v.destructDead db a) (view db s) ∧
      (l.foldl (fun s a => match isDead db s a with | (true, s) => destruct db s a | (false, s) => s) s).code =
        s.code := by
  induction l generalizing s with
  | nil => exact ⟨rfl, rfl⟩
  | cons a l ih =>
    obtain ⟨h1, h2⟩ := ih (match isDead db s a with | (true, s) => destruct db s a | (false, s) => s)
    obtain ⟨h3, h4⟩ := touchedStep_view (db := db) s a
    rw [List.foldl_cons, List.foldl_cons]
    exact ⟨by rw [h1, h3], h2.trans h4⟩

theorem destructTouchedDead_view (s : IntraBlockState) :
    view db (destructTouchedDead db s) = (view db s).destructTouched db s.touched ∧
      (destructTouchedDead db s).code = s.code := by
  obtain ⟨h1, h2⟩ := foldl_touched_view (db := db) s.touched s
  exact ⟨by rw [← foldl_destructDead]; exact h1, h2⟩

theorem destructTouched_congr (v : View) {l m : List Bytes} (h : ∀ b, b ∈ l ↔ b ∈ m) :
    v.destructTouched db l = v.destructTouched db m := by
  unfold View.destructTouched
  simp only [h]

theorem mem_touched_iff {s t : IntraBlockState} (h : Cong keccak db W s t) (b : Bytes) : b ∈ s.touched ↔ b ∈ t.touched := by
  by_cases hb : b = kRipemdAddress
  · have := congrArg View.ripemd h.view
    have h2 : s.touched.contains kRipemdAddress = t.touched.contains kRipemdAddress := this
    rw [Bool.eq_iff_iff] at h2
    subst hb
    simpa using h2
  · have h2 : s.touched.filter (· != kRipemdAddress) = t.touched.filter (· != kRipemdAddress) :=
      congrArg View.touched h.view
    have e : ∀ l : List Bytes, b ∈ l ↔ b ∈ l.filter (· != kRipemdAddress) := by
      intro l; rw [List.mem_filter]; simp [hb]
    rw [e s.touched, e t.touched, h2]

/-- The view after `clear_journal_and_substate`. -/
def View.clear (v : View) : View :=
  View.mk v.obj v.orig v.curv v.code [] [] [] false 0 [] (fun _ => [])

theorem phases_cong (ps : List Phase) {s t : IntraBlockState} (h : Cong keccak db W s t)
    (hl : PhasesAll keccak db (fun o s => o.LiveStorage db s) ps s)
    (hw : PhasesAll keccak db (fun o _ => o.CodeIn W) ps s) :
    (runPhases keccak db ps s).1 = (runPhases keccak db ps t).1 ∧
      Cong keccak db W (runPhases keccak db ps s).2 (runPhases keccak db ps t).2 := by
  induction ps generalizing s t with
  | nil => exact ⟨rfl, h⟩
  | cons p ps ih =>
    have key : (p.run keccak db s).1 = (p.run keccak db t).1 ∧
        Cong keccak db W (p.run keccak db s).2 (p.run keccak db t).2 := by
      cases p with
      | ops q =>
        obtain ⟨h1, h2, _, _⟩ := run_cong q h hl.1 hw.1
        exact ⟨h1, h2⟩
      | destructSuicides =>
        refine ⟨rfl, h.map (fun v => v.selfDestructs.foldl (fun v a => v.destruct db a) v) ?_ ?_ ?_ ?_⟩
        · exact (foldl_destruct_view s.selfDestructs s).1
        · exact (foldl_destruct_view t.selfDestructs t).1
        · exact (foldl_destruct_view (db := db) s.selfDestructs s).2
        · exact (foldl_destruct_view (db := db) t.selfDestructs t).2
      | destructTouchedDead =>
        obtain ⟨a1, a2⟩ := destructTouchedDead_view (db := db) s
        obtain ⟨b1, b2⟩ := destructTouchedDead_view (db := db) t
        refine ⟨rfl, h.map (fun v => v.destructTouched db s.touched) a1 ?_ a2 b2⟩
        exact b1.trans (destructTouched_congr _ fun b => (mem_touched_iff h b).symm)
      | finalizeTransaction => exact ⟨rfl, h.map View.finalize (finalize_view s) (finalize_view t) rfl rfl⟩
      | clearJournalAndSubstate =>
        exact ⟨rfl, h.map View.clear rfl rfl rfl rfl⟩
    obtain ⟨k1, k2⟩ := key
    obtain ⟨g1, g2⟩ := ih k2 hl.2 hw.2
    refine ⟨?_, g2⟩
    simp only [runPhases]
    rw [k1, g1]

end Silkworm.IntraBlockState
