import Verif.State.Revert

/-!
# Operations on the cache-free view of the state

Helper lemmas: the view of a state is what is left when caches and the journal are taken away; every operation is a
function of it.
-/

namespace Silkworm.IntraBlockState

open State

/-- A state without caches and journal. -/
structure View where
  obj : Bytes → Option Object
  orig : Bytes → Bytes → Bytes
  curv : Bytes → Bytes → Bytes
  code : Bytes → Bytes
  selfDestructs : List Bytes
  logs : List Log
  touched : List Bytes
  ripemd : Bool
  refund : Nat
  accessedAddresses : List Bytes
  keys : Bytes → List Bytes

variable (db : StateReader)

def view (s : IntraBlockState) : View where
  obj := effObj db s
  orig := origOf db s
  curv := curvOf db s
  code := lookupCode db s
  selfDestructs := s.selfDestructs
  logs := s.logs
  touched := s.touched.filter (· != kRipemdAddress)
  ripemd := s.touched.contains kRipemdAddress
  refund := s.refund
  accessedAddresses := s.accessedAddresses
  keys := keysOf s

/-- Function update. -/
def upd {β : Type} (f : Bytes → β) (a : Bytes) (x : β) : Bytes → β := fun b => if b = a then x else f b

@[simp] theorem upd_self {β : Type} (f : Bytes → β) (a : Bytes) (x : β) : upd f a x a = x := if_pos rfl

theorem upd_ne {β : Type} (f : Bytes → β) {a b : Bytes} (x : β) (h : b ≠ a) : upd f a x b = f b := if_neg h

def View.cur (v : View) (a : Bytes) : Option Account := (v.obj a).bind (·.current)

def View.ini (v : View) (a : Bytes) : Option Account := (v.obj a).bind (·.initial)

variable {db}

theorem view_of_same {s t : IntraBlockState} (h : Same db s t) : view db t = view db s := by
  have e1 : effObj db t = effObj db s := funext fun a => (h.obj a).symm
  have e2 : origOf db t = origOf db s := funext fun a => funext fun k => (h.orig a k).symm
  have e3 : curvOf db t = curvOf db s := funext fun a => funext fun k => (h.curv a k).symm
  have e4 : lookupCode db t = lookupCode db s := funext fun x => (h.code x).symm
  have e5 : keysOf t = keysOf s := funext fun a => (h.keys a).symm
  unfold view
  rw [e1, e2, e3, e4, e5, h.selfDestructs, h.logs, h.touched, h.refund, h.accessedAddresses]

theorem sim_view {s t : IntraBlockState} (h : view db s = view db t) : Sim db True s t := by
  refine ⟨fun a => ?_, fun a _ k => ?_, fun a _ k => ?_, ?_, ?_, ?_, fun a => ?_⟩
  · exact congrFun (congrArg View.obj h) a
  · exact congrFun (congrFun (congrArg View.orig h) a) k
  · exact congrFun (congrFun (congrArg View.curv h) a) k
  · exact congrArg View.selfDestructs h
  · exact congrArg View.touched h
  · exact congrArg View.accessedAddresses h
  · exact congrFun (congrArg View.keys h) a

/-- Object part of the setters. -/
def View.modify (v : View) (a : Bytes) (f : Account → Account) : View :=
  { v with obj := upd v.obj a (some { initial := v.ini a, current := some (f ((v.cur a).getD {})) }) }

theorem origOf_set_obj {s t : IntraBlockState} {a : Bytes} (hst : t.storage = s.storage)
    (hi : ∀ b, iniOf db t b = iniOf db s b) (hc : ∀ b, incOf (curOf db t b) = incOf (curOf db s b)) :
    origOf db t = origOf db s ∧ curvOf db t = curvOf db s := by
  have hs : ∀ b, stor t b = stor s b := fun b => by unfold stor; rw [hst]
  exact ⟨funext fun b => funext fun k => origOf_eq (hi b) (hc b) (hs b) k,
    funext fun b => funext fun k => curvOf_eq (hi b) (hc b) (hs b) k⟩

/-- Replacing the object keeping initial account and incarnation. -/
theorem view_setObj (s t : IntraBlockState) (a : Bytes) (o : Object) (ho : t.objects = s.objects.set a o)
    (hst : t.storage = s.storage) (hcode : t.code = s.code) (hsd : t.selfDestructs = s.selfDestructs)
    (hlogs : t.logs = s.logs) (ht : t.touched = s.touched) (hr : t.refund = s.refund)
    (ha : t.accessedAddresses = s.accessedAddresses) (hk : t.accessedStorageKeys = s.accessedStorageKeys)
    (hi : o.initial = iniOf db s a) (hc : incOf o.current = incOf (curOf db s a)) :
    view db t = { view db s with obj := upd (view db s).obj a (some o) } := by
  have e1 : effObj db t = upd (effObj db s) a (some o) := by
    funext b
    have := effObj_set db s a b o
    unfold effObj at this ⊢
    rw [ho]
    exact this
  have hini : ∀ b, iniOf db t b = iniOf db s b := by
    intro b
    show (effObj db t b).bind (·.initial) = _
    rw [e1]
    by_cases hb : b = a
    · subst hb; rw [upd_self]; exact hi
    · rw [upd_ne _ _ hb]; rfl
  have hinc : ∀ b, incOf (curOf db t b) = incOf (curOf db s b) := by
    intro b
    show incOf ((effObj db t b).bind (·.current)) = _
    rw [e1]
    by_cases hb : b = a
    · subst hb; rw [upd_self]; exact hc
    · rw [upd_ne _ _ hb]; rfl
  obtain ⟨e2, e3⟩ := origOf_set_obj (a := a) hst hini hinc
  have e4 : lookupCode db t = lookupCode db s := by funext x; unfold lookupCode; rw [hcode]
  have e5 : keysOf t = keysOf s := by funext x; unfold keysOf; rw [hk]
  unfold view
  rw [e1, e2, e3, e4, e5, hsd, hlogs, ht, hr, ha]

theorem view_push (s : IntraBlockState) (d : Delta) : view db (s.push d) = view db s := rfl

theorem getOrCreateObject_view (s : IntraBlockState) (a : Bytes) :
    ∃ o s', getOrCreateObject db s a = (o, ((curOf db s a).getD {}), s') ∧ effObj db s' a = some o ∧
      o.initial = iniOf db s a ∧ o.current = some ((curOf db s a).getD {}) ∧
      view db s' = (view db s).modify a id := by
  obtain ⟨s1, h, hs⟩ := getObject_eq (db := db) s a
  unfold getOrCreateObject
  rw [h]
  cases ho : effObj db s a with
  | none =>
    have hc : curOf db s a = none := by unfold curOf; rw [ho]; rfl
    have hi : iniOf db s a = none := by unfold iniOf; rw [ho]; rfl
    rw [hc, hi]
    refine ⟨_, _, rfl, (effObj_set db s1 a a _).trans (if_pos rfl), rfl, rfl, ?_⟩
    rw [view_setObj s1 { s1.push (.create a) with objects := s1.objects.set a { current := some {} } } a
      { current := some {} } rfl rfl rfl rfl rfl rfl rfl rfl rfl
      (by rw [← hs.ini, hi]) (by rw [← hs.cur, hc]; rfl), view_of_same hs]
    unfold View.modify
    have h1 : (view db s).ini a = none := hi
    have h2 : (view db s).cur a = none := hc
    rw [h1, h2]
    rfl
  | some o =>
    have hc : curOf db s a = o.current := by unfold curOf; rw [ho]; rfl
    have hi : iniOf db s a = o.initial := by unfold iniOf; rw [ho]; rfl
    have h1 : (view db s).ini a = o.initial := hi
    have h2 : (view db s).cur a = o.current := hc
    rw [hc, hi]
    cases hcur : o.current with
    | none =>
      simp only [hcur]
      refine ⟨_, _, rfl, (effObj_set db s1 a a _).trans (if_pos rfl), rfl, rfl, ?_⟩
      rw [view_setObj s1 { s1.push (.update a o) with objects := s1.objects.set a { o with current := some {} } } a
        { o with current := some {} } rfl rfl rfl rfl rfl rfl rfl rfl rfl
        (by rw [← hs.ini, hi]) (by rw [← hs.cur, hc, hcur]; rfl), view_of_same hs]
      unfold View.modify
      rw [h1, h2, hcur]
      rfl
    | some c =>
      simp only [hcur]
      refine ⟨o, s1, rfl, by rw [← hs.obj, ho], rfl, hcur, ?_⟩
      rw [view_of_same hs]
      unfold View.modify
      rw [h1, h2, hcur]
      have : (some { initial := o.initial, current := some (id ((some c).getD {})) } : Option Object) = some o := by
        cases o; simp_all
      rw [this]
      have e : upd (view db s).obj a (some o) = (view db s).obj := by
        funext b
        by_cases hb : b = a
        · subst hb; rw [upd_self]; exact ho.symm
        · rw [upd_ne _ _ hb]
      rw [e]

theorem modifyCurrent_view (s : IntraBlockState) (a : Bytes) (f : Account → Account)
    (hf : ∀ c, (f c).incarnation = c.incarnation) :
    view db (modifyCurrent db s a f) = (view db s).modify a f := by
  obtain ⟨o, s', h, he, hi, hc, hv⟩ := getOrCreateObject_view (db := db) s a
  unfold modifyCurrent
  rw [h]
  simp only
  have hi' : iniOf db s' a = o.initial := by unfold iniOf; rw [he]; rfl
  have hc' : curOf db s' a = o.current := by unfold curOf; rw [he]; rfl
  rw [view_setObj s' { s'.push (.update a o) with
      objects := s'.objects.set a { o with current := some (f ((curOf db s a).getD {})) } } a
    { o with current := some (f ((curOf db s a).getD {})) } rfl rfl rfl rfl rfl rfl rfl rfl rfl hi'.symm
    (by rw [hc', hc]; exact hf _), hv]
  unfold View.modify
  simp only
  rw [hi]
  have : ∀ x y : Option Object, upd (upd (view db s).obj a x) a y = upd (view db s).obj a y := by
    intro x y
    funext b
    by_cases hb : b = a
    · subst hb; simp
    · simp only [upd_ne _ _ hb]
  rw [this]
  rfl

/-- Touching an address. -/
def View.touch (v : View) (a : Bytes) : View :=
  if a = kRipemdAddress then { v with ripemd := true } else { v with touched := setInsert v.touched a }

theorem view_touched (s t : IntraBlockState) (ho : t.objects = s.objects) (hst : t.storage = s.storage)
    (hcode : t.code = s.code) (hsd : t.selfDestructs = s.selfDestructs) (hlogs : t.logs = s.logs)
    (hr : t.refund = s.refund) (ha : t.accessedAddresses = s.accessedAddresses)
    (hk : t.accessedStorageKeys = s.accessedStorageKeys) :
    view db t = { view db s with touched := t.touched.filter (· != kRipemdAddress)
                                 ripemd := t.touched.contains kRipemdAddress } := by
  have e1 : effObj db t = effObj db s := by funext b; unfold effObj; rw [ho]
  have hs : ∀ b, stor t b = stor s b := fun b => by unfold stor; rw [hst]
  have e2 : origOf db t = origOf db s := funext fun b => funext fun k => origOf_congr (congrFun e1 b) (hs b) k
  have e3 : curvOf db t = curvOf db s := funext fun b => funext fun k => curvOf_congr (congrFun e1 b) (hs b) k
  have e4 : lookupCode db t = lookupCode db s := by funext x; unfold lookupCode; rw [hcode]
  have e5 : keysOf t = keysOf s := by funext x; unfold keysOf; rw [hk]
  unfold view
  rw [e1, e2, e3, e4, e5, hsd, hlogs, hr, ha]

theorem touch_view (s : IntraBlockState) (a : Bytes) : view db (touch s a) = (view db s).touch a := by
  unfold touch
  by_cases h : s.touched.contains a
  · rw [if_pos h]
    unfold View.touch
    by_cases hr : a = kRipemdAddress
    · rw [if_pos hr]
      unfold view
      rw [← hr, h]
    · rw [if_neg hr]
      have hm : a ∈ s.touched := by simpa using h
      have : a ∈ (view db s).touched := List.mem_filter.mpr ⟨hm, by simpa using hr⟩
      rw [setInsert_of_mem this]
  · rw [if_neg h]
    have hn : a ∉ s.touched := by simpa using h
    dsimp only
    unfold View.touch
    by_cases hr : a = kRipemdAddress
    · rw [if_neg (by simpa using hr), if_pos hr]
      rw [view_touched s _ (by rfl) (by rfl) (by rfl) (by rfl) (by rfl) (by rfl) (by rfl) (by rfl)]
      simp only
      rw [setInsert_of_not_mem hn]
      congr 1
      · rw [List.filter_cons, if_neg (by simp [hr])]; rfl
      · simp [hr]
    · rw [if_pos (by simpa using hr), if_neg hr]
      have key := view_touched (db := db) s (push { s with touched := setInsert s.touched a } (.touch a)) (by rfl)
        (by rfl) (by rfl) (by rfl) (by rfl) (by rfl) (by rfl) (by rfl)
      refine key.trans ?_
      have e1 : (push { s with touched := setInsert s.touched a } (.touch a)).touched = a :: s.touched :=
        setInsert_of_not_mem hn
      rw [e1]
      have hn' : a ∉ (view db s).touched := fun hm => hn (List.mem_filter.mp hm).1
      rw [setInsert_of_not_mem hn']
      have hr' : ¬ kRipemdAddress = a := fun e => hr e.symm
      have e2 : (a :: s.touched).contains kRipemdAddress = (view db s).ripemd := by
        show _ = s.touched.contains kRipemdAddress
        simp [hr']
      rw [e2, List.filter_cons, if_pos (by simpa using hr)]
      rfl

/-- Object and incarnation of a created contract. -/
def View.createContract (db : StateReader) (v : View) (a : Bytes) : View :=
  let inc := (fallbackIncarnation db a ((v.obj a).bind objectIncarnation) + 1) % 2 ^ 64
  { v with
    obj := upd v.obj a (some { initial := v.ini a,
                               current := some { balance := ((v.cur a).map (·.balance)).getD 0, incarnation := inc } })
    orig := upd v.orig a (fun k => dbView db (v.ini a) inc a k)
    curv := upd v.curv a (fun k => dbView db (v.ini a) inc a k) }

/-- Replacing object and forgetting storage. -/
theorem view_replace (s t : IntraBlockState) (a : Bytes) (x : Option Object)
    (ho : ∀ b, effObj db t b = if b = a then x else effObj db s b)
    (hst : ∀ b, stor t b = if b = a then {} else stor s b) (hcode : t.code = s.code)
    (hsd : t.selfDestructs = s.selfDestructs) (hlogs : t.logs = s.logs) (ht : t.touched = s.touched)
    (hr : t.refund = s.refund) (ha : t.accessedAddresses = s.accessedAddresses)
    (hk : t.accessedStorageKeys = s.accessedStorageKeys) :
    view db t = { view db s with
      obj := upd (view db s).obj a x
      orig := upd (view db s).orig a (fun k => dbView db (x.bind (·.initial)) (incOf (x.bind (·.current))) a k)
      curv := upd (view db s).curv a (fun k => dbView db (x.bind (·.initial)) (incOf (x.bind (·.current))) a k) } := by
  have e1 : effObj db t = upd (effObj db s) a x := funext ho
  have e2 : origOf db t = upd (origOf db s) a
      (fun k => dbView db (x.bind (·.initial)) (incOf (x.bind (·.current))) a k) := by
    funext b k
    by_cases hb : b = a
    · subst hb
      rw [upd_self]
      unfold origOf iniOf curOf
      rw [hst, if_pos rfl, e1, upd_self]
      rfl
    · rw [upd_ne _ _ hb]
      exact origOf_congr (by rw [e1, upd_ne _ _ hb]) (by rw [hst, if_neg hb]) k
  have e3 : curvOf db t = upd (curvOf db s) a
      (fun k => dbView db (x.bind (·.initial)) (incOf (x.bind (·.current))) a k) := by
    funext b k
    by_cases hb : b = a
    · subst hb
      rw [upd_self]
      unfold curvOf iniOf curOf
      rw [hst, if_pos rfl, e1, upd_self]
      rfl
    · rw [upd_ne _ _ hb]
      exact curvOf_congr (by rw [e1, upd_ne _ _ hb]) (by rw [hst, if_neg hb]) k
  have e4 : lookupCode db t = lookupCode db s := by funext x; unfold lookupCode; rw [hcode]
  have e5 : keysOf t = keysOf s := by funext x; unfold keysOf; rw [hk]
  unfold view
  rw [e1, e2, e3, e4, e5, hsd, hlogs, hr, ha, ht]

theorem wipeStorage_stor (s : IntraBlockState) (a b : Bytes) :
    stor (wipeStorage s a) b = if b = a then {} else stor s b := by
  unfold wipeStorage
  cases h : s.storage.get? a with
  | none =>
    show stor s b = _
    by_cases hb : b = a
    · rw [if_pos hb, hb]; unfold stor; rw [h]; rfl
    · rw [if_neg hb]
  | some st => exact stor_erase s a b

theorem wipeStorage_other (s : IntraBlockState) (a : Bytes) :
    (wipeStorage s a).objects = s.objects ∧ (wipeStorage s a).code = s.code ∧
    (wipeStorage s a).selfDestructs = s.selfDestructs ∧ (wipeStorage s a).logs = s.logs ∧
    (wipeStorage s a).touched = s.touched ∧ (wipeStorage s a).refund = s.refund ∧
    (wipeStorage s a).accessedAddresses = s.accessedAddresses ∧
    (wipeStorage s a).accessedStorageKeys = s.accessedStorageKeys := by
  unfold wipeStorage
  cases s.storage.get? a <;> exact ⟨rfl, rfl, rfl, rfl, rfl, rfl, rfl, rfl⟩

theorem view_create (s1 s2 : IntraBlockState) (a : Bytes) (o : Object) (d : Delta)
    (h : s2 = { s1.push d with objects := s1.objects.set a o }) :
    view db (wipeStorage s2 a) = { view db s1 with
      obj := upd (view db s1).obj a (some o)
      orig := upd (view db s1).orig a (fun k => dbView db o.initial (incOf o.current) a k)
      curv := upd (view db s1).curv a (fun k => dbView db o.initial (incOf o.current) a k) } := by
  obtain ⟨w1, w2, w3, w4, w5, w6, w7, w8⟩ := wipeStorage_other s2 a
  refine view_replace s1 (wipeStorage s2 a) a (some o) (fun b => ?_) (fun b => ?_) ?_ ?_ ?_ ?_ ?_ ?_ ?_
  · refine Eq.trans ?_ (effObj_set db s1 a b o)
    unfold effObj
    rw [w1, h]
  · rw [wipeStorage_stor, h]; rfl
  · rw [w2, h]; rfl
  · rw [w3, h]; rfl
  · rw [w4, h]; rfl
  · rw [w5, h]; rfl
  · rw [w6, h]; rfl
  · rw [w7, h]; rfl
  · rw [w8, h]; rfl

theorem createContract_view (s : IntraBlockState) (a : Bytes) :
    view db (createContract db s a) = (view db s).createContract db a := by
  obtain ⟨s1, h, hs⟩ := getObject_eq (db := db) s a
  unfold createContract
  rw [h]
  cases ho : effObj db s a with
  | none =>
    have h0 : (view db s).obj a = none := ho
    refine (view_create s1 _ a _ _ rfl).trans ?_
    rw [view_of_same hs]
    unfold View.createContract View.ini View.cur
    rw [h0]
    rfl
  | some o =>
    have h0 : (view db s).obj a = some o := ho
    refine (view_create s1 _ a _ _ rfl).trans ?_
    rw [view_of_same hs]
    unfold View.createContract View.ini View.cur
    rw [h0]
    have e : objectBalance o = (o.current.map (·.balance)).getD 0 := by
      unfold objectBalance
      cases o.current <;> rfl
    dsimp only
    rw [e]
    rfl

/-- Writing storage. -/
def View.setStorage (v : View) (a k x : Bytes) : View :=
  if (match v.cur a with | none => zero32 | some _ => v.curv a k) = x then v
  else { v with curv := upd v.curv a (upd (v.curv a) k x) }

theorem setStorage_view (s : IntraBlockState) (a k x : Bytes) :
    view db (setStorage db s a k x) = (view db s).setStorage a k x := by
  obtain ⟨s1, h, hs⟩ := getStorage_eq (db := db) s a k false
  unfold setStorage getCurrentStorage
  rw [h]
  have hv : storageView db s a k false =
      (match (view db s).cur a with | none => zero32 | some _ => (view db s).curv a k) := by
    unfold storageView
    show _ = (match curOf db s a with | none => zero32 | some _ => curvOf db s a k)
    cases curOf db s a <;> rfl
  unfold View.setStorage
  rw [← hv]
  simp only
  by_cases hx : storageView db s a k false = x
  · rw [if_pos hx, if_pos hx, view_of_same hs]
  · rw [if_neg hx, if_neg hx, ← view_of_same hs]
    have hst : ∀ b, stor { s1.push (.storageChange a k (storageView db s a k false)) with
        storage := s1.storage.set a { (stor s1 a) with current := (stor s1 a).current.set k x } } b =
        if b = a then { (stor s1 a) with current := (stor s1 a).current.set k x } else stor s1 b :=
      fun b => stor_set s1 a b _
    show view db { s1.push (.storageChange a k (storageView db s a k false)) with
        storage := s1.storage.set a { (stor s1 a) with current := (stor s1 a).current.set k x } } = _
    have e2 : origOf db { s1.push (.storageChange a k (storageView db s a k false)) with
        storage := s1.storage.set a { (stor s1 a) with current := (stor s1 a).current.set k x } } = origOf db s1 := by
      funext b j
      unfold origOf
      rw [hst]
      by_cases hb : b = a
      · rw [if_pos hb, hb]; rfl
      · rw [if_neg hb]; rfl
    have e3 : curvOf db { s1.push (.storageChange a k (storageView db s a k false)) with
        storage := s1.storage.set a { (stor s1 a) with current := (stor s1 a).current.set k x } } =
        upd (curvOf db s1) a (upd (curvOf db s1 a) k x) := by
      funext b j
      by_cases hb : b = a
      · subst hb
        rw [upd_self]
        unfold curvOf
        rw [hst, if_pos rfl]
        unfold curIn
        simp only [AMap.get?_set]
        by_cases hj : j = k
        · subst hj; simp
        · rw [if_neg hj, upd_ne _ _ hj]; rfl
      · rw [upd_ne _ _ hb]
        unfold curvOf
        rw [hst, if_neg hb]
        rfl
    show View.mk _ _ _ _ _ _ _ _ _ _ _ = _
    rw [e2, e3]
    rfl

/-- Destroying an account. -/
def View.destruct (db : StateReader) (v : View) (a : Bytes) : View :=
  { v with
    obj := upd v.obj a ((v.obj a).map (fun o => { o with current := none }))
    orig := upd v.orig a (fun k => dbView db (v.ini a) 0 a k)
    curv := upd v.curv a (fun k => dbView db (v.ini a) 0 a k) }

theorem destruct_view (s : IntraBlockState) (a : Bytes) : view db (destruct db s a) = (view db s).destruct db a := by
  obtain ⟨s1, h, hs⟩ := getObject_eq (db := db) { s with storage := s.storage.erase a } a
  have heff : effObj db { s with storage := s.storage.erase a } = effObj db s := rfl
  rw [heff] at h
  unfold destruct
  rw [h]
  have v0 : view db { s with storage := s.storage.erase a } = { view db s with
      orig := upd (view db s).orig a (fun k => dbView db (iniOf db s a) (incOf (curOf db s a)) a k)
      curv := upd (view db s).curv a (fun k => dbView db (iniOf db s a) (incOf (curOf db s a)) a k) } := by
    have := view_replace (db := db) s { s with storage := s.storage.erase a } a (effObj db s a)
      (fun b => by
        by_cases hb : b = a
        · rw [if_pos hb, hb]; rfl
        · rw [if_neg hb]; rfl)
      (fun b => stor_erase s a b) rfl rfl rfl rfl rfl rfl rfl
    rw [this]
    have e : upd (view db s).obj a (effObj db s a) = (view db s).obj := by
      funext b
      by_cases hb : b = a
      · subst hb; rw [upd_self]; rfl
      · rw [upd_ne _ _ hb]
    rw [e]
    rfl
  cases ho : effObj db s a with
  | none =>
    have h0 : (view db s).obj a = none := ho
    have hi : iniOf db s a = none := by unfold iniOf; rw [ho]; rfl
    simp only
    rw [view_of_same hs, v0]
    unfold View.destruct View.ini
    rw [h0, hi]
    have e : upd (view db s).obj a none = (view db s).obj := by
      funext b
      by_cases hb : b = a
      · subst hb; rw [upd_self]; exact ho.symm
      · rw [upd_ne _ _ hb]
    show _ = View.mk (upd (view db s).obj a none) _ _ _ _ _ _ _ _ _ _
    rw [e]
    rfl
  | some o =>
    have h0 : (view db s).obj a = some o := ho
    have hi : iniOf db s a = o.initial := by unfold iniOf; rw [ho]; rfl
    simp only
    have hvs : view db s1 = _ := (view_of_same hs).trans v0
    have hobj : ∀ b, effObj db s1 b = effObj db s b := fun b => (hs.obj b).symm
    have e1 : effObj db { s1 with objects := s1.objects.set a { o with current := none } } =
        upd (effObj db s) a (some { o with current := none }) := by
      funext b
      rw [effObj_set, hobj]
      rfl
    have hsto : ∀ b k, origOf db s1 b k = upd (origOf db s) a (fun k => dbView db (iniOf db s a) (incOf (curOf db s a)) a k) b k :=
      fun b k => congrFun (congrFun (congrArg View.orig hvs) b) k
    have hcuo : ∀ b k, curvOf db s1 b k = upd (curvOf db s) a (fun k => dbView db (iniOf db s a) (incOf (curOf db s a)) a k) b k :=
      fun b k => congrFun (congrFun (congrArg View.curv hvs) b) k
    have hstor1 : stor s1 a = {} := by
      have : s1.storage = s.storage.erase a := by
        rcases getObject_snd db { s with storage := s.storage.erase a } a with h' | ⟨o', _, _, h'⟩
        · rw [h] at h'; simp only at h'; rw [h']
        · rw [h] at h'; simp only at h'; rw [h']
      unfold stor
      rw [this]
      simp
    have e2 : origOf db { s1 with objects := s1.objects.set a { o with current := none } } =
        upd (origOf db s) a (fun k => dbView db o.initial 0 a k) := by
      funext b k
      by_cases hb : b = a
      · subst hb
        rw [upd_self]
        unfold origOf iniOf curOf
        rw [e1, upd_self]
        show origIn db (stor s1 b) _ _ b k = _
        rw [hstor1]
        rfl
      · rw [upd_ne _ _ hb]
        have := hsto b k
        rw [upd_ne _ _ hb] at this
        rw [← this]
        refine origOf_congr ?_ (by rfl) k
        rw [e1, upd_ne _ _ hb]; exact (hobj b).symm
    have e3 : curvOf db { s1 with objects := s1.objects.set a { o with current := none } } =
        upd (curvOf db s) a (fun k => dbView db o.initial 0 a k) := by
      funext b k
      by_cases hb : b = a
      · subst hb
        rw [upd_self]
        unfold curvOf iniOf curOf
        rw [e1, upd_self]
        show curIn db (stor s1 b) _ _ b k = _
        rw [hstor1]
        rfl
      · rw [upd_ne _ _ hb]
        have := hcuo b k
        rw [upd_ne _ _ hb] at this
        rw [← this]
        refine curvOf_congr ?_ (by rfl) k
        rw [e1, upd_ne _ _ hb]; exact (hobj b).symm
    have hother : view db { s1 with objects := s1.objects.set a { o with current := none } } =
        { view db s1 with
          obj := effObj db { s1 with objects := s1.objects.set a { o with current := none } }
          orig := origOf db { s1 with objects := s1.objects.set a { o with current := none } }
          curv := curvOf db { s1 with objects := s1.objects.set a { o with current := none } } } := rfl
    rw [hother, e1, e2, e3, hvs]
    unfold View.destruct View.ini
    rw [h0]
    rfl

/-- The end of a transaction. -/
def View.finalize (v : View) : View := { v with orig := v.curv }

theorem finalizeStorage_get (st : Storage) (k : Bytes) :
    ((finalizeStorage st).committed.get? k).map (·.original) =
      match st.current.get? k with
      | some v => some v
      | none => (st.committed.get? k).map (·.original) := by
  unfold finalizeStorage
  simp only
  induction st.current with
  | nil => rfl
  | cons e m ih =>
    rw [List.foldr_cons, AMap.get?_cons]
    unfold commitValue
    simp only [AMap.get?_set]
    by_cases h : k = e.1
    · have : e.1 = k := h.symm
      rw [if_pos h, if_pos this]
      rfl
    · have : ¬ e.1 = k := fun h' => h h'.symm
      rw [if_neg h, if_neg this]
      exact ih

theorem get?_map_storage (m : AMap Bytes Storage) (f : Storage → Storage) (a : Bytes) :
    AMap.get? (m.map (fun e => (e.1, f e.2))) a = (m.get? a).map f := by
  induction m with
  | nil => rfl
  | cons e m ih =>
    rw [List.map_cons, AMap.get?_cons, AMap.get?_cons]
    by_cases h : e.1 = a
    · simp [h]
    · simp only [if_neg h]; exact ih

theorem finalize_view (s : IntraBlockState) : view db (finalizeTransaction s) = (view db s).finalize := by
  have hst : ∀ a, stor (finalizeTransaction s) a = finalizeStorage (stor s a) := by
    intro a
    unfold stor finalizeTransaction
    simp only
    rw [get?_map_storage]
    cases s.storage.get? a <;> rfl
  have hor : ∀ (st : Storage) i n a k, origIn db (finalizeStorage st) i n a k = curIn db st i n a k := by
    intro st i n a k
    have h := finalizeStorage_get st k
    unfold curIn origIn
    cases hc : st.current.get? k with
    | some v =>
      rw [hc] at h
      cases hf : (finalizeStorage st).committed.get? k with
      | none => rw [hf] at h; simp at h
      | some e => rw [hf] at h; simp at h; simp [h]
    | none =>
      rw [hc] at h
      cases hf : (finalizeStorage st).committed.get? k with
      | none =>
        rw [hf] at h
        cases hs : st.committed.get? k with
        | none => rfl
        | some e => rw [hs] at h; simp at h
      | some e =>
        rw [hf] at h
        cases hs : st.committed.get? k with
        | none => rw [hs] at h; simp at h
        | some e' => rw [hs] at h; simp at h; simp [h]
  have e2 : origOf db (finalizeTransaction s) = curvOf db s := by
    funext a k
    unfold origOf curvOf
    rw [hst, hor]
    rfl
  have e3 : curvOf db (finalizeTransaction s) = curvOf db s := by
    funext a k
    unfold curvOf
    rw [hst]
    show origIn db (finalizeStorage (stor s a)) _ _ a k = _
    rw [hor]
    rfl
  show View.mk (effObj db s) (origOf db (finalizeTransaction s)) (curvOf db (finalizeTransaction s)) _ _ _ _ _ _ _ _ = _
  rw [e2, e3]
  rfl

end Silkworm.IntraBlockState
