import Verif.State.IntraBlockState

/-!
# What the caches of the state stand for

Helper lemmas: the effective object of an address, the effective storage values, and what the readers return and leave
behind in terms of them.
-/

namespace Silkworm.IntraBlockState

open State

variable (db : StateReader)

/-- The object of an address, whether cached or still in the database. -/
def effObj (s : IntraBlockState) (a : Bytes) : Option Object :=
  match s.objects.get? a with
  | some o => some o
  | none => (db.readAccount a).map (fun x => { initial := some x, current := some x })

/-- The current account. -/
def curOf (s : IntraBlockState) (a : Bytes) : Option Account := (effObj db s a).bind (·.current)

/-- The initial account. -/
def iniOf (s : IntraBlockState) (a : Bytes) : Option Account := (effObj db s a).bind (·.initial)

/-- The incarnation of an optional account. -/
def incOf : Option Account → Nat
  | none => 0
  | some c => c.incarnation

/-- The storage cache of an address. -/
def stor (s : IntraBlockState) (a : Bytes) : Storage := (s.storage.get? a).getD {}

/-- The value in the database as seen by an account of the given incarnation. -/
def dbView (i : Option Account) (inc : Nat) (a k : Bytes) : Bytes :=
  match i with
  | none => zero32
  | some i => if i.incarnation ≠ inc then zero32 else db.readStorage a inc k

/-- Committed value. -/
def origIn (st : Storage) (i : Option Account) (inc : Nat) (a k : Bytes) : Bytes :=
  match st.committed.get? k with
  | some e => e.original
  | none => dbView db i inc a k

/-- Current value. -/
def curIn (st : Storage) (i : Option Account) (inc : Nat) (a k : Bytes) : Bytes :=
  match st.current.get? k with
  | some v => v
  | none => origIn db st i inc a k

def origOf (s : IntraBlockState) (a k : Bytes) : Bytes :=
  origIn db (stor s a) (iniOf db s a) (incOf (curOf db s a)) a k

def curvOf (s : IntraBlockState) (a k : Bytes) : Bytes :=
  curIn db (stor s a) (iniOf db s a) (incOf (curOf db s a)) a k

/-- The accessed storage keys of an address. -/
def keysOf (s : IntraBlockState) (a : Bytes) : List Bytes := (s.accessedStorageKeys.get? a).getD []

/-- The code stored under a hash. -/
def lookupCode (s : IntraBlockState) (h : Bytes) : Bytes := (s.code.get? h).getD (db.readCode h)

/-- The code of an optional account. -/
def codeOf (s : IntraBlockState) (c : Option Account) : Bytes :=
  match c with
  | none => []
  | some c => if c.codeHash = kEmptyHash then [] else lookupCode db s c.codeHash

theorem getObject_fst (s : IntraBlockState) (a : Bytes) : (getObject db s a).1 = effObj db s a := by
  unfold getObject effObj
  cases s.objects.get? a with
  | some o => rfl
  | none => cases db.readAccount a <;> rfl

/-- What `getObject` does to the state. -/
theorem getObject_snd (s : IntraBlockState) (a : Bytes) :
    (getObject db s a).2 = s ∨
      ∃ o, effObj db s a = some o ∧ s.objects.get? a = none ∧
        (getObject db s a).2 = { s with objects := s.objects.set a o } := by
  unfold getObject effObj
  cases h : s.objects.get? a with
  | some o => exact Or.inl rfl
  | none =>
    cases h' : db.readAccount a with
    | none => exact Or.inl rfl
    | some x => exact Or.inr ⟨_, rfl, rfl, rfl⟩

theorem effObj_set (s : IntraBlockState) (a b : Bytes) (o : Object) :
    effObj db { s with objects := s.objects.set a o } b = if b = a then some o else effObj db s b := by
  unfold effObj
  simp only [AMap.get?_set]
  by_cases h : b = a
  · simp [h]
  · simp [h]

/-- The state with an object cached has the same effective objects. -/
theorem effObj_cache {s : IntraBlockState} {a : Bytes} {o : Object} (h : effObj db s a = some o) (b : Bytes) :
    effObj db { s with objects := s.objects.set a o } b = effObj db s b := by
  rw [effObj_set]
  by_cases hb : b = a
  · rw [if_pos hb, hb, h]
  · rw [if_neg hb]

/-- Two states agree on everything but the caches. -/
structure Same (s t : IntraBlockState) : Prop where
  obj : ∀ a, effObj db s a = effObj db t a
  orig : ∀ a k, origOf db s a k = origOf db t a k
  curv : ∀ a k, curvOf db s a k = curvOf db t a k
  code : ∀ h, lookupCode db s h = lookupCode db t h
  journal : s.journal = t.journal
  selfDestructs : s.selfDestructs = t.selfDestructs
  logs : s.logs = t.logs
  touched : s.touched = t.touched
  refund : s.refund = t.refund
  accessedAddresses : s.accessedAddresses = t.accessedAddresses
  keys : ∀ a, keysOf s a = keysOf t a

variable {db}

theorem Same.refl (s : IntraBlockState) : Same db s s :=
  ⟨fun _ => rfl, fun _ _ => rfl, fun _ _ => rfl, fun _ => rfl, rfl, rfl, rfl, rfl, rfl, rfl, fun _ => rfl⟩

theorem Same.trans {s t u : IntraBlockState} (h : Same db s t) (g : Same db t u) : Same db s u :=
  ⟨fun a => (h.obj a).trans (g.obj a), fun a k => (h.orig a k).trans (g.orig a k),
   fun a k => (h.curv a k).trans (g.curv a k), fun x => (h.code x).trans (g.code x), h.journal.trans g.journal,
   h.selfDestructs.trans g.selfDestructs, h.logs.trans g.logs, h.touched.trans g.touched, h.refund.trans g.refund,
   h.accessedAddresses.trans g.accessedAddresses, fun a => (h.keys a).trans (g.keys a)⟩

theorem Same.cur {s t : IntraBlockState} (h : Same db s t) (a : Bytes) : curOf db s a = curOf db t a := by
  unfold curOf; rw [h.obj]

theorem Same.ini {s t : IntraBlockState} (h : Same db s t) (a : Bytes) : iniOf db s a = iniOf db t a := by
  unfold iniOf; rw [h.obj]

theorem origOf_congr {s t : IntraBlockState} {a : Bytes} (ho : effObj db s a = effObj db t a)
    (hs : stor s a = stor t a) (k : Bytes) : origOf db s a k = origOf db t a k := by
  unfold origOf iniOf curOf; rw [ho, hs]

theorem curvOf_congr {s t : IntraBlockState} {a : Bytes} (ho : effObj db s a = effObj db t a)
    (hs : stor s a = stor t a) (k : Bytes) : curvOf db s a k = curvOf db t a k := by
  unfold curvOf iniOf curOf; rw [ho, hs]

theorem same_cacheObj {s : IntraBlockState} {a : Bytes} {o : Object} (h : effObj db s a = some o) :
    Same db s { s with objects := s.objects.set a o } :=
  ⟨fun b => (effObj_cache db h b).symm, fun b k => origOf_congr (effObj_cache db h b).symm rfl k,
   fun b k => curvOf_congr (effObj_cache db h b).symm rfl k, fun _ => rfl, rfl, rfl, rfl, rfl, rfl, rfl, fun _ => rfl⟩

theorem getObject_same (s : IntraBlockState) (a : Bytes) : Same db s (getObject db s a).2 := by
  rcases getObject_snd db s a with h | ⟨o, ho, _, h⟩
  · rw [h]; exact Same.refl s
  · rw [h]; exact same_cacheObj ho

/-- `getObject` as a pair. -/
theorem getObject_eq (s : IntraBlockState) (a : Bytes) :
    ∃ s', getObject db s a = (effObj db s a, s') ∧ Same db s s' :=
  ⟨_, Prod.ext (getObject_fst db s a) rfl, getObject_same s a⟩

theorem exists?_eq (s : IntraBlockState) (a : Bytes) :
    ∃ s', exists? db s a = ((curOf db s a).isSome, s') ∧ Same db s s' := by
  obtain ⟨s', h, hs⟩ := getObject_eq (db := db) s a
  refine ⟨s', ?_, hs⟩
  unfold exists? curOf
  rw [h]
  cases effObj db s a <;> rfl

/-- EIP-161 emptiness of an optional account. -/
def deadAcc : Option Account → Bool
  | none => true
  | some c => c.codeHash == kEmptyHash && c.nonce == 0 && c.balance == 0

theorem isDead_eq (s : IntraBlockState) (a : Bytes) :
    ∃ s', isDead db s a = (deadAcc (curOf db s a), s') ∧ Same db s s' := by
  obtain ⟨s', h, hs⟩ := getObject_eq (db := db) s a
  refine ⟨s', ?_, hs⟩
  unfold isDead curOf
  rw [h]
  cases effObj db s a with
  | none => rfl
  | some o => cases h : o.current <;> simp [h, deadAcc]

theorem getBalance_eq (s : IntraBlockState) (a : Bytes) :
    ∃ s', getBalance db s a = (((curOf db s a).map (·.balance)).getD 0, s') ∧ Same db s s' := by
  obtain ⟨s', h, hs⟩ := getObject_eq (db := db) s a
  refine ⟨s', ?_, hs⟩
  unfold getBalance curOf
  rw [h]
  cases effObj db s a with
  | none => rfl
  | some o => cases h : o.current <;> simp [h]

theorem getNonce_eq (s : IntraBlockState) (a : Bytes) :
    ∃ s', getNonce db s a = (((curOf db s a).map (·.nonce)).getD 0, s') ∧ Same db s s' := by
  obtain ⟨s', h, hs⟩ := getObject_eq (db := db) s a
  refine ⟨s', ?_, hs⟩
  unfold getNonce curOf
  rw [h]
  cases effObj db s a with
  | none => rfl
  | some o => cases h : o.current <;> simp [h]

theorem getCodeHash_eq (s : IntraBlockState) (a : Bytes) :
    ∃ s', getCodeHash db s a = (((curOf db s a).map (·.codeHash)).getD kEmptyHash, s') ∧ Same db s s' := by
  obtain ⟨s', h, hs⟩ := getObject_eq (db := db) s a
  refine ⟨s', ?_, hs⟩
  unfold getCodeHash curOf
  rw [h]
  cases effObj db s a with
  | none => rfl
  | some o => cases h : o.current <;> simp [h]

theorem lookupCode_cache (s : IntraBlockState) (h x : Bytes) :
    lookupCode db { s with code := s.code.set h (lookupCode db s h) } x = lookupCode db s x := by
  unfold lookupCode
  simp only [AMap.get?_set]
  by_cases hx : x = h
  · simp [hx]
  · simp [hx]

theorem same_cacheCode (s : IntraBlockState) (h : Bytes) :
    Same db s { s with code := s.code.set h (lookupCode db s h) } :=
  ⟨fun _ => rfl, fun _ _ => rfl, fun _ _ => rfl, fun x => (lookupCode_cache s h x).symm, rfl, rfl, rfl, rfl, rfl, rfl,
   fun _ => rfl⟩

theorem getCode_eq (s : IntraBlockState) (a : Bytes) :
    ∃ s', getCode db s a = (codeOf db s (curOf db s a), s') ∧ Same db s s' := by
  obtain ⟨s1, h, hs⟩ := getObject_eq (db := db) s a
  unfold getCode
  rw [h]
  cases ho : effObj db s a with
  | none => exact ⟨s1, by simp [curOf, ho, codeOf], hs⟩
  | some o =>
    have hc : curOf db s a = o.current := by unfold curOf; rw [ho]; rfl
    rw [hc]
    cases hcur : o.current with
    | none => exact ⟨s1, by simp [hcur, codeOf], hs⟩
    | some c =>
      by_cases he : c.codeHash = kEmptyHash
      · exact ⟨s1, by simp [hcur, codeOf, he], hs⟩
      · have hl := hs.code c.codeHash
        cases hcode : s1.code.get? c.codeHash with
        | some x =>
          refine ⟨s1, ?_, hs⟩
          have : lookupCode db s1 c.codeHash = x := by unfold lookupCode; rw [hcode]; rfl
          simp [hcur, codeOf, he, hcode, hl, this]
        | none =>
          have hx : lookupCode db s1 c.codeHash = db.readCode c.codeHash := by unfold lookupCode; rw [hcode]; rfl
          refine ⟨_, ?_, hs.trans (same_cacheCode s1 c.codeHash)⟩
          simp [hcur, codeOf, he, hcode, hl, hx]

theorem stor_set (s : IntraBlockState) (a b : Bytes) (st : Storage) :
    stor { s with storage := s.storage.set a st } b = if b = a then st else stor s b := by
  unfold stor
  simp only [AMap.get?_set]
  by_cases h : b = a
  · simp [h]
  · simp [h]

theorem stor_erase (s : IntraBlockState) (a b : Bytes) :
    stor { s with storage := s.storage.erase a } b = if b = a then {} else stor s b := by
  unfold stor
  simp only [AMap.get?_erase]
  by_cases h : b = a
  · simp [h]
  · simp [h]

theorem same_of_storage {s : IntraBlockState} {a : Bytes} {st : Storage}
    (ho : ∀ k, origIn db st (iniOf db s a) (incOf (curOf db s a)) a k = origOf db s a k)
    (hc : ∀ k, curIn db st (iniOf db s a) (incOf (curOf db s a)) a k = curvOf db s a k) :
    Same db s { s with storage := s.storage.set a st } := by
  refine ⟨fun _ => rfl, fun b k => ?_, fun b k => ?_, fun _ => rfl, rfl, rfl, rfl, rfl, rfl, rfl, fun _ => rfl⟩
  · by_cases hb : b = a
    · subst hb
      rw [← ho k]
      unfold origOf
      rw [stor_set, if_pos rfl]
      rfl
    · refine origOf_congr (by rfl) ?_ k
      rw [stor_set, if_neg hb]
  · by_cases hb : b = a
    · subst hb
      rw [← hc k]
      unfold curvOf
      rw [stor_set, if_pos rfl]
      rfl
    · refine curvOf_congr (by rfl) ?_ k
      rw [stor_set, if_neg hb]

theorem getCommitted_eq (s : IntraBlockState) (a k : Bytes) (i : Option Account) (inc : Nat) (st : Storage)
    (hi : i = iniOf db s a) (hinc : inc = incOf (curOf db s a)) (hst : st = stor s a) :
    ∃ s', getCommitted db s a k i inc st = (origOf db s a k, s') ∧ Same db s s' := by
  subst hi hinc hst
  unfold getCommitted
  cases hcm : (stor s a).committed.get? k with
  | some e =>
    refine ⟨s, ?_, Same.refl s⟩
    simp [origOf, origIn, hcm]
  | none =>
    cases hini : iniOf db s a with
    | none =>
      refine ⟨s, ?_, Same.refl s⟩
      simp [origOf, origIn, hcm, hini, dbView]
    | some i =>
      by_cases hne : i.incarnation ≠ incOf (curOf db s a)
      · refine ⟨s, ?_, Same.refl s⟩
        simp [origOf, origIn, hcm, hini, dbView, hne]
      · have hval : origOf db s a k = db.readStorage a (incOf (curOf db s a)) k := by
          simp only [origOf, origIn, hcm, hini, dbView, if_neg hne]
        refine ⟨_, ?_, same_of_storage (a := a) (st := { (stor s a) with
          committed := (stor s a).committed.set k
            { initial := db.readStorage a (incOf (curOf db s a)) k,
              original := db.readStorage a (incOf (curOf db s a)) k } }) ?_ ?_⟩
        · simp only [if_neg hne, hval]
        · intro j
          unfold origOf origIn
          simp only [AMap.get?_set]
          by_cases hj : j = k
          · subst hj
            simp only [if_true, hcm, hini, dbView, if_neg hne]
          · simp only [if_neg hj]
        · intro j
          unfold curvOf curIn
          cases hcu : (stor s a).current.get? j with
          | some v => rfl
          | none =>
            simp only
            unfold origIn
            simp only [AMap.get?_set]
            by_cases hj : j = k
            · subst hj
              simp only [if_true, hcm, hini, dbView, if_neg hne]
            · simp only [if_neg hj]

/-- The storage value a reader returns. -/
def storageView (db : StateReader) (s : IntraBlockState) (a k : Bytes) (original : Bool) : Bytes :=
  match curOf db s a with
  | none => zero32
  | some _ => if original then origOf db s a k else curvOf db s a k

theorem getStorage_eq (s : IntraBlockState) (a k : Bytes) (original : Bool) :
    ∃ s', getStorage db s a k original = (storageView db s a k original, s') ∧ Same db s s' := by
  obtain ⟨s1, h, hs⟩ := getObject_eq (db := db) s a
  unfold getStorage storageView
  rw [h]
  cases ho : effObj db s a with
  | none => exact ⟨s1, by simp [curOf, ho], hs⟩
  | some o =>
    have hc : curOf db s a = o.current := by unfold curOf; rw [ho]; rfl
    have hi : iniOf db s a = o.initial := by unfold iniOf; rw [ho]; rfl
    rw [hc]
    cases hcur : o.current with
    | none => exact ⟨s1, by simp [hcur], hs⟩
    | some c =>
      have hsame : Same db s1 { s1 with storage := s1.storage.set a (stor s1 a) } :=
        same_of_storage (fun _ => rfl) (fun _ => rfl)
      have hs2 := hs.trans hsame
      have hc2 := hs2.cur a
      have hi2 := hs2.ini a
      rw [hc, hcur] at hc2
      rw [hi] at hi2
      have hstor : stor s1 a = stor { s1 with storage := s1.storage.set a (stor s1 a) } a := by
        rw [stor_set, if_pos rfl]
      have hg := getCommitted_eq (db := db) { s1 with storage := s1.storage.set a (stor s1 a) } a k o.initial
        c.incarnation (stor s1 a) hi2 (by rw [← hc2]; rfl) hstor
      obtain ⟨s3, hg, hs3⟩ := hg
      cases original with
      | true =>
        refine ⟨s3, ?_, hs2.trans hs3⟩
        simp only [hcur, if_true]
        refine hg.trans ?_
        rw [← hs2.orig]
      | false =>
        simp only [hcur, Bool.false_eq_true, if_false]
        cases hcu : (stor s1 a).current.get? k with
        | some v =>
          refine ⟨_, ?_, hs2⟩
          have hv : curvOf db s1 a k = v := by unfold curvOf curIn; rw [hcu]
          rw [hs.curv, hv]
          unfold stor at hcu
          simp only [hcu, stor]
        | none =>
          refine ⟨s3, ?_, hs2.trans hs3⟩
          have hv : curvOf db s1 a k = origOf db s1 a k := by unfold curvOf curIn; rw [hcu]; rfl
          rw [hs.curv, hv, hsame.orig]
          have hcu' := hcu
          unfold stor at hcu'
          simp only [hcu']
          exact hg

end Silkworm.IntraBlockState
