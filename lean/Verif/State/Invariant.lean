import Verif.Spec.State
import Verif.State.Cells

/-!
# Invariants of the state

Helper lemmas: what holds of every state that safe operations can reach over a safe database.
-/

namespace Silkworm.IntraBlockState

open State Spec

variable {keccak : Bytes → Bytes} {db : StateReader}

/-- What holds of every cached object. `K` are the hashes of the codes held in memory. -/
structure ObjOk (db : StateReader) (K : Bytes → Prop) (a : Bytes) (o : Object) : Prop where
  initial : o.initial = db.readAccount a
  inc : ∀ c, o.current = some c → c.incarnation ≠ 0 →
    db.previousIncarnation a ≤ c.incarnation ∧ ∀ i, o.initial = some i → i.incarnation ≤ c.incarnation
  same : ∀ c i, o.current = some c → o.initial = some i → i.incarnation = c.incarnation → c.codeHash = i.codeHash
  fresh : ∀ c, o.current = some c → (∀ i, o.initial = some i → i.incarnation ≠ c.incarnation) →
    (c.codeHash = kEmptyHash ∨ K c.codeHash) ∧ ∀ k, db.readStorage a c.incarnation k = zero32
  plain : ∀ c, o.current = some c → c.incarnation = 0 → c.codeHash = kEmptyHash

theorem ObjOk.mono {K L : Bytes → Prop} (h : ∀ x, K x → L x) {a : Bytes} {o : Object} (ho : ObjOk db K a o) :
    ObjOk db L a o :=
  ⟨ho.initial, ho.inc, ho.same, fun c hc hf => ⟨(ho.fresh c hc hf).1.imp id (h _), (ho.fresh c hc hf).2⟩,
   ho.plain⟩

def StWF (st : Storage) : Prop := AMap.WF st.committed ∧ AMap.WF st.current

theorem StWF_empty : StWF {} := ⟨AMap.WF_nil, AMap.WF_nil⟩

/-- What holds of every journalled delta. -/
def DeltaOk (db : StateReader) (K : Bytes → Prop) : Delta → Prop
  | .update a o => ObjOk db K a o
  | .storageWipe _ st => StWF st
  | _ => True

theorem DeltaOk.mono {K L : Bytes → Prop} (h : ∀ x, K x → L x) {d : Delta} (hd : DeltaOk db K d) : DeltaOk db L d := by
  cases d with
  | update a o => exact ObjOk.mono h hd
  | storageWipe a st => exact hd
  | _ => trivial

/-- Objects, storage and journal are in order. -/
structure InvO (db : StateReader) (K : Bytes → Prop) (s : IntraBlockState) : Prop where
  objs : ∀ a o, s.objects.get? a = some o → ObjOk db K a o
  wfObjects : AMap.WF s.objects
  wfStorage : AMap.WF s.storage
  wfSt : ∀ a st, s.storage.get? a = some st → StWF st
  journal : ∀ d ∈ s.journal, DeltaOk db K d

theorem InvO.mono {K L : Bytes → Prop} (h : ∀ x, K x → L x) {s : IntraBlockState} (hs : InvO db K s) : InvO db L s :=
  ⟨fun a o ho => (hs.objs a o ho).mono h, hs.wfObjects, hs.wfStorage, hs.wfSt, fun d hd => (hs.journal d hd).mono h⟩

variable {K : Bytes → Prop}

theorem InvO.congr {s t : IntraBlockState} (h : InvO db K s) (h1 : t.objects = s.objects) (h2 : t.storage = s.storage)
    (h3 : ∀ d ∈ t.journal, DeltaOk db K d) : InvO db K t :=
  ⟨by rw [h1]; exact h.objs, by rw [h1]; exact h.wfObjects, by rw [h2]; exact h.wfStorage, by rw [h2]; exact h.wfSt, h3⟩

theorem InvO.push {s : IntraBlockState} (h : InvO db K s) {d : Delta} (hd : DeltaOk db K d) : InvO db K (s.push d) := by
  refine h.congr rfl rfl (fun e he => ?_)
  rcases List.mem_cons.mp he with rfl | he
  · exact hd
  · exact h.journal e he

theorem InvO.setObj {s : IntraBlockState} (h : InvO db K s) {a : Bytes} {o : Object} (ho : ObjOk db K a o) :
    InvO db K { s with objects := s.objects.set a o } := by
  refine ⟨fun b p hp => ?_, AMap.WF_set h.wfObjects a o, h.wfStorage, h.wfSt, h.journal⟩
  simp only [AMap.get?_set] at hp
  by_cases hb : b = a
  · subst hb; rw [if_pos rfl] at hp; cases hp; exact ho
  · rw [if_neg hb] at hp; exact h.objs b p hp

theorem InvO.eraseObj {s : IntraBlockState} (h : InvO db K s) (a : Bytes) :
    InvO db K { s with objects := s.objects.erase a } := by
  refine ⟨fun b p hp => ?_, AMap.WF_erase h.wfObjects a, h.wfStorage, h.wfSt, h.journal⟩
  simp only [AMap.get?_erase] at hp
  by_cases hb : b = a
  · rw [if_pos hb] at hp; cases hp
  · rw [if_neg hb] at hp; exact h.objs b p hp

theorem InvO.setStor {s : IntraBlockState} (h : InvO db K s) {a : Bytes} {st : Storage} (hst : StWF st) :
    InvO db K { s with storage := s.storage.set a st } := by
  refine ⟨h.objs, h.wfObjects, AMap.WF_set h.wfStorage a st, fun b p hp => ?_, h.journal⟩
  simp only [AMap.get?_set] at hp
  by_cases hb : b = a
  · rw [if_pos hb] at hp; cases hp; exact hst
  · rw [if_neg hb] at hp; exact h.wfSt b p hp

theorem InvO.eraseStor {s : IntraBlockState} (h : InvO db K s) (a : Bytes) :
    InvO db K { s with storage := s.storage.erase a } := by
  refine ⟨h.objs, h.wfObjects, AMap.WF_erase h.wfStorage a, fun b p hp => ?_, h.journal⟩
  simp only [AMap.get?_erase] at hp
  by_cases hb : b = a
  · rw [if_pos hb] at hp; cases hp
  · rw [if_neg hb] at hp; exact h.wfSt b p hp

theorem InvO.stWF {s : IntraBlockState} (h : InvO db K s) (a : Bytes) : StWF ((s.storage.get? a).getD {}) := by
  cases hs : s.storage.get? a with
  | none => exact StWF_empty
  | some st => exact h.wfSt a st hs

/-- An account just read from the database. -/
theorem objOk_read (hdb : SafeDb db) {a : Bytes} {x : Account} (h : db.readAccount a = some x) :
    ObjOk db K a { initial := some x, current := some x } := by
  refine ⟨h.symm, fun c hc hn => ?_, fun c i hc hi _ => ?_, fun c hc hf => ?_, fun c hc h0 => ?_⟩
  · simp only [Option.some.injEq] at hc
    subst hc
    refine ⟨hdb.previous a x h hn, fun i hi => ?_⟩
    simp only [Option.some.injEq] at hi
    rw [hi]
    exact Nat.le_refl _
  · simp only [Option.some.injEq] at hc hi
    rw [← hc, ← hi]
  · simp only [Option.some.injEq] at hc
    subst hc
    exact absurd rfl (hf x rfl)
  · simp only [Option.some.injEq] at hc
    subst hc
    exact hdb.plain a x h h0

/-- An object whose account is a new plain account. -/
theorem objOk_plain (hdb : SafeDb db) {a : Bytes} {o : Object} (h : o.initial = db.readAccount a) :
    ObjOk db K a { o with current := some {} } := by
  refine ⟨h, fun c hc hn => ?_, fun c i hc hi he => ?_, fun c hc hf => ?_, fun c hc _ => ?_⟩
  · simp only [Option.some.injEq] at hc
    subst hc
    exact absurd rfl hn
  · simp only [Option.some.injEq] at hc
    subst hc
    have hi' : o.initial = some i := hi
    rw [h] at hi'
    exact (hdb.plain a i hi' he).symm
  · simp only [Option.some.injEq] at hc
    subst hc
    exact ⟨Or.inl rfl, fun k => hdb.zero a k⟩
  · simp only [Option.some.injEq] at hc
    subst hc
    rfl

theorem getObject_invO (hdb : SafeDb db) {s : IntraBlockState} (h : InvO db K s) (a : Bytes) :
    InvO db K (getObject db s a).2 ∧ (∀ o, (getObject db s a).1 = some o → ObjOk db K a o) ∧
      ((getObject db s a).1 = none → db.readAccount a = none) := by
  unfold getObject
  cases hg : s.objects.get? a with
  | some o =>
    refine ⟨h, fun p hp => ?_, fun hn => by cases hn⟩
    cases hp
    exact h.objs a o hg
  | none =>
    cases hr : db.readAccount a with
    | none => exact ⟨h, fun p hp => (by cases hp), fun _ => rfl⟩
    | some x =>
      refine ⟨h.setObj (objOk_read hdb hr), fun p hp => ?_, fun hn => (by cases hn)⟩
      cases hp
      exact objOk_read hdb hr

theorem getOrCreateObject_invO (hdb : SafeDb db) {s : IntraBlockState} (h : InvO db K s) (a : Bytes) :
    InvO db K (getOrCreateObject db s a).2.2 ∧ ObjOk db K a (getOrCreateObject db s a).1 ∧
      (getOrCreateObject db s a).1.current = some (getOrCreateObject db s a).2.1 := by
  obtain ⟨h1, h2, h3⟩ := getObject_invO hdb h a
  unfold getOrCreateObject
  cases hg : getObject db s a with
  | mk o s1 =>
    rw [hg] at h1 h2 h3
    simp only at h1 h2 h3
    cases o with
    | none =>
      have hok : ObjOk db K a { current := some {} } := objOk_plain (o := {}) hdb (h3 rfl).symm
      exact ⟨(h1.setObj hok).push (d := .create a) trivial, hok, rfl⟩
    | some o =>
      have ho := h2 o rfl
      simp only
      cases hc : o.current with
      | none =>
        have hok : ObjOk db K a { o with current := some {} } := objOk_plain hdb ho.initial
        exact ⟨(h1.setObj hok).push (d := .update a o) ho, hok, rfl⟩
      | some c => exact ⟨h1, ho, hc⟩

/-- Changing balance or nonce. -/
theorem ObjOk.modify {a : Bytes} {o : Object} (h : ObjOk db K a o) {c : Account} (hc : o.current = some c) {c' : Account}
    (hi : c'.incarnation = c.incarnation) (hh : c'.codeHash = c.codeHash) : ObjOk db K a { o with current := some c' } := by
  refine ⟨h.initial, fun d hd hn => ?_, fun d i hd hi' he => ?_, fun d hd hf => ?_, fun d hd h0 => ?_⟩
  · simp only [Option.some.injEq] at hd
    subst hd
    rw [hi] at hn ⊢
    exact h.inc c hc hn
  · simp only [Option.some.injEq] at hd
    subst hd
    rw [hh]
    exact h.same c i hc hi' (by rw [← hi]; exact he)
  · simp only [Option.some.injEq] at hd
    subst hd
    rw [hh, hi]
    exact h.fresh c hc (fun i hi' => by rw [← hi]; exact hf i hi')
  · simp only [Option.some.injEq] at hd
    subst hd
    rw [hh]
    exact h.plain c hc (by rw [← hi]; exact h0)

theorem modifyCurrent_invO (hdb : SafeDb db) {s : IntraBlockState} (h : InvO db K s) (a : Bytes) (f : Account → Account)
    (hi : ∀ c, (f c).incarnation = c.incarnation) (hh : ∀ c, (f c).codeHash = c.codeHash) :
    InvO db K (modifyCurrent db s a f) := by
  obtain ⟨h1, h2, h3⟩ := getOrCreateObject_invO hdb h a
  unfold modifyCurrent
  cases hg : getOrCreateObject db s a with
  | mk o r =>
    obtain ⟨c, s1⟩ := r
    rw [hg] at h1 h2 h3
    simp only at h1 h2 h3 ⊢
    exact (h1.setObj (h2.modify h3 (hi c) (hh c))).push (d := .update a o) h2

theorem touch_invO {s : IntraBlockState} (h : InvO db K s) (a : Bytes) : InvO db K (touch s a) := by
  unfold touch
  by_cases hc : s.touched.contains a
  · rw [if_pos hc]; exact h
  · rw [if_neg hc]
    dsimp only
    by_cases hr : a ≠ kRipemdAddress
    · rw [if_pos hr]
      refine InvO.push (InvO.congr h ?_ ?_ ?_) (d := .touch a) trivial
      · rfl
      · rfl
      · exact h.journal
    · rw [if_neg hr]
      exact h.congr rfl rfl h.journal

theorem wipeStorage_invO {s : IntraBlockState} (h : InvO db K s) (a : Bytes) : InvO db K (wipeStorage s a) := by
  unfold wipeStorage
  cases hs : s.storage.get? a with
  | none => exact h.push (d := .storageCreate a) trivial
  | some st => exact (h.eraseStor a).push (d := .storageWipe a st) (h.wfSt a st hs)

/-- A created contract. -/
theorem objOk_created (hdb : SafeDb db) {a : Bytes} {ini : Option Account} {bal x : Nat} (hi : ini = db.readAccount a)
    (hx : x + 1 < 2 ^ 64) (hp : db.previousIncarnation a ≤ x) (hxi : ∀ i, ini = some i → i.incarnation ≤ x) :
    ObjOk db K a { initial := ini, current := some { balance := bal, incarnation := (x + 1) % 2 ^ 64 } } := by
  rw [Nat.mod_eq_of_lt hx]
  refine ⟨hi, fun c hc _ => ?_, fun c i hc hi' he => ?_, fun c hc _ => ?_, fun c hc _ => ?_⟩
  · simp only [Option.some.injEq] at hc
    subst hc
    exact ⟨Nat.le_succ_of_le hp, fun i hi' => Nat.le_succ_of_le (hxi i hi')⟩
  · simp only [Option.some.injEq] at hc
    subst hc
    have := hxi i hi'
    simp only at he
    omega
  · simp only [Option.some.injEq] at hc
    subst hc
    refine ⟨Or.inl rfl, fun k => hdb.fresh a _ k (by simp only; omega) (fun i hi' => ?_)⟩
    have := hxi i (by rw [hi]; exact hi')
    simp only
    omega
  · simp only [Option.some.injEq] at hc
    subst hc
    rfl

/-- The incarnation of a created contract is new. -/
theorem created_bounds (hdb : SafeDb db) {a : Bytes} {o : Object} (ho : ObjOk db K a o)
    (hs1 : ∀ c i, o.current = some c → o.initial = some i → c.incarnation = 0 → i.incarnation = 0)
    (hs2 : ∀ c, o.current = some c → c.incarnation + 1 < 2 ^ 64) :
    fallbackIncarnation db a (objectIncarnation o) + 1 < 2 ^ 64 ∧
      db.previousIncarnation a ≤ fallbackIncarnation db a (objectIncarnation o) ∧
      ∀ i, o.initial = some i → i.incarnation ≤ fallbackIncarnation db a (objectIncarnation o) := by
  have hb := hdb.bound a
  unfold fallbackIncarnation objectIncarnation
  cases hc : o.current with
  | some c =>
    simp only
    by_cases h0 : c.incarnation = 0
    · rw [if_pos h0]
      exact ⟨hb.1, Nat.le_refl _, fun i hi => by rw [hs1 c i hc hi h0]; exact Nat.zero_le _⟩
    · rw [if_neg h0]
      exact ⟨hs2 c hc, (ho.inc c hc h0).1, fun i hi => (ho.inc c hc h0).2 i hi⟩
  | none =>
    simp only
    cases hi : o.initial with
    | none => exact ⟨hb.1, Nat.le_refl _, fun i hi => (by cases hi)⟩
    | some i =>
      simp only [Option.map_some]
      have hi' := hi
      rw [ho.initial] at hi'
      by_cases h0 : i.incarnation = 0
      · rw [if_pos h0]
        refine ⟨hb.1, Nat.le_refl _, fun j hj => ?_⟩
        cases hj
        rw [h0]; exact Nat.zero_le _
      · rw [if_neg h0]
        refine ⟨hb.2 i hi', hdb.previous a i hi' h0, fun j hj => ?_⟩
        cases hj
        exact Nat.le_refl _

theorem createContract_invO (hdb : SafeDb db) {s : IntraBlockState} (h : InvO db K s) (a : Bytes)
    (hs : SafeCreate db s a) : InvO db K (createContract db s a) := by
  obtain ⟨h1, h2, h3⟩ := getObject_invO hdb h a
  unfold createContract
  unfold SafeCreate at hs
  cases hg : getObject db s a with
  | mk o s1 =>
    rw [hg] at h1 h2 h3 hs
    simp only at h1 h2 h3 hs
    cases o with
    | none =>
      have hok : ObjOk db K a { current := some { incarnation := (fallbackIncarnation db a none + 1) % 2 ^ 64 } } :=
        objOk_created (bal := 0) hdb (h3 rfl).symm (hdb.bound a).1 (Nat.le_refl _) (fun i hi => by cases hi)
      exact wipeStorage_invO ((h1.setObj hok).push (d := .create a) trivial) a
    | some o =>
      have ho := h2 o rfl
      obtain ⟨hs1, hs2⟩ := hs o rfl
      obtain ⟨b1, b2, b3⟩ := created_bounds hdb ho hs1 hs2
      let c' : Account :=
        { balance := objectBalance o,
          incarnation := (fallbackIncarnation db a (objectIncarnation o) + 1) % 2 ^ 64 }
      have hok : ObjOk db K a { initial := o.initial, current := some c' } := objOk_created hdb ho.initial b1 b2 b3
      exact wipeStorage_invO ((h1.setObj hok).push (d := .update a o) ho) a

theorem recordSuicide_invO {s : IntraBlockState} (h : InvO db K s) (a : Bytes) : InvO db K (recordSuicide s a) := by
  unfold recordSuicide
  by_cases hc : s.selfDestructs.contains a
  · rw [if_pos hc]; exact h
  · rw [if_neg hc]
    refine h.congr rfl rfl (fun d hd => ?_)
    exact (h.push (d := .suicide a) trivial).journal d hd

theorem accessAccount_invO {s : IntraBlockState} (h : InvO db K s) (a : Bytes) : InvO db K (accessAccount s a).2 := by
  unfold accessAccount
  by_cases hc : s.accessedAddresses.contains a
  · rw [if_pos hc]; exact h
  · rw [if_neg hc]
    refine h.congr rfl rfl (fun d hd => ?_)
    exact (h.push (d := .accountAccess a) trivial).journal d hd

theorem accessStorage_invO {s : IntraBlockState} (h : InvO db K s) (a k : Bytes) : InvO db K (accessStorage s a k).2 := by
  unfold accessStorage
  by_cases hc : ((s.accessedStorageKeys.get? a).getD []).contains k
  · simp only [if_pos hc]; exact h.congr rfl rfl h.journal
  · simp only [if_neg hc]
    refine h.congr rfl rfl (fun d hd => ?_)
    exact (h.push (d := .storageAccess a k) trivial).journal d hd

theorem getCommitted_invO {s : IntraBlockState} (h : InvO db K s) (a k : Bytes) (i : Option Account) (inc : Nat)
    {st : Storage} (hst : StWF st) : InvO db K (getCommitted db s a k i inc st).2 := by
  unfold getCommitted
  cases st.committed.get? k with
  | some e => exact h
  | none =>
    cases i with
    | none => exact h
    | some i =>
      simp only
      by_cases hn : i.incarnation ≠ inc
      · rw [if_pos hn]; exact h
      · rw [if_neg hn]
        exact h.setStor ⟨AMap.WF_set hst.1 _ _, hst.2⟩

theorem getStorage_invO (hdb : SafeDb db) {s : IntraBlockState} (h : InvO db K s) (a k : Bytes) (original : Bool) :
    InvO db K (getStorage db s a k original).2 := by
  obtain ⟨h1, _, _⟩ := getObject_invO hdb h a
  unfold getStorage
  cases hg : getObject db s a with
  | mk o s1 =>
    rw [hg] at h1
    cases o with
    | none => exact h1
    | some o =>
      simp only
      cases o.current with
      | none => exact h1
      | some c =>
        simp only
        have hst := h1.stWF a
        have h2 := h1.setStor (a := a) hst
        cases original with
        | true => simp only [if_true]; exact getCommitted_invO h2 a k _ _ hst
        | false =>
          simp only [Bool.false_eq_true, if_false]
          cases ((s1.storage.get? a).getD {}).current.get? k with
          | some v => exact h2
          | none => exact getCommitted_invO h2 a k _ _ hst

theorem setStorage_invO (hdb : SafeDb db) {s : IntraBlockState} (h : InvO db K s) (a k v : Bytes) :
    InvO db K (setStorage db s a k v) := by
  have h1 := getStorage_invO hdb h a k false
  unfold setStorage getCurrentStorage
  cases hg : getStorage db s a k false with
  | mk p s1 =>
    rw [hg] at h1
    simp only at h1 ⊢
    by_cases hp : p = v
    · rw [if_pos hp]; exact h1
    · rw [if_neg hp]
      have hst := h1.stWF a
      exact (h1.setStor (a := a) (st := { ((s1.storage.get? a).getD {}) with
        current := ((s1.storage.get? a).getD {}).current.set k v }) ⟨hst.1, AMap.WF_set hst.2 k v⟩).push
        (d := .storageChange a k p) trivial

/-- The hashes of the codes in memory. -/
def Known (s : IntraBlockState) (h : Bytes) : Prop := ∃ x, s.code.get? h = some x

theorem getObject_code (s : IntraBlockState) (a : Bytes) : (getObject db s a).2.code = s.code :=
  (getObject_keeps s a).code

theorem setCode_invO (hdb : SafeDb db) {s : IntraBlockState} (h : InvO db (Known s) s) (a code : Bytes)
    (hs : SafeCode db s a) : InvO db (Known (setCode keccak db s a code)) (setCode keccak db s a code) ∧
      ∀ x, Known s x → Known (setCode keccak db s a code) x := by
  let L : Bytes → Prop := fun x => Known s x ∨ x = keccak code
  have hL := h.mono (L := L) (fun x hx => Or.inl hx)
  have hcode := (modifyCurrent_keeps (db := db) s a (fun c => { c with codeHash := keccak code })).code
  have h1 : InvO db L (modifyCurrent db s a (fun c => { c with codeHash := keccak code })) := by
    obtain ⟨o, c, hg1, hc, hnz, hne⟩ := hs
    obtain ⟨k1, k2, _⟩ := getObject_invO hdb hL a
    unfold modifyCurrent getOrCreateObject
    cases hg : getObject db s a with
    | mk p s1 =>
      rw [hg] at k1 k2 hg1
      simp only at k1 k2 hg1
      subst hg1
      have ho := k2 o rfl
      simp only [hc]
      refine InvO.push (InvO.setObj k1 ?_) (d := .update a o) ho
      refine ⟨ho.initial, fun d hd hn => ?_, fun d i hd hi he => ?_, fun d hd hf => ?_, fun d hd h0 => ?_⟩
      · simp only [Option.some.injEq] at hd
        subst hd
        exact ho.inc c hc hn
      · simp only [Option.some.injEq] at hd
        subst hd
        exact absurd he (hne i hi)
      · simp only [Option.some.injEq] at hd
        subst hd
        exact ⟨Or.inr (Or.inr rfl), (ho.fresh c hc hne).2⟩
      · simp only [Option.some.injEq] at hd
        subst hd
        exact absurd h0 hnz
  have hk : ∀ x, L x → Known (setCode keccak db s a code) x := by
    unfold setCode
    simp only
    generalize modifyCurrent db s a (fun c => { c with codeHash := keccak code }) = s1 at hcode
    intro x hx
    unfold Known
    cases hg : s1.code.get? (keccak code) with
    | some y =>
      simp only
      rcases hx with ⟨z, hz⟩ | rfl
      · exact ⟨z, by rw [hcode]; exact hz⟩
      · exact ⟨y, hg⟩
    | none =>
      simp only [AMap.get?_set]
      by_cases he : x = keccak code
      · exact ⟨code, by rw [if_pos he]⟩
      · rw [if_neg he]
        rcases hx with ⟨z, hz⟩ | hx
        · exact ⟨z, by rw [hcode]; exact hz⟩
        · exact absurd hx he
  refine ⟨?_, fun x hx => hk x (Or.inl hx)⟩
  refine InvO.mono hk ?_
  unfold setCode
  simp only
  generalize modifyCurrent db s a (fun c => { c with codeHash := keccak code }) = s1 at h1
  cases s1.code.get? (keccak code) with
  | some y => exact h1
  | none => exact h1.congr rfl rfl h1.journal

theorem getCode_invO (hdb : SafeDb db) {s : IntraBlockState} (h : InvO db (Known s) s) (a : Bytes) :
    InvO db (Known (getCode db s a).2) (getCode db s a).2 ∧ ∀ x, Known s x → Known (getCode db s a).2 x := by
  obtain ⟨h1, _, _⟩ := getObject_invO hdb h a
  have hc := getObject_code (db := db) s a
  unfold getCode
  cases hg : getObject db s a with
  | mk o s1 =>
    rw [hg] at h1 hc
    simp only at h1 hc
    have hsame : ∀ x, Known s x → Known s1 x := fun x ⟨y, hy⟩ => ⟨y, by rw [hc]; exact hy⟩
    cases o with
    | none => exact ⟨h1.mono hsame, hsame⟩
    | some o =>
      simp only
      cases o.current with
      | none => exact ⟨h1.mono hsame, hsame⟩
      | some c =>
        simp only
        by_cases he : c.codeHash = kEmptyHash
        · rw [if_pos he]; exact ⟨h1.mono hsame, hsame⟩
        · rw [if_neg he]
          cases hl : s1.code.get? c.codeHash with
          | some y => exact ⟨h1.mono hsame, hsame⟩
          | none =>
            simp only
            have hk : ∀ x, Known s x → Known { s1 with code := s1.code.set c.codeHash (db.readCode c.codeHash) } x := by
              rintro x ⟨y, hy⟩
              unfold Known
              simp only [AMap.get?_set]
              by_cases hx : x = c.codeHash
              · exact ⟨_, by rw [if_pos hx]⟩
              · exact ⟨y, by rw [if_neg hx, hc]; exact hy⟩
            exact ⟨(h1.mono hk).congr rfl rfl (h1.mono hk).journal, hk⟩

/-- Undoing keeps everything in order. -/
theorem revert_invO {s : IntraBlockState} (h : InvO db K s) {d : Delta} (hd : DeltaOk db K d) : InvO db K (d.revert s) := by
  cases d with
  | create a => exact h.eraseObj a
  | update a o => exact h.setObj hd
  | suicide a => exact h.congr rfl rfl h.journal
  | touch a => exact h.congr rfl rfl h.journal
  | storageChange a k v =>
    have hst := h.stWF a
    exact h.setStor ⟨hst.1, AMap.WF_set hst.2 k v⟩
  | storageWipe a st => exact h.setStor hd
  | storageCreate a => exact h.eraseStor a
  | storageAccess a k => exact h.congr rfl rfl h.journal
  | accountAccess a => exact h.congr rfl rfl h.journal

theorem undo_invO {s : IntraBlockState} (ds : List Delta) (h : InvO db K s) (hd : ∀ d ∈ ds, DeltaOk db K d) :
    InvO db K (undo ds s) := by
  induction ds generalizing s with
  | nil => exact h
  | cons d ds ih =>
    exact ih (revert_invO h (hd d List.mem_cons_self)) (fun e he => hd e (List.mem_cons_of_mem _ he))

theorem revert_code (d : Delta) (s : IntraBlockState) : (d.revert s).code = s.code := by cases d <;> rfl

theorem undo_code (ds : List Delta) (s : IntraBlockState) : (undo ds s).code = s.code := by
  induction ds generalizing s with
  | nil => rfl
  | cons d ds ih => exact (ih (d.revert s)).trans (revert_code d s)

theorem revert_journal (d : Delta) (s : IntraBlockState) : (d.revert s).journal = s.journal := by cases d <;> rfl

theorem undo_journal (ds : List Delta) (s : IntraBlockState) : (undo ds s).journal = s.journal := by
  induction ds generalizing s with
  | nil => rfl
  | cons d ds ih => exact (ih (d.revert s)).trans (revert_journal d s)

/-- Everything that holds of reachable states. -/
structure Inv (db : StateReader) (s : IntraBlockState) : Prop where
  order : InvO db (Known s) s
  cells : ∀ a, CellInv db a (cell s a)

/-- From `s` to `s'`. -/
structure StepInv (db : StateReader) (s s' : IntraBlockState) : Prop where
  inv : Inv db s → Inv db s'
  und : UndC db s s'
  known : ∀ x, Known s x → Known s' x

theorem StepInv.refl (s : IntraBlockState) : StepInv db s s := ⟨fun h => h, UndC.refl s, fun _ h => h⟩

theorem StepInv.trans {s t u : IntraBlockState} (h : StepInv db s t) (g : StepInv db t u) : StepInv db s u :=
  ⟨fun x => g.inv (h.inv x), h.und.trans g.und, fun x hx => g.known x (h.known x hx)⟩

theorem StepInv.of_code {s s' : IntraBlockState} (hc : s'.code = s.code) (h1 : ∀ K, InvO db K s → InvO db K s')
    (h2 : CellStep db s s') : StepInv db s s' := by
  have hk : Known s' = Known s := by unfold Known; rw [hc]
  refine ⟨fun h => ⟨?_, h2.inv h.cells⟩, h2.und, fun x hx => by rw [hk]; exact hx⟩
  rw [hk]
  exact h1 _ h.order

/-- Readers that only look at an object. -/
theorem getObject_stepInv (hdb : SafeDb db) (s : IntraBlockState) (a : Bytes) : StepInv db s (getObject db s a).2 := by
  obtain ⟨h1, h2, _, _⟩ := getObject_cell (db := db) s a
  exact .of_code (getObject_code s a) (fun K h => (getObject_invO hdb h a).1) (.of_ext h1 h2)

theorem exists?_snd (s : IntraBlockState) (a : Bytes) : (exists? db s a).2 = (getObject db s a).2 := by
  unfold exists?
  cases getObject db s a with
  | mk o s1 => cases o <;> rfl

theorem isDead_snd (s : IntraBlockState) (a : Bytes) : (isDead db s a).2 = (getObject db s a).2 := by
  unfold isDead
  cases getObject db s a with
  | mk o s1 =>
    cases o with
    | none => rfl
    | some o => simp only; cases o.current <;> rfl

theorem getBalance_snd (s : IntraBlockState) (a : Bytes) : (getBalance db s a).2 = (getObject db s a).2 := by
  unfold getBalance
  cases getObject db s a with
  | mk o s1 =>
    cases o with
    | none => rfl
    | some o => simp only; cases o.current <;> rfl

theorem getNonce_snd (s : IntraBlockState) (a : Bytes) : (getNonce db s a).2 = (getObject db s a).2 := by
  unfold getNonce
  cases getObject db s a with
  | mk o s1 =>
    cases o with
    | none => rfl
    | some o => simp only; cases o.current <;> rfl

theorem getCodeHash_snd (s : IntraBlockState) (a : Bytes) : (getCodeHash db s a).2 = (getObject db s a).2 := by
  unfold getCodeHash
  cases getObject db s a with
  | mk o s1 =>
    cases o with
    | none => rfl
    | some o => simp only; cases o.current <;> rfl

/-- The code reader changes the code cache only. -/
theorem getCode_snd (s : IntraBlockState) (a : Bytes) :
    (getCode db s a).2.objects = (getObject db s a).2.objects ∧ (getCode db s a).2.storage = (getObject db s a).2.storage ∧
      (getCode db s a).2.journal = (getObject db s a).2.journal := by
  unfold getCode
  cases getObject db s a with
  | mk o s1 =>
    cases o with
    | none => exact ⟨rfl, rfl, rfl⟩
    | some o =>
      simp only
      cases o.current with
      | none => exact ⟨rfl, rfl, rfl⟩
      | some c =>
        simp only
        by_cases he : c.codeHash = kEmptyHash
        · rw [if_pos he]; exact ⟨rfl, rfl, rfl⟩
        · rw [if_neg he]
          cases s1.code.get? c.codeHash <;> exact ⟨rfl, rfl, rfl⟩

theorem cacheExt_trans_eq {s t u : IntraBlockState} (h : CacheExt db s t) (h1 : u.objects = t.objects)
    (h2 : u.storage = t.storage) : CacheExt db s u := h.trans (cacheExt_of_eq h1 h2)

theorem modifyCurrent_stepInv (hdb : SafeDb db) (s : IntraBlockState) (a : Bytes) (f : Account → Account)
    (hi : ∀ c, (f c).incarnation = c.incarnation) (hh : ∀ c, (f c).codeHash = c.codeHash) :
    StepInv db s (modifyCurrent db s a f) :=
  .of_code (modifyCurrent_keeps s a f).code (fun _ h => modifyCurrent_invO hdb h a f hi hh) (modifyCurrent_cell s a f hi)

theorem touch_stepInv (s : IntraBlockState) (a : Bytes) : StepInv db s (touch s a) :=
  .of_code (touch_keeps s a).code (fun _ h => touch_invO h a) (touch_cell s a)

theorem step_inv (hdb : SafeDb db) (s : IntraBlockState) (o : Op) (hs : SafeOp db o s) (hi : Inv db s) :
    Inv db (o.step keccak db s).2 ∧ UndC db s (o.step keccak db s).2 := by
  have fin : ∀ {t}, StepInv db s t → Inv db t ∧ UndC db s t := fun h => ⟨h.inv hi, h.und⟩
  cases o with
  | doesExist a => exact fin (by simp only [Op.step]; rw [exists?_snd]; exact getObject_stepInv hdb s a)
  | isDead a => exact fin (by simp only [Op.step]; rw [isDead_snd]; exact getObject_stepInv hdb s a)
  | createContract a =>
    have h2 := createContract_cell (db := db) s a
    have hk : Known (createContract db s a) = Known s := by unfold Known; rw [(createContract_keeps s a).code]
    refine ⟨⟨?_, h2.inv hi.cells⟩, h2.und⟩
    simp only [Op.step]
    rw [hk]
    exact createContract_invO hdb hi.order a hs
  | recordSuicide a =>
    refine fin (.of_code ?_ (fun _ h => recordSuicide_invO h a) (recordSuicide_cell s a))
    show (IntraBlockState.recordSuicide s a).code = s.code
    unfold IntraBlockState.recordSuicide
    by_cases hc : s.selfDestructs.contains a
    · rw [if_pos hc]
    · rw [if_neg hc]; rfl
  | touch a => exact fin (touch_stepInv s a)
  | getBalance a => exact fin (by simp only [Op.step]; rw [getBalance_snd]; exact getObject_stepInv hdb s a)
  | setBalance a v =>
    exact fin ((modifyCurrent_stepInv hdb s a (fun c => { c with balance := v }) (fun _ => rfl) (fun _ => rfl)).trans
      (touch_stepInv _ a))
  | addToBalance a v =>
    exact fin ((modifyCurrent_stepInv hdb s a (fun c => { c with balance := (c.balance + v) % 2 ^ 256 }) (fun _ => rfl)
      (fun _ => rfl)).trans (touch_stepInv _ a))
  | subtractFromBalance a v =>
    exact fin ((modifyCurrent_stepInv hdb s a
      (fun c => { c with balance := (c.balance + (2 ^ 256 - v % 2 ^ 256)) % 2 ^ 256 }) (fun _ => rfl)
      (fun _ => rfl)).trans (touch_stepInv _ a))
  | getNonce a => exact fin (by simp only [Op.step]; rw [getNonce_snd]; exact getObject_stepInv hdb s a)
  | setNonce a n =>
    exact fin (modifyCurrent_stepInv hdb s a (fun c => { c with nonce := n }) (fun _ => rfl) (fun _ => rfl))
  | getCode a =>
    obtain ⟨e1, e2, e3⟩ := getCode_snd (db := db) s a
    obtain ⟨h1, h2, _, _⟩ := getObject_cell (db := db) s a
    have hx : CacheExt db s (getCode db s a).2 := cacheExt_trans_eq h1 e1 e2
    exact ⟨⟨(getCode_invO hdb hi.order a).1, fun b => (hi.cells b).ext (hx b)⟩, .of_ext hx (e3.trans h2)⟩
  | getCodeHash a => exact fin (by simp only [Op.step]; rw [getCodeHash_snd]; exact getObject_stepInv hdb s a)
  | setCode a code =>
    obtain ⟨h1, _⟩ := setCode_invO (keccak := keccak) hdb hi.order a code hs
    have h2 : CellStep db s (setCode keccak db s a code) := by
      refine (modifyCurrent_cell s a (fun c => { c with codeHash := keccak code }) (fun _ => rfl)).trans ?_
      unfold setCode
      simp only
      generalize modifyCurrent db s a (fun c => { c with codeHash := keccak code }) = s1
      cases s1.code.get? (keccak code) with
      | some y => exact CellStep.refl s1
      | none => exact .of_ext (cacheExt_of_eq rfl rfl) rfl
    exact ⟨⟨h1, h2.inv hi.cells⟩, h2.und⟩
  | accessAccount a =>
    refine fin (.of_code ?_ (fun _ h => accessAccount_invO h a) (accessAccount_cell s a))
    show (IntraBlockState.accessAccount s a).2.code = s.code
    unfold IntraBlockState.accessAccount
    by_cases hc : s.accessedAddresses.contains a
    · rw [if_pos hc]
    · rw [if_neg hc]; rfl
  | accessStorage a k =>
    refine fin (.of_code ?_ (fun _ h => accessStorage_invO h a k) (accessStorage_cell s a k))
    show (IntraBlockState.accessStorage s a k).2.code = s.code
    unfold IntraBlockState.accessStorage
    by_cases hc : ((s.accessedStorageKeys.get? a).getD []).contains k
    · simp only [if_pos hc]
    · simp only [if_neg hc]; rfl
  | getCurrentStorage a k =>
    obtain ⟨h1, h2, _, _⟩ := getStorage_cell hdb.zero s a k false
    exact fin (.of_code (getStorage_keeps s a k false).code (fun _ h => getStorage_invO hdb h a k false) (.of_ext h1 h2))
  | getOriginalStorage a k =>
    obtain ⟨h1, h2, _, _⟩ := getStorage_cell hdb.zero s a k true
    exact fin (.of_code (getStorage_keeps s a k true).code (fun _ h => getStorage_invO hdb h a k true) (.of_ext h1 h2))
  | setStorage a k v =>
    exact fin (.of_code (setStorage_keeps s a k v).code (fun _ h => setStorage_invO hdb h a k v)
      (setStorage_cell hdb.zero s a k v))
  | addLog l => exact fin (.of_code rfl (fun _ h => h.congr rfl rfl h.journal) (.of_ext (cacheExt_of_eq rfl rfl) rfl))
  | addRefund n => exact fin (.of_code rfl (fun _ h => h.congr rfl rfl h.journal) (.of_ext (cacheExt_of_eq rfl rfl) rfl))
  | subtractRefund n =>
    exact fin (.of_code rfl (fun _ h => h.congr rfl rfl h.journal) (.of_ext (cacheExt_of_eq rfl rfl) rfl))
  | getRefund => exact fin (StepInv.refl s)

/-- What reverting does to objects, storage, code and journal. -/
theorem revertToSnapshot_parts {s t : IntraBlockState} {ds : List Delta} (hj : t.journal = ds ++ s.journal) :
    (t.revertToSnapshot s.takeSnapshot).objects = (undo ds t).objects ∧
    (t.revertToSnapshot s.takeSnapshot).storage = (undo ds t).storage ∧
    (t.revertToSnapshot s.takeSnapshot).code = t.code ∧
    (t.revertToSnapshot s.takeSnapshot).journal = s.journal := by
  have hl : t.journal.length - s.journal.length = ds.length := by rw [hj, List.length_append]; omega
  have e1 : t.journal.take (t.journal.length - s.journal.length) = ds := by rw [hl, hj]; simp
  have e2 : t.journal.drop (t.journal.length - s.journal.length) = s.journal := by rw [hl, hj]; simp
  unfold revertToSnapshot takeSnapshot
  simp only
  rw [e1, e2]
  exact ⟨rfl, rfl, undo_code ds t, rfl⟩

theorem revert_inv {s t : IntraBlockState} (hs : Inv db s) (ht : Inv db t) (hu : UndC db s t) :
    Inv db (t.revertToSnapshot s.takeSnapshot) ∧ UndC db s (t.revertToSnapshot s.takeSnapshot) := by
  obtain ⟨ds, hj, hd⟩ := hu
  obtain ⟨e1, e2, e3, e4⟩ := revertToSnapshot_parts hj
  have hx : CacheExt db s (t.revertToSnapshot s.takeSnapshot) := cacheExt_trans_eq (hd t (CacheExt.refl t)) e1 e2
  have hk : Known (t.revertToSnapshot s.takeSnapshot) = Known t := by unfold Known; rw [e3]
  refine ⟨⟨?_, fun a => (hs.cells a).ext (hx a)⟩, .of_ext hx e4⟩
  rw [hk]
  have h1 : InvO db (Known t) (undo ds t) :=
    undo_invO ds ht.order (fun d hd' => ht.order.journal d (by rw [hj]; exact List.mem_append_left _ hd'))
  refine h1.congr e1 e2 (fun d hd' => ?_)
  rw [e4] at hd'
  exact ht.order.journal d (by rw [hj]; exact List.mem_append_right _ hd')

theorem run_inv (hdb : SafeDb db) (p : Trace) {s : IntraBlockState} (hs : p.All keccak db (SafeOp db) s) (hi : Inv db s) :
    Inv db (p.run keccak db s).2 ∧ UndC db s (p.run keccak db s).2 := by
  induction p generalizing s with
  | nil => exact ⟨hi, UndC.refl s⟩
  | op o rest ih =>
    obtain ⟨h1, h2⟩ := step_inv (keccak := keccak) hdb s o hs.1 hi
    obtain ⟨h3, h4⟩ := ih hs.2 h1
    exact ⟨h3, h2.trans h4⟩
  | scope body revert rest ihb ihr =>
    obtain ⟨h1, h2⟩ := ihb hs.1 hi
    cases revert with
    | false =>
      obtain ⟨h3, h4⟩ := ihr hs.2 h1
      exact ⟨h3, h2.trans h4⟩
    | true =>
      obtain ⟨h5, h6⟩ := revert_inv hi h1 h2
      obtain ⟨h3, h4⟩ := ihr hs.2 h5
      exact ⟨h3, h6.trans h4⟩

theorem objOk_destroyed {a : Bytes} {o : Object} (h : ObjOk db K a o) : ObjOk db K a { o with current := none } :=
  ⟨h.initial, fun c hc => (by cases hc), fun c i hc => (by cases hc), fun c hc => (by cases hc), fun c hc => (by cases hc)⟩

theorem cells_eraseStor {s : IntraBlockState} (h : ∀ b, CellInv db b (cell s b)) (a : Bytes) :
    ∀ b, CellInv db b (cell { s with storage := s.storage.erase a } b) := by
  intro b
  have : cell { s with storage := s.storage.erase a } b = if b = a then (s.objects.get? a, none) else cell s b := by
    unfold cell
    simp only [AMap.get?_erase]
    by_cases hb : b = a
    · subst hb; rw [if_pos rfl, if_pos rfl]
    · rw [if_neg hb, if_neg hb]
  rw [this]
  by_cases hb : b = a
  · rw [if_pos hb]
    exact ⟨fun k e he => (by simp at he), fun k v hv => (by simp at hv), fun h => absurd rfl h⟩
  · rw [if_neg hb]; exact h b

theorem destruct_inv (hdb : SafeDb db) {s : IntraBlockState} (hi : Inv db s) (a : Bytes) : Inv db (destruct db s a) := by
  have hc : (destruct db s a).code = s.code := by
    have h := (getObject_keeps (db := db) { s with storage := s.storage.erase a } a).code
    unfold destruct
    cases hg : getObject db { s with storage := s.storage.erase a } a with
    | mk o s1 => rw [hg] at h; cases o <;> exact h
  have hk : Known (destruct db s a) = Known s := by unfold Known; rw [hc]
  have h0 : InvO db (Known s) { s with storage := s.storage.erase a } := hi.order.eraseStor a
  obtain ⟨h1, h2, _⟩ := getObject_invO hdb h0 a
  obtain ⟨k1, _, k3, k4⟩ := getObject_cell (db := db) { s with storage := s.storage.erase a } a
  have hcells := cells_eraseStor hi.cells a
  have hcells1 := fun b => (hcells b).ext (k1 b)
  refine ⟨?_, ?_⟩
  · rw [hk]
    unfold destruct
    cases hg : getObject db { s with storage := s.storage.erase a } a with
    | mk o s1 =>
      rw [hg] at h1 h2
      cases o with
      | none => exact h1
      | some o => exact h1.setObj (objOk_destroyed (h2 o rfl))
  · unfold destruct
    cases hg : getObject db { s with storage := s.storage.erase a } a with
    | mk o s1 =>
      rw [hg] at hcells1 k4
      simp only at k4 hcells1
      cases o with
      | none => exact hcells1
      | some o =>
        intro b
        simp only
        rw [cell_setObj]
        by_cases hb : b = a
        · subst hb
          rw [if_pos rfl, k4]
          simp only [AMap.get?_erase_self]
          exact ⟨fun k e he => (by simp at he), fun k v hv => (by simp at hv), fun h => absurd rfl h⟩
        · rw [if_neg hb]; exact hcells1 b

theorem foldl_destruct_inv (hdb : SafeDb db) (l : List Bytes) {s : IntraBlockState} (hi : Inv db s) :
    Inv db (l.foldl (fun s a => destruct db s a) s) := by
  induction l generalizing s with
  | nil => exact hi
  | cons a l ih => exact ih (destruct_inv hdb hi a)

theorem foldl_touched_inv (hdb : SafeDb db) (l : List Bytes) {s : IntraBlockState} (hi : Inv db s) :
    Inv db (l.foldl (fun s a => match isDead db s a with | (true, s) => destruct db s a | (false, s) => s) s) := by
  induction l generalizing s with
  | nil => exact hi
  | cons a l ih =>
    refine ih ?_
    have h1 : Inv db (isDead db s a).2 := by rw [isDead_snd]; exact (getObject_stepInv hdb s a).inv hi
    simp only
    cases hg : isDead db s a with
    | mk r s1 =>
      rw [hg] at h1
      cases r with
      | true => exact destruct_inv hdb h1 a
      | false => exact h1

theorem foldr_commitValue (cur : AMap Bytes Bytes) (cm : AMap Bytes CommittedValue) (h : AMap.WF cm) :
    AMap.WF (cur.foldr commitValue cm) ∧ ∀ k e, (cur.foldr commitValue cm).get? k = some e →
      (∃ e0, cm.get? k = some e0 ∧ e.initial = e0.initial) ∨
        (cm.get? k = none ∧ (∃ v, cur.get? k = some v) ∧ e.initial = zero32) := by
  induction cur with
  | nil => exact ⟨h, fun k e he => Or.inl ⟨e, he, rfl⟩⟩
  | cons x cur ih =>
    obtain ⟨ih1, ih2⟩ := ih
    rw [List.foldr_cons]
    generalize hm : cur.foldr commitValue cm = m at ih1 ih2
    refine ⟨AMap.WF_set ih1 _ _, fun k e he => ?_⟩
    unfold commitValue at he
    simp only [AMap.get?_set] at he
    by_cases hk : k = x.1
    · rw [if_pos hk] at he
      cases he
      simp only
      cases hf : m.get? x.1 with
      | some e1 =>
        rcases ih2 x.1 e1 hf with ⟨e0, h0, h1⟩ | ⟨h0, h1, h2⟩
        · exact Or.inl ⟨e0, by rw [hk]; exact h0, h1⟩
        · exact Or.inr ⟨by rw [hk]; exact h0, ⟨x.2, by rw [AMap.get?_cons, if_pos hk.symm]⟩, h2⟩
      | none =>
        have hcm : cm.get? x.1 = none := by
          have hmono : ∀ (cur : AMap Bytes Bytes) (j : Bytes), (cur.foldr commitValue cm).get? j = none → cm.get? j = none := by
            intro cur
            induction cur with
            | nil => exact fun _ h => h
            | cons y cur ih' =>
              intro j hj
              rw [List.foldr_cons] at hj
              unfold commitValue at hj
              simp only [AMap.get?_set] at hj
              by_cases hjy : j = y.1
              · rw [if_pos hjy] at hj; cases hj
              · rw [if_neg hjy] at hj; exact ih' j hj
          exact hmono cur x.1 (by rw [hm]; exact hf)
        exact Or.inr ⟨by rw [hk]; exact hcm, ⟨x.2, by rw [AMap.get?_cons, if_pos hk.symm]⟩, rfl⟩
    · rw [if_neg hk] at he
      rcases ih2 k e he with h0 | ⟨h0, ⟨v, h1⟩, h2⟩
      · exact Or.inl h0
      · exact Or.inr ⟨h0, ⟨v, by rw [AMap.get?_cons, if_neg (fun h => hk h.symm)]; exact h1⟩, h2⟩

theorem get?_map_values {V : Type} (m : AMap Bytes V) (f : V → V) (a : Bytes) :
    AMap.get? (m.map (fun e => (e.1, f e.2))) a = (m.get? a).map f := by
  induction m with
  | nil => rfl
  | cons e m ih =>
    rw [List.map_cons, AMap.get?_cons, AMap.get?_cons]
    by_cases h : e.1 = a
    · simp [h]
    · simp only [if_neg h]; exact ih

theorem finalize_inv {s : IntraBlockState} (hi : Inv db s) : Inv db (finalizeTransaction s) := by
  have hget : ∀ a, (finalizeTransaction s).storage.get? a = (s.storage.get? a).map finalizeStorage :=
    fun a => get?_map_values s.storage finalizeStorage a
  refine ⟨⟨hi.order.objs, hi.order.wfObjects, ?_, fun a st hst => ?_, hi.order.journal⟩, fun a => ?_⟩
  · have : AMap.keys (finalizeTransaction s).storage = AMap.keys s.storage := by
      unfold AMap.keys finalizeTransaction
      simp
    unfold AMap.WF
    rw [this]
    exact hi.order.wfStorage
  · rw [hget] at hst
    cases hs : s.storage.get? a with
    | none => rw [hs] at hst; cases hst
    | some st0 =>
      rw [hs] at hst
      simp only [Option.map_some, Option.some.injEq] at hst
      subst hst
      exact ⟨(foldr_commitValue st0.current st0.committed (hi.order.wfSt a st0 hs).1).1, AMap.WF_nil⟩
  · have hc := hi.cells a
    unfold cell at hc ⊢
    rw [hget]
    cases hs : s.storage.get? a with
    | none => rw [hs] at hc; exact hc
    | some st0 =>
      rw [hs] at hc
      refine ⟨fun k e he => ?_, fun k v hv => (by simp [finalizeStorage] at hv), fun _ => hc.cached (by simp)⟩
      have he' : (st0.current.foldr commitValue st0.committed).get? k = some e := he
      rcases (foldr_commitValue st0.current st0.committed (hi.order.wfSt a st0 hs).1).2 k e he' with
        ⟨e0, h0, h1⟩ | ⟨h0, ⟨v, h1⟩, h2⟩
      · rw [h1]; exact hc.committed k e0 h0
      · rw [h2]; exact (hc.current k v h1 h0).symm

theorem phases_inv (hdb : SafeDb db) (ps : List Phase) {s : IntraBlockState}
    (hs : PhasesAll keccak db (SafeOp db) ps s) (hi : Inv db s) : Inv db (runPhases keccak db ps s).2 := by
  induction ps generalizing s with
  | nil => exact hi
  | cons p ps ih =>
    refine ih hs.2 ?_
    cases p with
    | ops t => exact (run_inv hdb t hs.1 hi).1
    | destructSuicides => exact foldl_destruct_inv hdb s.selfDestructs hi
    | destructTouchedDead => exact foldl_touched_inv hdb s.touched hi
    | finalizeTransaction => exact finalize_inv hi
    | clearJournalAndSubstate =>
      exact ⟨hi.order.congr rfl rfl (fun d hd => (by cases hd)), hi.cells⟩

theorem inv_init : Inv db {} :=
  ⟨⟨fun a o h => (by cases h), AMap.WF_nil, AMap.WF_nil, fun a st h => (by cases h), fun d hd => (by cases hd)⟩,
   fun a => ⟨fun k e he => (by cases he), fun k v hv => (by cases hv), fun h => absurd rfl h⟩⟩

end Silkworm.IntraBlockState
