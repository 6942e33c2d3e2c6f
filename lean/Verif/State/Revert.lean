import Verif.State.Undo

/-!
# Reverting to a snapshot

Helper lemmas: every operation is undone by its deltas, logs only grow, code is only added.
-/

namespace Silkworm

open IntraBlockState State

/-- Storage is written only to existing accounts. -/
def Op.LiveStorage (db : StateReader) (o : Op) (s : IntraBlockState) : Prop :=
  match o with
  | .setStorage a _ _ => (exists? db s a).1 = true
  | _ => True

/-- The codes an operation writes are in `W`. -/
def Op.CodeIn (W : Bytes → Prop) (o : Op) : Prop :=
  match o with
  | .setCode _ code => W code
  | _ => True

/-- Some code of `W` is stored under the hash, or nothing has changed. -/
def IntraBlockState.CodeExt (keccak : Bytes → Bytes) (db : StateReader) (W : Bytes → Prop) (s t : IntraBlockState) : Prop :=
  ∀ h, lookupCode db t h = lookupCode db s h ∨ ∃ code, W code ∧ keccak code = h ∧ lookupCode db t h = code

namespace IntraBlockState

variable {keccak : Bytes → Bytes} {db : StateReader} {strict : Prop} {W : Bytes → Prop}

theorem CodeExt.refl (s : IntraBlockState) : CodeExt keccak db W s s := fun _ => Or.inl rfl

theorem CodeExt.trans {s t u : IntraBlockState} (h : CodeExt keccak db W s t) (g : CodeExt keccak db W t u) :
    CodeExt keccak db W s u := by
  intro x
  rcases g x with g | g
  · rcases h x with h | ⟨code, hw, hk, hl⟩
    · exact Or.inl (g.trans h)
    · exact Or.inr ⟨code, hw, hk, g.trans hl⟩
  · exact Or.inr g

theorem CodeExt.of_code {s t : IntraBlockState} (h : t.code = s.code) : CodeExt keccak db W s t := by
  intro x; left; unfold lookupCode; rw [h]

theorem Same.codeExt {s t : IntraBlockState} (h : Same db s t) : CodeExt keccak db W s t :=
  fun x => Or.inl (h.code x).symm

/-- Fields that most operations leave alone. -/
structure Keeps (s t : IntraBlockState) : Prop where
  logs : t.logs = s.logs
  refund : t.refund = s.refund
  code : t.code = s.code

theorem Keeps.refl (s : IntraBlockState) : Keeps s s := ⟨rfl, rfl, rfl⟩

theorem Keeps.trans {s t u : IntraBlockState} (h : Keeps s t) (g : Keeps t u) : Keeps s u :=
  ⟨g.logs.trans h.logs, g.refund.trans h.refund, g.code.trans h.code⟩

theorem getObject_keeps (s : IntraBlockState) (a : Bytes) : Keeps s (getObject db s a).2 := by
  rcases getObject_snd db s a with h | ⟨o, _, _, h⟩ <;> rw [h] <;> exact ⟨rfl, rfl, rfl⟩

theorem getOrCreateObject_keeps (s : IntraBlockState) (a : Bytes) : Keeps s (getOrCreateObject db s a).2.2 := by
  have h := getObject_keeps (db := db) s a
  unfold getOrCreateObject
  cases hg : getObject db s a with
  | mk o s1 =>
    rw [hg] at h
    cases o with
    | none => exact h.trans ⟨rfl, rfl, rfl⟩
    | some o =>
      cases hc : o.current with
      | none => simp only [hc]; exact h.trans ⟨rfl, rfl, rfl⟩
      | some c => simp only [hc]; exact h

theorem modifyCurrent_keeps (s : IntraBlockState) (a : Bytes) (f : Account → Account) :
    Keeps s (modifyCurrent db s a f) := (getOrCreateObject_keeps s a).trans ⟨rfl, rfl, rfl⟩

theorem touch_keeps (s : IntraBlockState) (a : Bytes) : Keeps s (touch s a) := by
  unfold touch
  by_cases h : s.touched.contains a
  · rw [if_pos h]; exact Keeps.refl s
  · rw [if_neg h]
    dsimp only
    by_cases hr : a ≠ kRipemdAddress
    · rw [if_pos hr]; exact ⟨rfl, rfl, rfl⟩
    · rw [if_neg hr]; exact ⟨rfl, rfl, rfl⟩

theorem wipeStorage_keeps (s : IntraBlockState) (a : Bytes) : Keeps s (wipeStorage s a) := by
  unfold wipeStorage
  cases s.storage.get? a <;> exact ⟨rfl, rfl, rfl⟩

theorem createContract_keeps (s : IntraBlockState) (a : Bytes) : Keeps s (createContract db s a) := by
  have h := getObject_keeps (db := db) s a
  unfold createContract
  cases hg : getObject db s a with
  | mk o s1 =>
    rw [hg] at h
    cases o with
    | none => refine (h.trans ?_).trans (wipeStorage_keeps _ a); exact ⟨rfl, rfl, rfl⟩
    | some o => refine (h.trans ?_).trans (wipeStorage_keeps _ a); exact ⟨rfl, rfl, rfl⟩

theorem getCommitted_keeps (s : IntraBlockState) (a k : Bytes) (i : Option Account) (inc : Nat) (st : Storage) :
    Keeps s (getCommitted db s a k i inc st).2 := by
  unfold getCommitted
  cases st.committed.get? k with
  | some e => exact Keeps.refl s
  | none =>
    cases i with
    | none => exact Keeps.refl s
    | some i =>
      by_cases h : i.incarnation ≠ inc
      · simp only [if_pos h]; exact Keeps.refl s
      · simp only [if_neg h]; exact ⟨rfl, rfl, rfl⟩

theorem getStorage_keeps (s : IntraBlockState) (a k : Bytes) (original : Bool) :
    Keeps s (getStorage db s a k original).2 := by
  have h := getObject_keeps (db := db) s a
  unfold getStorage
  cases hg : getObject db s a with
  | mk o s1 =>
    rw [hg] at h
    cases o with
    | none => exact h
    | some o =>
      cases hc : o.current with
      | none => simp only [hc]; exact h
      | some c =>
        simp only [hc]
        have h2 : Keeps s { s1 with storage := s1.storage.set a ((s1.storage.get? a).getD {}) } := h.trans ⟨rfl, rfl, rfl⟩
        cases original with
        | true => simp only [if_true]; exact h2.trans (getCommitted_keeps _ _ _ _ _ _)
        | false =>
          simp only [Bool.false_eq_true, if_false]
          cases ((s1.storage.get? a).getD {}).current.get? k with
          | some v => exact h2
          | none => exact h2.trans (getCommitted_keeps _ _ _ _ _ _)

theorem setStorage_keeps (s : IntraBlockState) (a k v : Bytes) : Keeps s (setStorage db s a k v) := by
  have h := getStorage_keeps (db := db) s a k false
  unfold setStorage getCurrentStorage
  cases hg : getStorage db s a k false with
  | mk p s1 =>
    rw [hg] at h
    simp only
    by_cases hp : p = v
    · rw [if_pos hp]; exact h
    · rw [if_neg hp]; exact h.trans ⟨rfl, rfl, rfl⟩

/-- `und` part of a step together with what happens to logs and code. -/
structure StepOk (keccak : Bytes → Bytes) (db : StateReader) (strict : Prop) (W : Bytes → Prop)
    (s t : IntraBlockState) : Prop where
  und : Und db strict s t
  logs : ∃ l, t.logs = s.logs ++ l
  code : CodeExt keccak db W s t

theorem StepOk.refl (s : IntraBlockState) : StepOk keccak db strict W s s :=
  ⟨Und.refl s, ⟨[], by simp⟩, CodeExt.refl s⟩

theorem StepOk.trans {s t u : IntraBlockState} (h : StepOk keccak db strict W s t) (g : StepOk keccak db strict W t u) :
    StepOk keccak db strict W s u := by
  refine ⟨h.und.trans g.und, ?_, h.code.trans g.code⟩
  obtain ⟨l, hl⟩ := h.logs
  obtain ⟨m, hm⟩ := g.logs
  exact ⟨l ++ m, by rw [hm, hl, List.append_assoc]⟩

theorem StepOk.of_keeps {s t : IntraBlockState} (h : Und db strict s t) (k : Keeps s t) : StepOk keccak db strict W s t :=
  ⟨h, ⟨[], by rw [k.logs]; simp⟩, CodeExt.of_code k.code⟩

theorem StepOk.of_same {s t : IntraBlockState} (h : Same db s t) : StepOk keccak db strict W s t :=
  ⟨h.und, ⟨[], by rw [h.logs]; simp⟩, h.codeExt⟩

theorem setCode_ok (s : IntraBlockState) (a code : Bytes) (hw : W code) :
    StepOk keccak db strict W s (setCode keccak db s a code) := by
  have h1 : StepOk keccak db strict W s (modifyCurrent db s a (fun c => { c with codeHash := keccak code })) :=
    .of_keeps (modifyCurrent_und s a _ (fun _ => rfl)) (modifyCurrent_keeps s a _)
  unfold setCode
  simp only
  generalize modifyCurrent db s a (fun c => { c with codeHash := keccak code }) = s1 at h1
  cases hg : s1.code.get? (keccak code) with
  | some x => exact h1
  | none =>
    refine h1.trans ⟨⟨[], rfl, by simp, fun _ h => ⟨h.obj, h.orig, h.curv, h.selfDestructs, h.touched, h.accessedAddresses, h.keys⟩⟩,
      ⟨[], by simp⟩, fun x => ?_⟩
    unfold lookupCode
    simp only [AMap.get?_set]
    by_cases hx : x = keccak code
    · right
      exact ⟨code, hw, hx.symm, by simp [hx]⟩
    · left; rw [if_neg hx]

theorem und_substate {s t : IntraBlockState} (ho : t.objects = s.objects) (hs : t.storage = s.storage)
    (hj : t.journal = s.journal) (hsd : t.selfDestructs = s.selfDestructs) (ht : t.touched = s.touched)
    (ha : t.accessedAddresses = s.accessedAddresses) (hk : t.accessedStorageKeys = s.accessedStorageKeys) :
    Und db strict s t := by
  have e : ∀ a, effObj db s a = effObj db t a := fun a => by unfold effObj; rw [ho]
  have st : ∀ a, stor s a = stor t a := fun a => by unfold stor; rw [hs]
  refine ⟨[], hj, by simp, fun x hx => Sim.trans ⟨e, fun a _ k => origOf_congr (e a) (st a) k,
    fun a _ k => curvOf_congr (e a) (st a) k, hsd.symm, by rw [ht], ha.symm, fun a => by unfold keysOf; rw [hk]⟩ hx⟩

theorem step_ok (s : IntraBlockState) (o : Op) (hl : strict → o.LiveStorage db s) (hw : o.CodeIn W) :
    StepOk keccak db strict W s (o.step keccak db s).2 := by
  cases o with
  | doesExist a => obtain ⟨s', h, hs⟩ := exists?_eq (db := db) s a; simp only [Op.step, h]; exact .of_same hs
  | isDead a => obtain ⟨s', h, hs⟩ := isDead_eq (db := db) s a; simp only [Op.step, h]; exact .of_same hs
  | createContract a => exact .of_keeps (createContract_und s a) (createContract_keeps s a)
  | recordSuicide a =>
    refine .of_keeps (recordSuicide_und s a) ?_
    simp only [Op.step]
    unfold recordSuicide
    by_cases h : s.selfDestructs.contains a
    · rw [if_pos h]; exact Keeps.refl s
    · rw [if_neg h]; exact ⟨rfl, rfl, rfl⟩
  | touch a => exact .of_keeps (touch_und s a) (touch_keeps s a)
  | getBalance a => obtain ⟨s', h, hs⟩ := getBalance_eq (db := db) s a; simp only [Op.step, h]; exact .of_same hs
  | setBalance a v =>
    refine .of_keeps (Und.trans ?_ (touch_und _ a)) (Keeps.trans ?_ (touch_keeps _ a))
    · exact modifyCurrent_und s a _ (fun _ => rfl)
    · exact modifyCurrent_keeps s a _
  | addToBalance a v =>
    refine .of_keeps (Und.trans ?_ (touch_und _ a)) (Keeps.trans ?_ (touch_keeps _ a))
    · exact modifyCurrent_und s a _ (fun _ => rfl)
    · exact modifyCurrent_keeps s a _
  | subtractFromBalance a v =>
    refine .of_keeps (Und.trans ?_ (touch_und _ a)) (Keeps.trans ?_ (touch_keeps _ a))
    · exact modifyCurrent_und s a _ (fun _ => rfl)
    · exact modifyCurrent_keeps s a _
  | getNonce a => obtain ⟨s', h, hs⟩ := getNonce_eq (db := db) s a; simp only [Op.step, h]; exact .of_same hs
  | setNonce a n =>
    exact .of_keeps (modifyCurrent_und s a (fun c => { c with nonce := n }) (fun _ => rfl))
      (modifyCurrent_keeps s a (fun c => { c with nonce := n }))
  | getCode a => obtain ⟨s', h, hs⟩ := getCode_eq (db := db) s a; simp only [Op.step, h]; exact .of_same hs
  | getCodeHash a => obtain ⟨s', h, hs⟩ := getCodeHash_eq (db := db) s a; simp only [Op.step, h]; exact .of_same hs
  | setCode a code => exact setCode_ok s a code hw
  | accessAccount a =>
    refine .of_keeps (accessAccount_und s a) ?_
    simp only [Op.step]
    unfold accessAccount
    by_cases h : s.accessedAddresses.contains a
    · rw [if_pos h]; exact Keeps.refl s
    · rw [if_neg h]; exact ⟨rfl, rfl, rfl⟩
  | accessStorage a k =>
    refine .of_keeps (accessStorage_und s a k) ?_
    simp only [Op.step]
    unfold accessStorage
    by_cases h : ((s.accessedStorageKeys.get? a).getD []).contains k
    · simp only [if_pos h]; exact ⟨rfl, rfl, rfl⟩
    · simp only [if_neg h]; exact ⟨rfl, rfl, rfl⟩
  | getCurrentStorage a k =>
    obtain ⟨s', h, hs⟩ := getStorage_eq (db := db) s a k false
    simp only [Op.step, getCurrentStorage, h]; exact .of_same hs
  | getOriginalStorage a k =>
    obtain ⟨s', h, hs⟩ := getStorage_eq (db := db) s a k true
    simp only [Op.step, getOriginalStorage, h]; exact .of_same hs
  | setStorage a k v =>
    refine .of_keeps (setStorage_und s a k v fun h => ?_) (setStorage_keeps s a k v)
    obtain ⟨s', he, _⟩ := exists?_eq (db := db) s a
    have := hl h
    simp only [Op.LiveStorage, he] at this
    exact this
  | addLog l =>
    exact ⟨und_substate rfl rfl rfl rfl rfl rfl rfl, ⟨[l], rfl⟩, CodeExt.of_code rfl⟩
  | addRefund n =>
    exact ⟨und_substate rfl rfl rfl rfl rfl rfl rfl, ⟨[], by simp [Op.step, IntraBlockState.addRefund]⟩, CodeExt.of_code rfl⟩
  | subtractRefund n =>
    exact ⟨und_substate rfl rfl rfl rfl rfl rfl rfl, ⟨[], by simp [Op.step, IntraBlockState.subtractRefund]⟩,
      CodeExt.of_code rfl⟩
  | getRefund => exact StepOk.refl s

theorem undo_other (ds : List Delta) (t : IntraBlockState) :
    (undo ds t).code = t.code ∧ (undo ds t).logs = t.logs ∧ (undo ds t).refund = t.refund ∧
      (undo ds t).journal = t.journal := by
  induction ds generalizing t with
  | nil => exact ⟨rfl, rfl, rfl, rfl⟩
  | cons d ds ih =>
    have h := ih (d.revert t)
    have e : undo (d :: ds) t = undo ds (d.revert t) := rfl
    rw [e]
    cases d <;> exact h

theorem undo_ripemd (ds : List Delta) (hn : ∀ d ∈ ds, d ≠ .touch kRipemdAddress) (t : IntraBlockState) :
    kRipemdAddress ∈ (undo ds t).touched ↔ kRipemdAddress ∈ t.touched := by
  induction ds generalizing t with
  | nil => exact Iff.rfl
  | cons d ds ih =>
    have e : undo (d :: ds) t = undo ds (d.revert t) := rfl
    rw [e]
    refine (ih (fun x hx => hn x (List.mem_cons_of_mem _ hx)) (d.revert t)).trans ?_
    have hd := hn d (by simp)
    cases d with
    | touch a =>
      have : kRipemdAddress ≠ a := fun h => hd (by rw [h])
      show kRipemdAddress ∈ setErase t.touched a ↔ _
      unfold setErase
      rw [List.mem_filter]
      simp [this]
    | _ => exact Iff.rfl

theorem resizeLogs_prefix (l m : List Log) : resizeLogs (l ++ m) l.length = l := by
  unfold resizeLogs
  simp

/-- Reverting brings back the state the steps started from. -/
theorem revert_ok {s t : IntraBlockState} (h : StepOk keccak db strict W s t) :
    Sim db strict s (t.revertToSnapshot s.takeSnapshot) ∧
      (t.revertToSnapshot s.takeSnapshot).journal = s.journal ∧
      (t.revertToSnapshot s.takeSnapshot).logs = s.logs ∧
      (t.revertToSnapshot s.takeSnapshot).refund = s.refund ∧
      (t.revertToSnapshot s.takeSnapshot).code = t.code ∧
      (kRipemdAddress ∈ (t.revertToSnapshot s.takeSnapshot).touched ↔ kRipemdAddress ∈ t.touched) := by
  obtain ⟨⟨ds, hj, hn, hu⟩, ⟨l, hl⟩, _⟩ := h
  have hlen : t.journal.length - s.takeSnapshot.journalSize = ds.length := by
    rw [hj, List.length_append]; show _ - s.journal.length = _; omega
  have htake : t.journal.take (t.journal.length - s.takeSnapshot.journalSize) = ds := by
    rw [hlen, hj]; simp
  have hdrop : t.journal.drop (t.journal.length - s.takeSnapshot.journalSize) = s.journal := by
    rw [hlen, hj]; simp
  have hsim := hu t (Sim.refl t)
  unfold revertToSnapshot
  refine ⟨?_, hdrop, ?_, rfl, ?_, ?_⟩
  · rw [htake]
    exact ⟨hsim.obj, hsim.orig, hsim.curv, hsim.selfDestructs, hsim.touched, hsim.accessedAddresses, hsim.keys⟩
  · show resizeLogs t.logs s.logs.length = s.logs
    rw [hl, resizeLogs_prefix]
  · rw [htake]; exact (undo_other ds t).1
  · rw [htake]; exact undo_ripemd ds hn t

theorem run_ok (t : Trace) (s : IntraBlockState)
    (hl : strict → t.All keccak db (fun o s => o.LiveStorage db s) s) (hw : t.All keccak db (fun o _ => o.CodeIn W) s) :
    StepOk keccak db strict W s (t.run keccak db s).2 := by
  induction t generalizing s with
  | nil => exact StepOk.refl s
  | op o rest ih =>
    exact (step_ok s o (fun h => (hl h).1) hw.1).trans (ih _ (fun h => (hl h).2) hw.2)
  | scope body revert rest ihb ihr =>
    have hb := ihb s (fun h => (hl h).1) hw.1
    have hr := ihr _ (fun h => (hl h).2) hw.2
    cases revert with
    | false => exact hb.trans hr
    | true =>
      refine StepOk.trans ?_ hr
      obtain ⟨h1, h2, h3, h4, h5, _⟩ := revert_ok hb
      refine ⟨⟨[], h2, by simp, fun x hx => h1.trans hx⟩, ⟨[], ?_⟩, ?_⟩
      · simp only [if_true]; rw [h3]; simp
      · intro x
        have := hb.code x
        unfold lookupCode at this ⊢
        simp only [if_true]
        rw [h5]
        exact this

end IntraBlockState

end Silkworm
