import Verif.State.Views
import Verif.State.Revert

/-!
# The storage cache follows its account

Helper lemmas: the storage cached for an account always belongs to the incarnation of the cached account, also after
reverting to a snapshot.
-/

namespace Silkworm.IntraBlockState

open State

/-- What is cached for one address. -/
def cell (s : IntraBlockState) (a : Bytes) : Option Object × Option Storage := (s.objects.get? a, s.storage.get? a)

/-- The effective object. -/
def effO (db : StateReader) (a : Bytes) (o : Option Object) : Option Object :=
  match o with
  | some o => some o
  | none => (db.readAccount a).map (fun x => { initial := some x, current := some x })

/-- The database value seen by the cached object. -/
def dv (db : StateReader) (a : Bytes) (o : Option Object) (k : Bytes) : Bytes :=
  dbView db ((effO db a o).bind (·.initial)) (incOf ((effO db a o).bind (·.current))) a k

/-- The cached storage belongs to the cached object. -/
structure CellInv (db : StateReader) (a : Bytes) (c : Option Object × Option Storage) : Prop where
  committed : ∀ k e, (c.2.getD {}).committed.get? k = some e → e.initial = dv db a c.1 k
  current : ∀ k v, (c.2.getD {}).current.get? k = some v → (c.2.getD {}).committed.get? k = none →
    dv db a c.1 k = zero32
  cached : c.2 ≠ none → c.1 ≠ none ∨ db.readAccount a = none

/-- `c'` caches more than `c`. -/
structure CellExt (db : StateReader) (a : Bytes) (c c' : Option Object × Option Storage) : Prop where
  obj : c'.1 = c.1 ∨ (c.1 = none ∧ ∃ x, db.readAccount a = some x ∧ c'.1 = some { initial := some x, current := some x })
  old : ∀ k e, (c.2.getD {}).committed.get? k = some e → (c'.2.getD {}).committed.get? k = some e
  new : ∀ k e, (c.2.getD {}).committed.get? k = none → (c'.2.getD {}).committed.get? k = some e → e.initial = dv db a c'.1 k
  current : ∀ k v, (c'.2.getD {}).current.get? k = some v →
    (∃ w, (c.2.getD {}).current.get? k = some w) ∨ (∃ e, (c'.2.getD {}).committed.get? k = some e) ∨
      dv db a c'.1 k = zero32
  cached : c'.2 ≠ none → c.2 ≠ none ∨ c'.1 ≠ none ∨ db.readAccount a = none

variable {db : StateReader}

theorem CellExt.refl (a : Bytes) (c : Option Object × Option Storage) : CellExt db a c c :=
  ⟨Or.inl rfl, fun _ _ h => h, fun k e h h' => (by rw [h] at h'; cases h'),
   fun _ v h => Or.inl ⟨v, h⟩, fun h => Or.inl h⟩

theorem CellExt.eff {a : Bytes} {c c' : Option Object × Option Storage} (h : CellExt db a c c') :
    effO db a c'.1 = effO db a c.1 := by
  rcases h.obj with h | ⟨h, x, hx, h'⟩
  · rw [h]
  · rw [h, h']; unfold effO; rw [hx]; rfl

theorem CellExt.dv {a : Bytes} {c c' : Option Object × Option Storage} (h : CellExt db a c c') (k : Bytes) :
    dv db a c'.1 k = dv db a c.1 k := by
  unfold IntraBlockState.dv; rw [h.eff]

theorem CellExt.trans {a : Bytes} {c c' c'' : Option Object × Option Storage} (h : CellExt db a c c')
    (g : CellExt db a c' c'') : CellExt db a c c'' := by
  refine ⟨?_, fun k e he => g.old k e (h.old k e he), fun k e hn he => ?_, fun k v hv => ?_, fun hs => ?_⟩
  · rcases g.obj with g1 | ⟨g1, x, hx, g2⟩
    · rcases h.obj with h1 | ⟨h1, y, hy, h2⟩
      · exact Or.inl (g1.trans h1)
      · exact Or.inr ⟨h1, y, hy, g1.trans h2⟩
    · rcases h.obj with h1 | ⟨h1, y, hy, h2⟩
      · exact Or.inr ⟨h1 ▸ g1, x, hx, g2⟩
      · rw [g1] at h2; cases h2
  · cases hc : (c'.2.getD {}).committed.get? k with
    | none => exact g.new k e hc he
    | some e' =>
      have h1 := g.old k e' hc
      rw [he] at h1
      cases h1
      rw [g.dv]
      exact h.new k e hn hc
  · rcases g.current k v hv with ⟨w, hw⟩ | h1 | h1
    · rcases h.current k w hw with h2 | ⟨e, he⟩ | h2
      · exact Or.inl h2
      · exact Or.inr (Or.inl ⟨e, g.old k e he⟩)
      · exact Or.inr (Or.inr (by rw [g.dv]; exact h2))
    · exact Or.inr (Or.inl h1)
    · exact Or.inr (Or.inr h1)
  · rcases g.cached hs with h1 | h1 | h1
    · rcases h.cached h1 with h2 | h2 | h2
      · exact Or.inl h2
      · refine Or.inr (Or.inl ?_)
        rcases g.obj with g1 | ⟨g1, x, _, g2⟩
        · rw [g1]; exact h2
        · rw [g2]; simp
      · exact Or.inr (Or.inr h2)
    · exact Or.inr (Or.inl h1)
    · exact Or.inr (Or.inr h1)

theorem CellInv.ext {a : Bytes} {c c' : Option Object × Option Storage} (h : CellInv db a c) (g : CellExt db a c c') :
    CellInv db a c' := by
  refine ⟨fun k e he => ?_, fun k v hv hn => ?_, fun hs => ?_⟩
  · cases hc : (c.2.getD {}).committed.get? k with
    | none => exact g.new k e hc he
    | some e' =>
      have h1 := g.old k e' hc
      rw [he] at h1
      cases h1
      rw [g.dv]
      exact h.committed k e hc
  · rcases g.current k v hv with ⟨w, hw⟩ | ⟨e, he⟩ | h1
    · rw [g.dv]
      refine h.current k w hw ?_
      cases hc : (c.2.getD {}).committed.get? k with
      | none => rfl
      | some e' => have h1 := g.old k e' hc; rw [hn] at h1; cases h1
    · rw [hn] at he; cases he
    · exact h1
  · rcases g.cached hs with h1 | h1 | h1
    · rcases h.cached h1 with h2 | h2
      · left
        rcases g.obj with g1 | ⟨g1, x, _, g2⟩
        · rw [g1]; exact h2
        · rw [g2]; simp
      · exact Or.inr h2
    · exact Or.inl h1
    · exact Or.inr h1

/-- All cells extended. -/
def CacheExt (db : StateReader) (s t : IntraBlockState) : Prop := ∀ a, CellExt db a (cell s a) (cell t a)

theorem CacheExt.refl (s : IntraBlockState) : CacheExt db s s := fun a => CellExt.refl a _

theorem CacheExt.trans {s t u : IntraBlockState} (h : CacheExt db s t) (g : CacheExt db t u) : CacheExt db s u :=
  fun a => (h a).trans (g a)

theorem cacheExt_of_eq {s t : IntraBlockState} (h1 : t.objects = s.objects) (h2 : t.storage = s.storage) :
    CacheExt db s t := fun a => by
  have : cell t a = cell s a := by unfold cell; rw [h1, h2]
  rw [this]
  exact CellExt.refl a _

/-- `s'` comes from `s` by steps that the new part of the journal undoes, up to caching. -/
def UndC (db : StateReader) (s s' : IntraBlockState) : Prop :=
  ∃ ds, s'.journal = ds ++ s.journal ∧ ∀ t, CacheExt db s' t → CacheExt db s (undo ds t)

theorem UndC.refl (s : IntraBlockState) : UndC db s s := ⟨[], rfl, fun _ h => h⟩

theorem UndC.trans {s t u : IntraBlockState} (h : UndC db s t) (g : UndC db t u) : UndC db s u := by
  obtain ⟨ds, hj, hu⟩ := h
  obtain ⟨es, gj, gu⟩ := g
  refine ⟨es ++ ds, ?_, fun x hx => ?_⟩
  · rw [gj, hj, List.append_assoc]
  · rw [undo_append]; exact hu _ (gu x hx)

theorem UndC.of_ext {s t : IntraBlockState} (h : CacheExt db s t) (hj : t.journal = s.journal) : UndC db s t :=
  ⟨[], hj, fun _ hx => h.trans hx⟩

/-- Forward and backward at once. -/
structure CellStep (db : StateReader) (s s' : IntraBlockState) : Prop where
  und : UndC db s s'
  inv : (∀ a, CellInv db a (cell s a)) → ∀ a, CellInv db a (cell s' a)

theorem CellStep.refl (s : IntraBlockState) : CellStep db s s := ⟨UndC.refl s, fun h => h⟩

theorem CellStep.trans {s t u : IntraBlockState} (h : CellStep db s t) (g : CellStep db t u) : CellStep db s u :=
  ⟨h.und.trans g.und, fun x => g.inv (h.inv x)⟩

theorem CellStep.of_ext {s t : IntraBlockState} (h : CacheExt db s t) (hj : t.journal = s.journal) : CellStep db s t :=
  ⟨UndC.of_ext h hj, fun x a => (x a).ext (h a)⟩

/-- Deltas that do not concern objects and storage. -/
def Inert : Delta → Prop
  | .suicide _ | .touch _ | .storageAccess _ _ | .accountAccess _ => True
  | _ => False

theorem Inert.revert {d : Delta} (h : Inert d) (t : IntraBlockState) (a : Bytes) : cell (d.revert t) a = cell t a := by
  cases d <;> first | rfl | cases h

theorem cellStep_inert {s s' : IntraBlockState} (ds : List Delta) (hd : ∀ d ∈ ds, Inert d)
    (hj : s'.journal = ds ++ s.journal) (h1 : s'.objects = s.objects) (h2 : s'.storage = s.storage) :
    CellStep db s s' := by
  have hc : ∀ a, cell s' a = cell s a := fun a => by unfold cell; rw [h1, h2]
  refine ⟨⟨ds, hj, fun t ht a => ?_⟩, fun x a => by rw [hc]; exact x a⟩
  have : cell (undo ds t) a = cell t a := by
    clear ht hj
    induction ds generalizing t with
    | nil => rfl
    | cons d ds ih =>
      show cell (undo ds (d.revert t)) a = _
      rw [ih (fun d' hd' => hd d' (List.mem_cons_of_mem _ hd')), (hd d List.mem_cons_self).revert]
  rw [this, ← hc]
  exact ht a

theorem touch_cell (s : IntraBlockState) (a : Bytes) : CellStep db s (touch s a) := by
  unfold touch
  by_cases h : s.touched.contains a
  · rw [if_pos h]; exact CellStep.refl s
  · rw [if_neg h]
    dsimp only
    by_cases hr : a ≠ kRipemdAddress
    · rw [if_pos hr]
      exact cellStep_inert [.touch a] (by simp [Inert]) rfl rfl rfl
    · rw [if_neg hr]
      exact cellStep_inert [] (by simp) rfl rfl rfl

theorem recordSuicide_cell (s : IntraBlockState) (a : Bytes) : CellStep db s (recordSuicide s a) := by
  unfold recordSuicide
  by_cases h : s.selfDestructs.contains a
  · rw [if_pos h]; exact CellStep.refl s
  · rw [if_neg h]
    exact cellStep_inert [.suicide a] (by simp [Inert]) rfl rfl rfl

theorem accessAccount_cell (s : IntraBlockState) (a : Bytes) : CellStep db s (accessAccount s a).2 := by
  unfold accessAccount
  by_cases h : s.accessedAddresses.contains a
  · rw [if_pos h]; exact CellStep.refl s
  · rw [if_neg h]
    exact cellStep_inert [.accountAccess a] (by simp [Inert]) rfl rfl rfl

theorem accessStorage_cell (s : IntraBlockState) (a k : Bytes) : CellStep db s (accessStorage s a k).2 := by
  unfold accessStorage
  by_cases h : ((s.accessedStorageKeys.get? a).getD []).contains k
  · simp only [if_pos h]
    exact cellStep_inert [] (by simp) rfl rfl rfl
  · simp only [if_neg h]
    exact cellStep_inert [.storageAccess a k] (by simp [Inert]) rfl rfl rfl

theorem cell_setObj (s : IntraBlockState) (a b : Bytes) (o : Object) :
    cell { s with objects := s.objects.set a o } b = if b = a then (some o, s.storage.get? a) else cell s b := by
  unfold cell
  simp only [AMap.get?_set]
  by_cases h : b = a
  · subst h; rw [if_pos rfl, if_pos rfl]
  · rw [if_neg h, if_neg h]

theorem cell_setStor (s : IntraBlockState) (a b : Bytes) (st : Storage) :
    cell { s with storage := s.storage.set a st } b = if b = a then (s.objects.get? a, some st) else cell s b := by
  unfold cell
  simp only [AMap.get?_set]
  by_cases h : b = a
  · subst h; rw [if_pos rfl, if_pos rfl]
  · rw [if_neg h, if_neg h]

/-- `getObject` extends the cache, and afterwards an existing object is cached. -/
theorem getObject_cell (s : IntraBlockState) (a : Bytes) :
    CacheExt db s (getObject db s a).2 ∧ (getObject db s a).2.journal = s.journal ∧
      (getObject db s a).2.objects.get? a = effObj db s a ∧ (getObject db s a).2.storage = s.storage := by
  unfold getObject effObj
  cases h : s.objects.get? a with
  | some o => exact ⟨CacheExt.refl s, rfl, h, rfl⟩
  | none =>
    cases h' : db.readAccount a with
    | none => exact ⟨CacheExt.refl s, rfl, h, rfl⟩
    | some x =>
      refine ⟨fun b => ?_, rfl, AMap.get?_set_self _ _ _, rfl⟩
      simp only
      rw [cell_setObj]
      by_cases hb : b = a
      · subst hb
        rw [if_pos rfl]
        unfold cell
        rw [h]
        refine ⟨Or.inr ⟨rfl, x, h', rfl⟩, fun _ _ h => h, fun k e h h' => ?_, fun _ v h => Or.inl ⟨v, h⟩,
          fun h => Or.inl h⟩
        simp only at h h'
        rw [h] at h'; cases h'
      · rw [if_neg hb]; exact CellExt.refl b _

/-- Replacing an object by one with the same initial account and incarnation. -/
theorem cellStep_update {s : IntraBlockState} {a : Bytes} {o o' : Object} (h : s.objects.get? a = some o)
    (hi : o'.initial = o.initial) (hc : incOf o'.current = incOf o.current) :
    CellStep db s { s.push (.update a o) with objects := s.objects.set a o' } := by
  have hdv : ∀ k, dv db a (some o') k = dv db a (some o) k := by
    intro k; unfold dv effO; simp only [Option.bind_some, hi, hc]
  have ecell : ∀ b, cell { s.push (.update a o) with objects := s.objects.set a o' } b =
      if b = a then (some o', s.storage.get? a) else cell s b := fun b => cell_setObj s a b o'
  refine ⟨⟨[.update a o], rfl, fun t ht b => ?_⟩, fun x b => ?_⟩
  · show CellExt db b (cell s b) (cell { t with objects := t.objects.set a o } b)
    have hb' := ht b
    rw [ecell] at hb'
    rw [cell_setObj]
    by_cases hb : b = a
    · subst hb
      rw [if_pos rfl] at hb' ⊢
      have h1 : t.objects.get? b = some o' := by
        rcases hb'.obj with h1 | ⟨h1, _⟩
        · exact h1
        · cases h1
      have hcell : cell s b = (some o, s.storage.get? b) := by unfold cell; rw [h]
      rw [hcell]
      have hn : ∀ k, dv db b (cell t b).1 k = dv db b (some o) k := by
        intro k
        show dv db b (t.objects.get? b) k = _
        rw [h1, hdv]
      refine ⟨Or.inl rfl, hb'.old, fun k e h2 h3 => ?_, fun k v hv => ?_, fun _ => Or.inr (Or.inl (by simp))⟩
      · rw [← hn]; exact hb'.new k e h2 h3
      · rw [← hn]; exact hb'.current k v hv
    · rw [if_neg hb] at hb' ⊢; exact hb'
  · rw [ecell]
    by_cases hb : b = a
    · subst hb
      rw [if_pos rfl]
      have hx := x b
      have hcell : cell s b = (some o, s.storage.get? b) := by unfold cell; rw [h]
      rw [hcell] at hx
      refine ⟨fun k e he => ?_, fun k v hv hn => ?_, fun _ => Or.inl (by simp)⟩
      · rw [hdv]; exact hx.committed k e he
      · rw [hdv]; exact hx.current k v hv hn
    · rw [if_neg hb]; exact x b

/-- Creating an object where there is none. -/
theorem cellStep_create {s : IntraBlockState} {a : Bytes} {o : Object} (h : s.objects.get? a = none)
    (hdb : db.readAccount a = none) (hi : o.initial = none) :
    CellStep db s { s.push (.create a) with objects := s.objects.set a o } := by
  have hdv : ∀ k, dv db a (some o) k = zero32 := by
    intro k; unfold dv effO; simp only [Option.bind_some, hi]; rfl
  have hdv0 : ∀ k, dv db a none k = zero32 := by
    intro k; unfold dv effO; simp only [hdb]; rfl
  have hcell : cell s a = (none, s.storage.get? a) := by unfold cell; rw [h]
  have ecell : ∀ b, cell { s.push (.create a) with objects := s.objects.set a o } b =
      if b = a then (some o, s.storage.get? a) else cell s b := fun b => cell_setObj s a b o
  refine ⟨⟨[.create a], rfl, fun t ht b => ?_⟩, fun x b => ?_⟩
  · show CellExt db b (cell s b) (cell { t with objects := t.objects.erase a } b)
    have hb' := ht b
    rw [ecell] at hb'
    by_cases hb : b = a
    · subst hb
      rw [if_pos rfl] at hb'
      have h1 : cell { t with objects := t.objects.erase b } b = (none, t.storage.get? b) := by
        unfold cell; simp
      have h2 : (cell t b).1 = some o := by
        rcases hb'.obj with h1 | ⟨h1, _⟩
        · exact h1
        · cases h1
      rw [h1, hcell]
      refine ⟨Or.inl rfl, hb'.old, fun k e h3 h4 => ?_, fun k v hv => ?_, fun _ => Or.inr (Or.inr hdb)⟩
      · have := hb'.new k e h3 h4
        rw [h2, hdv] at this
        rw [this, hdv0]
      · exact Or.inr (Or.inr (hdv0 k))
    · rw [if_neg hb] at hb'
      have : cell { t with objects := t.objects.erase a } b = cell t b := by
        unfold cell; simp only [AMap.get?_erase, if_neg hb]
      rw [this]; exact hb'
  · rw [ecell]
    by_cases hb : b = a
    · subst hb
      rw [if_pos rfl]
      have hx := x b
      rw [hcell] at hx
      refine ⟨fun k e he => ?_, fun k v hv hn => hdv k, fun _ => Or.inl (by simp)⟩
      rw [hdv, ← hdv0 k]; exact hx.committed k e he
    · rw [if_neg hb]; exact x b

theorem readAccount_none {s : IntraBlockState} {a : Bytes} (h : effObj db s a = none) :
    s.objects.get? a = none ∧ db.readAccount a = none := by
  refine ⟨?_, readAccount_none_of_effObj h⟩
  unfold effObj at h
  cases ho : s.objects.get? a with
  | none => rfl
  | some o => rw [ho] at h; cases h

theorem getOrCreateObject_cell (s : IntraBlockState) (a : Bytes) :
    CellStep db s (getOrCreateObject db s a).2.2 ∧
      (getOrCreateObject db s a).2.2.objects.get? a = some (getOrCreateObject db s a).1 ∧
      (getOrCreateObject db s a).1.current = some (getOrCreateObject db s a).2.1 := by
  obtain ⟨h1, h2, h3, h4⟩ := getObject_cell (db := db) s a
  unfold getOrCreateObject
  have hf := getObject_fst db s a
  cases hg : getObject db s a with
  | mk o s1 =>
    rw [hg] at h1 h2 h3 h4 hf
    simp only at h1 h2 h3 h4 hf
    cases o with
    | none =>
      simp only
      rw [← hf] at h3
      have hdb := readAccount_none_of_effObj hf.symm
      exact ⟨(CellStep.of_ext h1 h2).trans (cellStep_create h3 hdb rfl), AMap.get?_set_self _ _ _, trivial⟩
    | some o =>
      simp only
      rw [← hf] at h3
      cases hc : o.current with
      | none =>
        simp only
        exact ⟨(CellStep.of_ext h1 h2).trans (cellStep_update h3 rfl (by rw [hc]; rfl)), AMap.get?_set_self _ _ _, trivial⟩
      | some c => exact ⟨CellStep.of_ext h1 h2, h3, hc⟩

theorem modifyCurrent_cell (s : IntraBlockState) (a : Bytes) (f : Account → Account)
    (hf : ∀ c, (f c).incarnation = c.incarnation) : CellStep db s (modifyCurrent db s a f) := by
  obtain ⟨h1, h2, h3⟩ := getOrCreateObject_cell (db := db) s a
  unfold modifyCurrent
  cases hg : getOrCreateObject db s a with
  | mk o r =>
    obtain ⟨c, s1⟩ := r
    rw [hg] at h1 h2 h3
    simp only at h1 h2 h3 ⊢
    refine h1.trans (cellStep_update h2 rfl ?_)
    rw [h3]
    exact hf c

/-- Replacing the object and forgetting its storage. -/
theorem cellStep_replace {s1 : IntraBlockState} {a : Bytes} {o : Object} (d : Delta)
    (hd : (∃ prev, d = .update a prev ∧ s1.objects.get? a = some prev) ∨
      (d = .create a ∧ s1.objects.get? a = none)) :
    CellStep db s1 (wipeStorage { s1.push d with objects := s1.objects.set a o } a) := by
  have ecell : ∀ b, cell (wipeStorage { s1.push d with objects := s1.objects.set a o } a) b =
      if b = a then (some o, none) else cell s1 b := by
    intro b
    unfold wipeStorage
    cases h : ({ s1.push d with objects := s1.objects.set a o } : IntraBlockState).storage.get? a with
    | none =>
      have h' : s1.storage.get? a = none := h
      refine (cell_setObj s1 a b o).trans ?_
      rw [h']
    | some st =>
      unfold cell
      show ((s1.objects.set a o).get? b, (s1.storage.erase a).get? b) = _
      simp only [AMap.get?_set, AMap.get?_erase]
      by_cases hb : b = a
      · simp [hb]
      · simp [hb]
  refine ⟨?_, fun x b => ?_⟩
  · have key : ∀ t : IntraBlockState, CacheExt db (wipeStorage { s1.push d with objects := s1.objects.set a o } a) t →
        ∀ d2 : Delta, (∀ u : IntraBlockState, cell (d2.revert u) = fun b => if b = a then (u.objects.get? a, s1.storage.get? a) else cell u b) →
        CacheExt db s1 (d.revert (d2.revert t)) := by
      intro t ht d2 hd2 b
      have hb' := ht b
      rw [ecell] at hb'
      have e2 := congrFun (hd2 t) b
      have ed : ∀ u : IntraBlockState, cell (d.revert u) b = if b = a then (s1.objects.get? a, u.storage.get? a) else cell u b := by
        intro u
        rcases hd with ⟨prev, h1, h2⟩ | ⟨h1, h2⟩
        · rw [h1, h2]; exact cell_setObj u a b prev
        · rw [h1, h2]
          unfold cell
          show ((u.objects.erase a).get? b, u.storage.get? b) = _
          simp only [AMap.get?_erase]
          by_cases hb : b = a
          · subst hb; simp
          · simp [hb]
      rw [ed]
      by_cases hb : b = a
      · subst hb
        rw [if_pos rfl] at hb' e2 ⊢
        have : (d2.revert t).storage.get? b = s1.storage.get? b := by
          have := congrArg Prod.snd e2
          exact this
        rw [this]
        exact CellExt.refl b _
      · rw [if_neg hb] at hb' e2 ⊢
        rw [e2]
        exact hb'
    unfold wipeStorage at key ⊢
    cases h : ({ s1.push d with objects := s1.objects.set a o } : IntraBlockState).storage.get? a with
    | none =>
      have h' : s1.storage.get? a = none := h
      rw [h] at key
      simp only at key
      refine ⟨[.storageCreate a, d], rfl, fun t ht => key t ht (.storageCreate a) (fun u => ?_)⟩
      funext b
      unfold cell
      show (u.objects.get? b, (u.storage.erase a).get? b) = _
      simp only [AMap.get?_erase, h']
      by_cases hb : b = a
      · subst hb; simp
      · simp [hb]
    | some st =>
      have h' : s1.storage.get? a = some st := h
      rw [h] at key
      simp only at key
      refine ⟨[.storageWipe a st, d], rfl, fun t ht => key t ht (.storageWipe a st) (fun u => ?_)⟩
      funext b
      rw [h']
      exact cell_setStor u a b st
  · rw [ecell]
    by_cases hb : b = a
    · subst hb
      rw [if_pos rfl]
      exact ⟨fun k e he => by simp at he, fun k v hv => by simp at hv, fun h => absurd rfl h⟩
    · rw [if_neg hb]; exact x b

theorem createContract_cell (s : IntraBlockState) (a : Bytes) : CellStep db s (createContract db s a) := by
  obtain ⟨h1, h2, h3, h4⟩ := getObject_cell (db := db) s a
  have hf := getObject_fst db s a
  unfold createContract
  cases hg : getObject db s a with
  | mk o s1 =>
    rw [hg] at h1 h2 h3 h4 hf
    simp only at h1 h2 h3 h4 hf
    rw [← hf] at h3
    cases o with
    | none => exact (CellStep.of_ext h1 h2).trans (cellStep_replace _ (Or.inr ⟨rfl, h3⟩))
    | some o => exact (CellStep.of_ext h1 h2).trans (cellStep_replace _ (Or.inl ⟨o, rfl, h3⟩))

/-- Extending the storage cache of an account. -/
theorem cacheExt_stor {s : IntraBlockState} {a : Bytes} {o : Object} {st : Storage} (ho : s.objects.get? a = some o)
    (h1 : ∀ k e, (stor s a).committed.get? k = some e → st.committed.get? k = some e)
    (h2 : ∀ k e, (stor s a).committed.get? k = none → st.committed.get? k = some e → e.initial = dv db a (some o) k)
    (h3 : st.current = (stor s a).current) : CacheExt db s { s with storage := s.storage.set a st } := by
  intro b
  rw [cell_setStor]
  by_cases hb : b = a
  · subst hb
    rw [if_pos rfl, ho]
    have : cell s b = (some o, s.storage.get? b) := by unfold cell; rw [ho]
    rw [this]
    refine ⟨Or.inl rfl, h1, h2, fun k v hv => Or.inl ?_, fun _ => Or.inr (Or.inl (by simp))⟩
    have hv' : st.current.get? k = some v := hv
    rw [h3] at hv'
    exact ⟨v, hv'⟩
  · rw [if_neg hb]; exact CellExt.refl b _

/-- Reading storage extends the cache; afterwards the key is cached or the database has nothing for it. -/
theorem getStorage_cell (hz : ∀ a k, db.readStorage a 0 k = zero32) (s : IntraBlockState) (a k : Bytes) (original : Bool) :
    CacheExt db s (getStorage db s a k original).2 ∧ (getStorage db s a k original).2.journal = s.journal ∧
      ((∃ v, (stor (getStorage db s a k original).2 a).current.get? k = some v) ∨
        (∃ e, (stor (getStorage db s a k original).2 a).committed.get? k = some e) ∨
        dv db a ((getStorage db s a k original).2.objects.get? a) k = zero32) ∧
      ((getStorage db s a k original).2.objects.get? a ≠ none ∨ db.readAccount a = none) := by
  obtain ⟨h1, h2, h3, h4⟩ := getObject_cell (db := db) s a
  have hf := getObject_fst db s a
  unfold getStorage
  cases hg : getObject db s a with
  | mk o s1 =>
    rw [hg] at h1 h2 h3 h4 hf
    simp only at h1 h2 h3 h4 hf
    rw [← hf] at h3
    cases o with
    | none =>
      simp only
      obtain ⟨_, hdb⟩ := readAccount_none hf.symm
      refine ⟨h1, h2, Or.inr (Or.inr ?_), Or.inr hdb⟩
      rw [h3]
      unfold dv effO
      rw [hdb]
      rfl
    | some o =>
      simp only
      cases hc : o.current with
      | none =>
        simp only
        refine ⟨h1, h2, Or.inr (Or.inr ?_), Or.inl (by rw [h3]; simp)⟩
        rw [h3]
        unfold dv effO dbView
        simp only [Option.bind_some, hc, incOf]
        cases o.initial with
        | none => rfl
        | some i =>
          simp only
          by_cases hi : i.incarnation ≠ 0
          · rw [if_pos hi]
          · rw [if_neg hi]; exact hz a k
      | some c =>
        simp only
        let st := (s1.storage.get? a).getD {}
        let s2 : IntraBlockState := { s1 with storage := s1.storage.set a st }
        have hst : st = stor s1 a := rfl
        have e2 : CacheExt db s1 s2 :=
          cacheExt_stor h3 (fun _ _ h => h) (fun k e h h' => by rw [← hst, h'] at h; cases h) rfl
        have ho2 : s2.objects.get? a = some o := h3
        have hstor2 : stor s2 a = st := by rw [stor_set, if_pos rfl]
        have hcomm : CacheExt db s1 (getCommitted db s2 a k o.initial c.incarnation st).2 ∧
            (getCommitted db s2 a k o.initial c.incarnation st).2.journal = s1.journal ∧
            ((∃ e, (stor (getCommitted db s2 a k o.initial c.incarnation st).2 a).committed.get? k = some e) ∨
              dv db a ((getCommitted db s2 a k o.initial c.incarnation st).2.objects.get? a) k = zero32) ∧
            (getCommitted db s2 a k o.initial c.incarnation st).2.objects.get? a ≠ none := by
          unfold getCommitted
          cases hcm : st.committed.get? k with
          | some e => exact ⟨e2, rfl, Or.inl ⟨e, by simp only; rw [hstor2]; exact hcm⟩, by rw [ho2]; simp⟩
          | none =>
            cases hini : o.initial with
            | none =>
              refine ⟨e2, rfl, Or.inr ?_, by rw [ho2]; simp⟩
              simp only
              rw [ho2]
              unfold dv effO
              simp only [Option.bind_some, hini]
              rfl
            | some i =>
              simp only
              by_cases hne : i.incarnation ≠ c.incarnation
              · rw [if_pos hne]
                refine ⟨e2, rfl, Or.inr ?_, by rw [ho2]; simp⟩
                rw [ho2]
                unfold dv effO
                simp only [Option.bind_some, hini, hc]
                unfold dbView incOf
                simp only
                rw [if_pos hne]
              · rw [if_neg hne]
                have hdv : dv db a (some o) k = db.readStorage a c.incarnation k := by
                  unfold dv effO
                  simp only [Option.bind_some, hini, hc]
                  unfold dbView incOf
                  simp only
                  rw [if_neg hne]
                refine ⟨e2.trans (cacheExt_stor ho2 ?_ ?_ ?_), rfl, Or.inl ?_, by rw [ho2]; simp⟩
                · intro j e he
                  rw [hstor2] at he
                  simp only [AMap.get?_set]
                  by_cases hj : j = k
                  · subst hj; rw [hcm] at he; cases he
                  · rw [if_neg hj]; exact he
                · intro j e hn he
                  rw [hstor2] at hn
                  simp only [AMap.get?_set] at he
                  by_cases hj : j = k
                  · subst hj
                    rw [if_pos rfl] at he
                    cases he
                    rw [hdv]
                  · rw [if_neg hj, hn] at he; cases he
                · rw [hstor2]
                · refine ⟨{ initial := db.readStorage a c.incarnation k, original := db.readStorage a c.incarnation k }, ?_⟩
                  rw [stor_set, if_pos rfl]
                  exact AMap.get?_set_self _ _ _
        obtain ⟨k1, k2, k3, k4⟩ := hcomm
        cases original with
        | true =>
          simp only [if_true]
          exact ⟨h1.trans k1, k2.trans h2, Or.inr k3, Or.inl k4⟩
        | false =>
          simp only [Bool.false_eq_true, if_false]
          cases hcu : ((s1.storage.get? a).getD {}).current.get? k with
          | some v =>
            exact ⟨h1.trans e2, h2, Or.inl ⟨v, by simp only; rw [hstor2]; exact hcu⟩, Or.inl (by rw [ho2]; simp)⟩
          | none => exact ⟨h1.trans k1, k2.trans h2, Or.inr k3, Or.inl k4⟩

/-- The state with a current storage value. -/
def withCurrent (u : IntraBlockState) (a k w : Bytes) : IntraBlockState :=
  let st := (u.storage.get? a).getD {}
  { u with storage := u.storage.set a { st with current := st.current.set k w } }

theorem setStorage_cell (hz : ∀ a k, db.readStorage a 0 k = zero32) (s : IntraBlockState) (a k v : Bytes) :
    CellStep db s (setStorage db s a k v) := by
  obtain ⟨h1, h2, h3, h4⟩ := getStorage_cell hz s a k false
  unfold setStorage getCurrentStorage
  cases hg : getStorage db s a k false with
  | mk prev s1 =>
    rw [hg] at h1 h2 h3 h4
    simp only at h1 h2 h3 h4 ⊢
    by_cases hp : prev = v
    · rw [if_pos hp]; exact CellStep.of_ext h1 h2
    · rw [if_neg hp]
      refine (CellStep.of_ext h1 h2).trans ?_
      have hst : ∀ (u : IntraBlockState) (w : Bytes) (b : Bytes), cell (withCurrent u a k w) b =
          if b = a then (u.objects.get? a, some { (stor u a) with current := (stor u a).current.set k w })
          else cell u b := fun u w b => cell_setStor u a b _
      have ecell : ∀ b, cell ((withCurrent s1 a k v).push (.storageChange a k prev)) b =
          if b = a then (s1.objects.get? a, some { (stor s1 a) with current := (stor s1 a).current.set k v })
          else cell s1 b := hst s1 v
      show CellStep db s1 ((withCurrent s1 a k v).push (.storageChange a k prev))
      refine ⟨⟨[.storageChange a k prev], rfl, fun t ht b => ?_⟩, fun x b => ?_⟩
      · show CellExt db b (cell s1 b) (cell (withCurrent t a k prev) b)
        have hb' := ht b
        rw [ecell] at hb'
        rw [hst]
        by_cases hb : b = a
        · subst hb
          rw [if_pos rfl] at hb' ⊢
          refine ⟨hb'.obj, hb'.old, hb'.new, fun j w hw => ?_, fun _ => ?_⟩
          · have hw' : ((stor t b).current.set k prev).get? j = some w := hw
            rw [AMap.get?_set] at hw'
            by_cases hj : j = k
            · subst hj
              rcases h3 with ⟨x, hx⟩ | ⟨e, he⟩ | hz'
              · exact Or.inl ⟨x, hx⟩
              · exact Or.inr (Or.inl ⟨e, hb'.old j e he⟩)
              · refine Or.inr (Or.inr ?_)
                rw [← hz']
                exact hb'.dv j
            · rw [if_neg hj] at hw'
              rcases hb'.current j w hw' with ⟨y, hy⟩ | h5 | h5
              · have hy' : ((stor s1 b).current.set k v).get? j = some y := hy
                rw [AMap.get?_set, if_neg hj] at hy'
                exact Or.inl ⟨y, hy'⟩
              · exact Or.inr (Or.inl h5)
              · exact Or.inr (Or.inr h5)
          · rcases h4 with h5 | h5
            · refine Or.inr (Or.inl ?_)
              rcases hb'.obj with h6 | ⟨h6, x, _, h7⟩
              · have h6' : t.objects.get? b = s1.objects.get? b := h6
                show t.objects.get? b ≠ none
                rw [h6']; exact h5
              · have h7' : t.objects.get? b = _ := h7
                show t.objects.get? b ≠ none
                rw [h7']; simp
            · exact Or.inr (Or.inr h5)
        · rw [if_neg hb] at hb' ⊢; exact hb'
      · rw [ecell]
        by_cases hb : b = a
        · subst hb
          rw [if_pos rfl]
          have hx := x b
          refine ⟨hx.committed, fun j w hw hn => ?_, fun _ => h4⟩
          have hw' : ((stor s1 b).current.set k v).get? j = some w := hw
          rw [AMap.get?_set] at hw'
          by_cases hj : j = k
          · subst hj
            rcases h3 with ⟨y, hy⟩ | ⟨e, he⟩ | hz'
            · exact hx.current j y hy hn
            · have hn' : (stor s1 b).committed.get? j = none := hn
              rw [he] at hn'; cases hn'
            · exact hz'
          · rw [if_neg hj] at hw'
            exact hx.current j w hw' hn
        · rw [if_neg hb]; exact x b

end Silkworm.IntraBlockState
