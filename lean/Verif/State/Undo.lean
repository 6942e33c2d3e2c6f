import Verif.State.Views
import Verif.State.Trace

/-!
# Undoing operations

Helper lemmas: the deltas an operation pushes on the journal lead back to the state before it.
-/

namespace Silkworm.IntraBlockState

open State

/-- Two states agree up to caches. Storage of accounts that do not exist is compared only if `strict`. -/
structure Sim (db : StateReader) (strict : Prop) (s t : IntraBlockState) : Prop where
  obj : ∀ a, effObj db s a = effObj db t a
  orig : ∀ a, (strict ∨ (curOf db s a).isSome) → ∀ k, origOf db s a k = origOf db t a k
  curv : ∀ a, (strict ∨ (curOf db s a).isSome) → ∀ k, curvOf db s a k = curvOf db t a k
  selfDestructs : s.selfDestructs = t.selfDestructs
  touched : s.touched.filter (· != kRipemdAddress) = t.touched.filter (· != kRipemdAddress)
  accessedAddresses : s.accessedAddresses = t.accessedAddresses
  keys : ∀ a, keysOf s a = keysOf t a

variable {db : StateReader} {strict : Prop}

theorem Sim.refl (s : IntraBlockState) : Sim db strict s s :=
  ⟨fun _ => rfl, fun _ _ _ => rfl, fun _ _ _ => rfl, rfl, rfl, rfl, fun _ => rfl⟩

theorem Sim.cur {s t : IntraBlockState} (h : Sim db strict s t) (a : Bytes) : curOf db s a = curOf db t a := by
  unfold curOf; rw [h.obj]

theorem Sim.ini {s t : IntraBlockState} (h : Sim db strict s t) (a : Bytes) : iniOf db s a = iniOf db t a := by
  unfold iniOf; rw [h.obj]

theorem Sim.symm {s t : IntraBlockState} (h : Sim db strict s t) : Sim db strict t s :=
  ⟨fun a => (h.obj a).symm, fun a ha k => (h.orig a (by rwa [h.cur]) k).symm,
   fun a ha k => (h.curv a (by rwa [h.cur]) k).symm, h.selfDestructs.symm, h.touched.symm, h.accessedAddresses.symm,
   fun a => (h.keys a).symm⟩

theorem Sim.trans {s t u : IntraBlockState} (h : Sim db strict s t) (g : Sim db strict t u) : Sim db strict s u :=
  ⟨fun a => (h.obj a).trans (g.obj a), fun a ha k => (h.orig a ha k).trans (g.orig a (by rwa [← h.cur]) k),
   fun a ha k => (h.curv a ha k).trans (g.curv a (by rwa [← h.cur]) k), h.selfDestructs.trans g.selfDestructs,
   h.touched.trans g.touched, h.accessedAddresses.trans g.accessedAddresses, fun a => (h.keys a).trans (g.keys a)⟩

theorem Same.sim {s t : IntraBlockState} (h : Same db s t) : Sim db strict s t :=
  ⟨h.obj, fun a _ k => h.orig a k, fun a _ k => h.curv a k, h.selfDestructs, by rw [h.touched], h.accessedAddresses,
   h.keys⟩

/-- Storage values depend on the object only through the initial account and the incarnation. -/
theorem origOf_eq {s t : IntraBlockState} {a : Bytes} (hi : iniOf db s a = iniOf db t a)
    (hc : incOf (curOf db s a) = incOf (curOf db t a)) (hs : stor s a = stor t a) (k : Bytes) :
    origOf db s a k = origOf db t a k := by
  unfold origOf; rw [hi, hc, hs]

theorem curvOf_eq {s t : IntraBlockState} {a : Bytes} (hi : iniOf db s a = iniOf db t a)
    (hc : incOf (curOf db s a) = incOf (curOf db t a)) (hs : stor s a = stor t a) (k : Bytes) :
    curvOf db s a k = curvOf db t a k := by
  unfold curvOf; rw [hi, hc, hs]

theorem undo_append (xs ys : List Delta) (s : IntraBlockState) : undo (xs ++ ys) s = undo ys (undo xs s) := by
  unfold undo; rw [List.foldl_append]

/-- `s'` comes from `s` by steps that the new part of the journal undoes. -/
def Und (db : StateReader) (strict : Prop) (s s' : IntraBlockState) : Prop :=
  ∃ ds, s'.journal = ds ++ s.journal ∧ (∀ d ∈ ds, d ≠ .touch kRipemdAddress) ∧
    ∀ t, Sim db strict s' t → Sim db strict s (undo ds t)

theorem Und.refl (s : IntraBlockState) : Und db strict s s := ⟨[], rfl, by simp, fun _ h => h⟩

theorem Und.trans {s t u : IntraBlockState} (h : Und db strict s t) (g : Und db strict t u) : Und db strict s u := by
  obtain ⟨ds, hj, hn, hu⟩ := h
  obtain ⟨es, gj, gn, gu⟩ := g
  refine ⟨es ++ ds, ?_, fun d hd => ?_, fun x hx => ?_⟩
  · rw [gj, hj, List.append_assoc]
  · rcases List.mem_append.mp hd with hd | hd
    · exact gn d hd
    · exact hn d hd
  · rw [undo_append]; exact hu _ (gu x hx)

theorem Same.und {s t : IntraBlockState} (h : Same db s t) : Und db strict s t :=
  ⟨[], h.journal.symm, by simp, fun _ hx => h.sim.trans hx⟩

theorem effObj_erase (s : IntraBlockState) (a b : Bytes) :
    effObj db { s with objects := s.objects.erase a } b =
      if b = a then (db.readAccount a).map (fun x => { initial := some x, current := some x }) else effObj db s b := by
  unfold effObj
  simp only [AMap.get?_erase]
  by_cases h : b = a
  · simp [h]
  · simp [h]

theorem readAccount_none_of_effObj {s : IntraBlockState} {a : Bytes} (h : effObj db s a = none) :
    db.readAccount a = none := by
  unfold effObj at h
  cases ho : s.objects.get? a with
  | some o => rw [ho] at h; cases h
  | none => rw [ho] at h; simpa using h

theorem curOf_set (s : IntraBlockState) (a b : Bytes) (o : Object) :
    curOf db { s with objects := s.objects.set a o } b = if b = a then o.current else curOf db s b := by
  unfold curOf; rw [effObj_set]; by_cases h : b = a <;> simp [h]

theorem iniOf_set (s : IntraBlockState) (a b : Bytes) (o : Object) :
    iniOf db { s with objects := s.objects.set a o } b = if b = a then o.initial else iniOf db s b := by
  unfold iniOf; rw [effObj_set]; by_cases h : b = a <;> simp [h]

/-- Replacing an object by one with the same initial account and incarnation, after journalling the old one. -/
theorem und_update {s : IntraBlockState} {a : Bytes} {o o' : Object} (h : effObj db s a = some o)
    (hi : o'.initial = o.initial) (hc : incOf o'.current = incOf o.current)
    (hl : o.current.isSome → o'.current.isSome) :
    Und db strict s { s.push (.update a o) with objects := s.objects.set a o' } := by
  refine ⟨[.update a o], rfl, by simp, fun t ht => ?_⟩
  have hcs : curOf db s a = o.current := by unfold curOf; rw [h]; rfl
  have his : iniOf db s a = o.initial := by unfold iniOf; rw [h]; rfl
  have eobj : ∀ b, effObj db { s.push (.update a o) with objects := s.objects.set a o' } b =
      if b = a then some o' else effObj db s b := fun b => effObj_set db s a b o'
  have eobjt : ∀ b, effObj db { t with objects := t.objects.set a o } b =
      if b = a then some o else effObj db t b := fun b => effObj_set db t a b o
  show Sim db strict s { t with objects := t.objects.set a o }
  have key : ∀ b, (strict ∨ (curOf db s b).isSome) →
      (strict ∨ (curOf db { s.push (.update a o) with objects := s.objects.set a o' } b).isSome) := by
    intro b hb
    rcases hb with hb | hb
    · exact Or.inl hb
    · right
      have : curOf db { s.push (.update a o) with objects := s.objects.set a o' } b =
          if b = a then o'.current else curOf db s b := curOf_set s a b o'
      rw [this]
      by_cases hba : b = a
      · rw [if_pos hba]; subst hba; rw [hcs] at hb; exact hl hb
      · rw [if_neg hba]; exact hb
  have c1 : ∀ b, curOf db { s.push (.update a o) with objects := s.objects.set a o' } b =
      if b = a then o'.current else curOf db s b := fun b => curOf_set s a b o'
  have i1 : ∀ b, iniOf db { s.push (.update a o) with objects := s.objects.set a o' } b =
      if b = a then o'.initial else iniOf db s b := fun b => iniOf_set s a b o'
  have ini' : ∀ b, iniOf db s b = iniOf db { s.push (.update a o) with objects := s.objects.set a o' } b := by
    intro b; rw [i1]; by_cases hb : b = a
    · rw [if_pos hb, hb, his, hi]
    · rw [if_neg hb]
  have inc' : ∀ b, incOf (curOf db s b) =
      incOf (curOf db { s.push (.update a o) with objects := s.objects.set a o' } b) := by
    intro b; rw [c1]; by_cases hb : b = a
    · rw [if_pos hb, hb, hcs, hc]
    · rw [if_neg hb]
  have tini : ∀ b, iniOf db t b = iniOf db { t with objects := t.objects.set a o } b := by
    intro b; rw [← ht.ini, ← ini', iniOf_set]; by_cases hb : b = a
    · rw [if_pos hb, hb, his]
    · rw [if_neg hb, ini', ht.ini]
  have tinc : ∀ b, incOf (curOf db t b) = incOf (curOf db { t with objects := t.objects.set a o } b) := by
    intro b; rw [← ht.cur, ← inc', curOf_set]; by_cases hb : b = a
    · rw [if_pos hb, hb, hcs]
    · rw [if_neg hb, inc', ht.cur]
  refine ⟨fun b => ?_, fun b hb k => ?_, fun b hb k => ?_, ht.selfDestructs, ht.touched, ht.accessedAddresses, ht.keys⟩
  · rw [eobjt]
    by_cases hb : b = a
    · rw [if_pos hb, hb, h]
    · rw [if_neg hb, ← ht.obj, eobj, if_neg hb]
  · exact ((origOf_eq (ini' b) (inc' b) rfl k).trans (ht.orig b (key b hb) k)).trans (origOf_eq (tini b) (tinc b) rfl k)
  · exact ((curvOf_eq (ini' b) (inc' b) rfl k).trans (ht.curv b (key b hb) k)).trans (curvOf_eq (tini b) (tinc b) rfl k)

/-- Creating an object without initial account and with incarnation zero. -/
theorem und_create {s : IntraBlockState} {a : Bytes} {o' : Object} (h : effObj db s a = none)
    (hi : o'.initial = none) (hc : incOf o'.current = 0) :
    Und db strict s { s.push (.create a) with objects := s.objects.set a o' } := by
  refine ⟨[.create a], rfl, by simp, fun t ht => ?_⟩
  have hcs : curOf db s a = none := by unfold curOf; rw [h]; rfl
  have his : iniOf db s a = none := by unfold iniOf; rw [h]; rfl
  have hdb := readAccount_none_of_effObj h
  have eobjt : ∀ b, effObj db { t with objects := t.objects.erase a } b =
      if b = a then none else effObj db t b := by
    intro b; rw [effObj_erase, hdb]; rfl
  show Sim db strict s { t with objects := t.objects.erase a }
  have c1 : ∀ b, curOf db { s.push (.create a) with objects := s.objects.set a o' } b =
      if b = a then o'.current else curOf db s b := fun b => curOf_set s a b o'
  have i1 : ∀ b, iniOf db { s.push (.create a) with objects := s.objects.set a o' } b =
      if b = a then o'.initial else iniOf db s b := fun b => iniOf_set s a b o'
  have e1 : ∀ b, effObj db { s.push (.create a) with objects := s.objects.set a o' } b =
      if b = a then some o' else effObj db s b := fun b => effObj_set db s a b o'
  have key : ∀ b, (strict ∨ (curOf db s b).isSome) →
      (strict ∨ (curOf db { s.push (.create a) with objects := s.objects.set a o' } b).isSome) := by
    intro b hb
    rcases hb with hb | hb
    · exact Or.inl hb
    · right
      rw [c1]
      by_cases hba : b = a
      · subst hba; rw [hcs] at hb; cases hb
      · rw [if_neg hba]; exact hb
  have ini' : ∀ b, iniOf db s b = iniOf db { s.push (.create a) with objects := s.objects.set a o' } b := by
    intro b; rw [i1]; by_cases hb : b = a
    · rw [if_pos hb, hb, his, hi]
    · rw [if_neg hb]
  have inc' : ∀ b, incOf (curOf db s b) =
      incOf (curOf db { s.push (.create a) with objects := s.objects.set a o' } b) := by
    intro b; rw [c1]; by_cases hb : b = a
    · rw [if_pos hb, hb, hcs, hc]; rfl
    · rw [if_neg hb]
  have tobj : ∀ b, effObj db s b = effObj db { t with objects := t.objects.erase a } b := by
    intro b
    rw [eobjt]
    by_cases hb : b = a
    · rw [if_pos hb, hb, h]
    · rw [if_neg hb, ← ht.obj, e1, if_neg hb]
  have tini : ∀ b, iniOf db t b = iniOf db { t with objects := t.objects.erase a } b := by
    intro b; rw [← ht.ini, ← ini']; unfold iniOf; rw [tobj]
  have tinc : ∀ b, incOf (curOf db t b) = incOf (curOf db { t with objects := t.objects.erase a } b) := by
    intro b; rw [← ht.cur, ← inc']; unfold curOf; rw [tobj]
  refine ⟨tobj, fun b hb k => ?_, fun b hb k => ?_, ht.selfDestructs, ht.touched, ht.accessedAddresses, ht.keys⟩
  · exact ((origOf_eq (ini' b) (inc' b) rfl k).trans (ht.orig b (key b hb) k)).trans (origOf_eq (tini b) (tinc b) rfl k)
  · exact ((curvOf_eq (ini' b) (inc' b) rfl k).trans (ht.curv b (key b hb) k)).trans (curvOf_eq (tini b) (tinc b) rfl k)

/-- What `getOrCreateObject` returns and does. -/
theorem getOrCreateObject_und (s : IntraBlockState) (a : Bytes) :
    ∃ o c s', getOrCreateObject db s a = (o, c, s') ∧ effObj db s' a = some o ∧ o.current = some c ∧
      Und db strict s s' := by
  obtain ⟨s1, h, hs⟩ := getObject_eq (db := db) s a
  unfold getOrCreateObject
  rw [h]
  cases ho : effObj db s a with
  | none =>
    refine ⟨_, _, _, rfl, ?_, rfl, hs.und.trans (und_create (by rw [← hs.obj, ho]) rfl rfl)⟩
    exact (effObj_set db s1 a a _).trans (if_pos rfl)
  | some o =>
    have h1 : effObj db s1 a = some o := by rw [← hs.obj, ho]
    cases hc : o.current with
    | none =>
      simp only [hc]
      refine ⟨_, _, _, rfl, ?_, rfl, hs.und.trans (und_update h1 rfl (by rw [hc]; rfl) (fun _ => rfl))⟩
      exact (effObj_set db s1 a a _).trans (if_pos rfl)
    | some c =>
      simp only [hc]
      exact ⟨o, c, s1, rfl, h1, hc, hs.und⟩

theorem modifyCurrent_und (s : IntraBlockState) (a : Bytes) (f : Account → Account)
    (hf : ∀ c, (f c).incarnation = c.incarnation) : Und db strict s (modifyCurrent db s a f) := by
  obtain ⟨o, c, s', h, he, hc, hu⟩ := getOrCreateObject_und (db := db) (strict := strict) s a
  unfold modifyCurrent
  rw [h]
  refine hu.trans (und_update he rfl ?_ (fun _ => rfl))
  rw [hc]; exact hf c

theorem filter_setErase (l : List Bytes) (a : Bytes) (p : Bytes → Bool) :
    (setErase l a).filter p = setErase (l.filter p) a := by
  unfold setErase
  rw [List.filter_filter, List.filter_filter]
  congr 1
  funext x
  rw [Bool.and_comm]

theorem touch_und (s : IntraBlockState) (a : Bytes) : Und db strict s (touch s a) := by
  unfold touch
  by_cases h : s.touched.contains a
  · rw [if_pos h]; exact Und.refl s
  · rw [if_neg h]
    have hn : a ∉ s.touched := by simpa using h
    have hins : setInsert s.touched a = a :: s.touched := setInsert_of_not_mem hn
    dsimp only
    by_cases hr : a = kRipemdAddress
    · rw [if_neg (by simpa using hr)]
      refine ⟨[], rfl, by simp, fun t ht => ⟨ht.obj, ht.orig, ht.curv, ht.selfDestructs, ?_, ht.accessedAddresses, ht.keys⟩⟩
      rw [show undo [] t = t from rfl, ← ht.touched]
      show _ = (setInsert s.touched a).filter _
      rw [hins, List.filter_cons]
      simp [hr]
    · rw [if_pos (by simpa using hr)]
      refine ⟨[.touch a], rfl, by simpa using hr, fun t ht => ⟨ht.obj, ht.orig, ht.curv, ht.selfDestructs, ?_, ht.accessedAddresses, ht.keys⟩⟩
      show _ = (setErase t.touched a).filter _
      rw [filter_setErase, ← ht.touched]
      show _ = setErase ((setInsert s.touched a).filter _) a
      rw [hins, List.filter_cons, if_pos (by simpa using hr), setErase_cons_self]
      intro hm
      exact hn (List.mem_filter.mp hm).1

theorem recordSuicide_und (s : IntraBlockState) (a : Bytes) : Und db strict s (recordSuicide s a) := by
  unfold recordSuicide
  by_cases h : s.selfDestructs.contains a
  · rw [if_pos h]; exact Und.refl s
  · rw [if_neg h]
    have hn : a ∉ s.selfDestructs := by simpa using h
    refine ⟨[.suicide a], rfl, by simp, fun t ht => ⟨ht.obj, ht.orig, ht.curv, ?_, ht.touched, ht.accessedAddresses, ht.keys⟩⟩
    show _ = setErase t.selfDestructs a
    rw [← ht.selfDestructs]
    show _ = setErase (setInsert s.selfDestructs a) a
    rw [setInsert_of_not_mem hn, setErase_cons_self hn]

theorem accessAccount_und (s : IntraBlockState) (a : Bytes) : Und db strict s (accessAccount s a).2 := by
  unfold accessAccount
  by_cases h : s.accessedAddresses.contains a
  · rw [if_pos h]; exact Und.refl s
  · rw [if_neg h]
    have hn : a ∉ s.accessedAddresses := by simpa using h
    refine ⟨[.accountAccess a], rfl, by simp, fun t ht => ⟨ht.obj, ht.orig, ht.curv, ht.selfDestructs, ht.touched, ?_, ht.keys⟩⟩
    show _ = setErase t.accessedAddresses a
    rw [← ht.accessedAddresses]
    show _ = setErase (setInsert s.accessedAddresses a) a
    rw [setInsert_of_not_mem hn, setErase_cons_self hn]

theorem keysOf_set (s : IntraBlockState) (a b : Bytes) (l : List Bytes) :
    keysOf { s with accessedStorageKeys := s.accessedStorageKeys.set a l } b = if b = a then l else keysOf s b := by
  unfold keysOf
  simp only [AMap.get?_set]
  by_cases h : b = a <;> simp [h]

theorem accessStorage_und (s : IntraBlockState) (a k : Bytes) : Und db strict s (accessStorage s a k).2 := by
  unfold accessStorage
  by_cases h : ((s.accessedStorageKeys.get? a).getD []).contains k
  · simp only [if_pos h]
    refine ⟨[], rfl, by simp, fun t ht => ⟨ht.obj, ht.orig, ht.curv, ht.selfDestructs, ht.touched, ht.accessedAddresses, fun b => ?_⟩⟩
    show _ = keysOf t b
    rw [← ht.keys]
    rw [keysOf_set]
    by_cases hb : b = a
    · rw [if_pos hb, hb]; rfl
    · rw [if_neg hb]
  · simp only [if_neg h]
    have hn : k ∉ keysOf s a := by unfold keysOf; simpa using h
    refine ⟨[.storageAccess a k], rfl, by simp, fun t ht =>
      ⟨ht.obj, ht.orig, ht.curv, ht.selfDestructs, ht.touched, ht.accessedAddresses, fun b => ?_⟩⟩
    have e : ∀ b, keysOf t b = if b = a then k :: keysOf s a else keysOf s b := by
      intro b
      rw [← ht.keys]
      have := keysOf_set (s.push (.storageAccess a k)) a b (setInsert (keysOf s a) k)
      rw [setInsert_of_not_mem hn] at this
      refine Eq.trans ?_ this
      rw [← setInsert_of_not_mem hn]
      rfl
    show _ = keysOf { t with accessedStorageKeys := t.accessedStorageKeys.set a (setErase (keysOf t a) k) } b
    rw [keysOf_set]
    by_cases hb : b = a
    · rw [if_pos hb, e a, if_pos rfl, hb, setErase_cons_self hn]
    · rw [if_neg hb, e b, if_neg hb]

/-- Replacing the object and forgetting the storage, after journalling both. -/
theorem und_replace {s s1 : IntraBlockState} {a : Bytes} {o' : Object} {d : Delta}
    (hs1 : s1 = { s.push d with objects := s.objects.set a o' }) (hlive : o'.current.isSome)
    (hdr : d ≠ .touch kRipemdAddress) (hd : ∀ t, (∃ m, d.revert t = { t with objects := m }) ∧
      (∀ b, effObj db (d.revert t) b = if b = a then effObj db s a else effObj db t b)) :
    Und db strict s (wipeStorage s1 a) := by
  have e1 : ∀ b, effObj db s1 b = if b = a then some o' else effObj db s b := by
    intro b; rw [hs1]; exact effObj_set db s a b o'
  have key : ∀ (w : Delta) (s2 : IntraBlockState), w ≠ .touch kRipemdAddress → s2.objects = s1.objects → s2.journal = w :: s1.journal →
      s2.selfDestructs = s.selfDestructs → s2.touched = s.touched → s2.accessedAddresses = s.accessedAddresses →
      s2.accessedStorageKeys = s.accessedStorageKeys →
      (∀ b, b ≠ a → stor s2 b = stor s b) →
      (∀ t, (∃ m, w.revert t = { t with storage := m }) ∧
        ∀ b, stor (w.revert t) b = if b = a then stor s a else stor t b) →
      Und db strict s s2 := by
    intro w s2 hwr ho hj hsd hto hac hke hst hw
    refine ⟨[w, d], by rw [hj, hs1]; rfl, by simp [hwr, hdr], fun t ht => ?_⟩
    show Sim db strict s (d.revert (w.revert t))
    obtain ⟨⟨m, hm⟩, hws⟩ := hw t
    obtain ⟨⟨m', hm'⟩, hdo⟩ := hd (w.revert t)
    have e2 : ∀ b, effObj db s2 b = effObj db s1 b := fun b => by unfold effObj; rw [ho]
    have hobj : ∀ b, effObj db s b = effObj db (d.revert (w.revert t)) b := by
      intro b
      rw [hdo]
      by_cases hb : b = a
      · rw [if_pos hb, hb]
      · rw [if_neg hb]
        have : effObj db (w.revert t) b = effObj db t b := by rw [hm]; rfl
        rw [this, ← ht.obj, e2, e1, if_neg hb]
    have hsto : ∀ b, stor (d.revert (w.revert t)) b = if b = a then stor s a else stor t b := by
      intro b
      rw [hm', ← hws b]
      rfl
    have live : ∀ b, b ≠ a → (strict ∨ (curOf db s b).isSome) → (strict ∨ (curOf db s2 b).isSome) := by
      intro b hb h
      have : curOf db s2 b = curOf db s b := by unfold curOf; rw [e2, e1, if_neg hb]
      rwa [this]
    have tobj : ∀ b, b ≠ a → effObj db t b = effObj db (d.revert (w.revert t)) b := by
      intro b hb; rw [← ht.obj, e2, e1, if_neg hb, hobj]
    refine ⟨hobj, fun b hb k => ?_, fun b hb k => ?_, ?_, ?_, ?_, ?_⟩
    · by_cases hba : b = a
      · subst hba
        exact origOf_congr (hobj _) (by rw [hsto, if_pos rfl]) k
      · refine (origOf_congr ?_ (hst b hba).symm k).trans ((ht.orig b (live b hba hb) k).trans
          (origOf_congr (tobj b hba) (by rw [hsto, if_neg hba]) k))
        rw [e2, e1, if_neg hba]
    · by_cases hba : b = a
      · subst hba
        exact curvOf_congr (hobj _) (by rw [hsto, if_pos rfl]) k
      · refine (curvOf_congr ?_ (hst b hba).symm k).trans ((ht.curv b (live b hba hb) k).trans
          (curvOf_congr (tobj b hba) (by rw [hsto, if_neg hba]) k))
        rw [e2, e1, if_neg hba]
    · rw [hm', hm]; show _ = t.selfDestructs; rw [← ht.selfDestructs, hsd]
    · rw [hm', hm]; show _ = t.touched.filter _; rw [← ht.touched, hto]
    · rw [hm', hm]; show _ = t.accessedAddresses; rw [← ht.accessedAddresses, hac]
    · intro b
      have : keysOf (d.revert (w.revert t)) b = keysOf t b := by rw [hm', hm]; rfl
      rw [this, ← ht.keys]; unfold keysOf; rw [hke]
  have hstor1 : s1.storage = s.storage := by rw [hs1]; rfl
  unfold wipeStorage
  cases hst : s1.storage.get? a with
  | none =>
    simp only
    refine key (.storageCreate a) _ (by simp) (by rfl) (by rfl) (by rw [hs1]; rfl) (by rw [hs1]; rfl) (by rw [hs1]; rfl) (by rw [hs1]; rfl) ?_ ?_
    · intro b _
      show stor s1 b = _
      unfold stor; rw [hstor1]
    · intro t
      refine ⟨⟨_, rfl⟩, fun b => ?_⟩
      refine (stor_erase t a b).trans ?_
      by_cases hb : b = a
      · rw [if_pos hb, if_pos hb]
        unfold stor; rw [← hstor1, hst]; rfl
      · rw [if_neg hb, if_neg hb]
  | some st =>
    simp only
    refine key (.storageWipe a st) _ (by simp) (by rfl) (by rfl) (by rw [hs1]; rfl) (by rw [hs1]; rfl) (by rw [hs1]; rfl) (by rw [hs1]; rfl) ?_ ?_
    · intro b hb
      refine (stor_erase s1 a b).trans ?_
      rw [if_neg hb]; unfold stor; rw [hstor1]
    · intro t
      refine ⟨⟨_, rfl⟩, fun b => ?_⟩
      refine (stor_set t a b st).trans ?_
      by_cases hb : b = a
      · rw [if_pos hb, if_pos hb]
        unfold stor; rw [← hstor1, hst]; rfl
      · rw [if_neg hb, if_neg hb]

theorem createContract_und (s : IntraBlockState) (a : Bytes) : Und db strict s (createContract db s a) := by
  obtain ⟨s1, h, hs⟩ := getObject_eq (db := db) s a
  unfold createContract
  rw [h]
  cases ho : effObj db s a with
  | none =>
    have h1 : effObj db s1 a = none := by rw [← hs.obj, ho]
    refine hs.und.trans (und_replace (d := .create a) rfl rfl (by simp) fun t => ⟨⟨_, rfl⟩, fun b => ?_⟩)
    refine (effObj_erase t a b).trans ?_
    rw [readAccount_none_of_effObj h1, h1]
    rfl
  | some o =>
    have h1 : effObj db s1 a = some o := by rw [← hs.obj, ho]
    refine hs.und.trans (und_replace (d := .update a o) rfl rfl (by simp) fun t => ⟨⟨_, rfl⟩, fun b => ?_⟩)
    rw [h1]
    exact effObj_set db t a b o

theorem setStorage_und (s : IntraBlockState) (a k v : Bytes) (hl : strict → (curOf db s a).isSome) :
    Und db strict s (setStorage db s a k v) := by
  obtain ⟨s1, h, hs⟩ := getStorage_eq (db := db) s a k false
  unfold setStorage getCurrentStorage
  rw [h]
  simp only
  by_cases hv : storageView db s a k false = v
  · rw [if_pos hv]; exact hs.und
  · rw [if_neg hv]
    refine hs.und.trans ⟨[.storageChange a k (storageView db s a k false)], rfl, by simp, fun t ht => ?_⟩
    have hst : ∀ b, stor { s1.push (.storageChange a k (storageView db s a k false)) with
        storage := s1.storage.set a { (stor s1 a) with current := (stor s1 a).current.set k v } } b =
        if b = a then { (stor s1 a) with current := (stor s1 a).current.set k v } else stor s1 b :=
      fun b => stor_set s1 a b _
    have hstt : ∀ b, stor { t with storage := t.storage.set a { (stor t a) with
        current := (stor t a).current.set k (storageView db s a k false) } } b =
        if b = a then { (stor t a) with current := (stor t a).current.set k (storageView db s a k false) }
        else stor t b := fun b => stor_set t a b _
    have tobj : ∀ b, effObj db s1 b = effObj db t b := ht.obj
    have tini : ∀ b, iniOf db s1 b = iniOf db t b := fun b => by unfold iniOf; rw [tobj]
    have tcur : ∀ b, curOf db s1 b = curOf db t b := fun b => by unfold curOf; rw [tobj]
    show Sim db strict s1 { t with storage := t.storage.set a { (stor t a) with
      current := (stor t a).current.set k (storageView db s a k false) } }
    have horig : ∀ b, (strict ∨ (curOf db s1 b).isSome) → ∀ j, origOf db s1 b j =
        origOf db { t with storage := t.storage.set a { (stor t a) with
          current := (stor t a).current.set k (storageView db s a k false) } } b j := by
      intro b hb j
      have h1 := ht.orig b hb j
      have h2 : origOf db s1 b j = origOf db { s1.push (.storageChange a k (storageView db s a k false)) with
          storage := s1.storage.set a { (stor s1 a) with current := (stor s1 a).current.set k v } } b j := by
        unfold origOf
        rw [hst]
        by_cases hba : b = a
        · rw [if_pos hba, hba]; rfl
        · rw [if_neg hba]; rfl
      have h3 : origOf db t b j = origOf db { t with storage := t.storage.set a { (stor t a) with
          current := (stor t a).current.set k (storageView db s a k false) } } b j := by
        unfold origOf
        rw [hstt]
        by_cases hba : b = a
        · rw [if_pos hba, hba]; rfl
        · rw [if_neg hba]; rfl
      exact (h2.trans h1).trans h3
    refine ⟨tobj, horig, fun b hb j => ?_, ht.selfDestructs, ht.touched, ht.accessedAddresses, ht.keys⟩
    by_cases hba : b = a
    · subst hba
      by_cases hj : j = k
      · subst hj
        have hlive : (curOf db s b).isSome := by
          rcases hb with hb | hb
          · exact hl hb
          · rwa [hs.cur]
        have hval : storageView db s b j false = curvOf db s1 b j := by
          unfold storageView
          cases hc : curOf db s b with
          | none => rw [hc] at hlive; cases hlive
          | some c => simp [hs.curv]
        rw [hval]
        unfold curvOf
        rw [show ∀ st, stor { t with storage := t.storage.set b st } b = st from
          fun st => (stor_set t b b st).trans (if_pos rfl)]
        simp [curIn]
      · have h1 := ht.curv b hb j
        have h2 : curvOf db s1 b j = curvOf db { s1.push (.storageChange b k (storageView db s b k false)) with
            storage := s1.storage.set b { (stor s1 b) with current := (stor s1 b).current.set k v } } b j := by
          unfold curvOf
          rw [hst, if_pos rfl]
          unfold curIn
          simp only [AMap.get?_set_ne _ hj]
          rfl
        have h3 : curvOf db t b j = curvOf db { t with storage := t.storage.set b { (stor t b) with
            current := (stor t b).current.set k (storageView db s b k false) } } b j := by
          unfold curvOf
          rw [hstt, if_pos rfl]
          unfold curIn
          simp only [AMap.get?_set_ne _ hj]
          rfl
        exact (h2.trans h1).trans h3
    · refine (curvOf_congr (by rfl) ?_ j).trans ((ht.curv b hb j).trans (curvOf_congr (by rfl) ?_ j))
      · exact ((hst b).trans (if_neg hba)).symm
      · exact ((hstt b).trans (if_neg hba)).symm

end Silkworm.IntraBlockState
