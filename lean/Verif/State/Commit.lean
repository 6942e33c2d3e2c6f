import Verif.State.Shape
import Verif.State.BufferLemmas

/-!
# Writing the state to the buffer

Helper lemmas: the calls of `write_to_db` and the buffer after them, in any order.
-/

namespace Silkworm.IntraBlockState

open State Spec MemoryBuffer

variable {keccak : Bytes → Bytes} {db : StateReader}

theorem mem_writeToDb {s : IntraBlockState} {m : Nat} {x : BufferCall} (h : x ∈ writeToDb s m) :
    x = .beginBlock m ∨ (∃ e ∈ s.storage, x ∈ storageCalls s e) ∨ ∃ e ∈ s.objects, x ∈ objectCalls s e := by
  unfold writeToDb at h
  rcases List.mem_cons.mp h with h | h
  · exact Or.inl h
  · rcases List.mem_append.mp h with h | h
    · exact Or.inr (Or.inl (List.mem_flatMap.mp h))
    · exact Or.inr (Or.inr (List.mem_flatMap.mp h))

theorem storageCalls_mem {s : IntraBlockState} {e : Bytes × Storage} {x : BufferCall} (h : x ∈ storageCalls s e) :
    ∃ o c kv, s.objects.get? e.1 = some o ∧ o.current = some c ∧ kv ∈ e.2.committed ∧
      x = .updateStorage e.1 c.incarnation kv.1 kv.2.initial kv.2.original := by
  unfold storageCalls at h
  cases ho : s.objects.get? e.1 with
  | none => rw [ho] at h; simp at h
  | some o =>
    rw [ho] at h
    simp only at h
    cases hc : o.current with
    | none => rw [hc] at h; simp at h
    | some c =>
      rw [hc] at h
      simp only [List.mem_map] at h
      obtain ⟨kv, hkv, e⟩ := h
      exact ⟨o, c, kv, rfl, hc, hkv, e.symm⟩

theorem objectCalls_mem {s : IntraBlockState} {e : Bytes × Object} {x : BufferCall} (h : x ∈ objectCalls s e) :
    x = .updateAccount e.1 e.2.initial e.2.current ∨
      ∃ c, e.2.current = some c ∧ codeChanged e.2 c = true ∧
        x = .updateAccountCode e.1 c.incarnation c.codeHash ((s.code.get? c.codeHash).getD []) := by
  unfold objectCalls at h
  rcases List.mem_cons.mp h with h | h
  · exact Or.inl h
  · right
    cases hc : e.2.current with
    | none => rw [hc] at h; simp at h
    | some c =>
      rw [hc] at h
      simp only at h
      by_cases hb : codeChanged e.2 c = true
      · rw [if_pos hb] at h
        simp only [List.mem_cons, List.not_mem_nil, or_false] at h
        exact ⟨c, rfl, hb, h⟩
      · rw [if_neg hb] at h; simp at h

theorem mem_updateAccount {s : IntraBlockState} (hw : AMap.WF s.objects) {m : Nat} {a : Bytes} {i c : Option Account} :
    .updateAccount a i c ∈ writeToDb s m ↔ s.objects.get? a = some { initial := i, current := c } := by
  constructor
  · intro h
    rcases mem_writeToDb h with h | ⟨e, _, h⟩ | ⟨e, he, h⟩
    · cases h
    · obtain ⟨_, _, _, _, _, _, h⟩ := storageCalls_mem h
      cases h
    · rcases objectCalls_mem h with h | ⟨_, _, _, h⟩
      · obtain ⟨a', o⟩ := e
        cases h
        exact AMap.get?_of_mem hw he
      · cases h
  · intro h
    refine List.mem_cons_of_mem _ (List.mem_append_right _ (List.mem_flatMap.mpr ⟨_, AMap.mem_of_get? h, ?_⟩))
    unfold objectCalls
    exact List.mem_cons_self

theorem mem_updateStorage {K : Bytes → Prop} {s : IntraBlockState} (hi : InvO db K s) {m : Nat} {a : Bytes} {n : Nat} {k v w : Bytes} :
    .updateStorage a n k v w ∈ writeToDb s m ↔
      ∃ o c, s.objects.get? a = some o ∧ o.current = some c ∧ c.incarnation = n ∧
        (stor s a).committed.get? k = some { initial := v, original := w } := by
  constructor
  · intro h
    rcases mem_writeToDb h with h | ⟨e, he, h⟩ | ⟨e, he, h⟩
    · cases h
    · obtain ⟨o, c, kv, h1, h2, h3, h4⟩ := storageCalls_mem h
      obtain ⟨a', st⟩ := e
      obtain ⟨k', cv⟩ := kv
      cases h4
      have hst := AMap.get?_of_mem hi.wfStorage he
      refine ⟨o, c, h1, h2, rfl, ?_⟩
      unfold stor
      rw [hst]
      exact AMap.get?_of_mem (hi.wfSt _ _ hst).1 h3
    · rcases objectCalls_mem h with h | ⟨_, _, _, h⟩ <;> cases h
  · rintro ⟨o, c, h1, h2, rfl, h3⟩
    cases hst : s.storage.get? a with
    | none => unfold stor at h3; rw [hst] at h3; cases h3
    | some st =>
      unfold stor at h3
      rw [hst] at h3
      refine List.mem_cons_of_mem _ (List.mem_append_left _ (List.mem_flatMap.mpr ⟨_, AMap.mem_of_get? hst, ?_⟩))
      unfold storageCalls
      simp only [h1, h2]
      exact List.mem_map.mpr ⟨_, AMap.mem_of_get? h3, rfl⟩

theorem mem_updateCode {s : IntraBlockState} (hw : AMap.WF s.objects) {m : Nat} {a : Bytes} {n : Nat} {x code : Bytes} :
    .updateAccountCode a n x code ∈ writeToDb s m ↔
      ∃ o c, s.objects.get? a = some o ∧ o.current = some c ∧ codeChanged o c = true ∧ c.incarnation = n ∧
        c.codeHash = x ∧ code = (s.code.get? x).getD [] := by
  constructor
  · intro h
    rcases mem_writeToDb h with h | ⟨e, he, h⟩ | ⟨e, he, h⟩
    · cases h
    · obtain ⟨o, c, kv, h1, h2, h3, h4⟩ := storageCalls_mem h
      cases h4
    · rcases objectCalls_mem h with h | ⟨c, h1, h2, h⟩
      · cases h
      · obtain ⟨a', o⟩ := e
        cases h
        exact ⟨o, c, AMap.get?_of_mem hw he, h1, h2, rfl, rfl, rfl⟩
  · rintro ⟨o, c, h1, h2, h3, rfl, rfl, rfl⟩
    refine List.mem_cons_of_mem _ (List.mem_append_right _ (List.mem_flatMap.mpr ⟨_, AMap.mem_of_get? h1, ?_⟩))
    unfold objectCalls
    refine List.mem_cons_of_mem _ ?_
    simp only [h2, h3, if_true]
    exact List.mem_cons_self

/-- The cached object is the effective one. -/
theorem effObj_of_get {s : IntraBlockState} {a : Bytes} {o : Object} (h : s.objects.get? a = some o) :
    effObj db s a = some o := by unfold effObj; rw [h]

/-- Calls with the same members. -/
def SameCalls (L M : List BufferCall) : Prop := ∀ x, x ∈ L ↔ x ∈ M

variable {b : MemoryBuffer}

/-- Accounts after writing. -/
theorem commit_account {s : IntraBlockState} (hw : AMap.WF s.objects) {m : Nat} {L : List BufferCall}
    (hL : SameCalls L (writeToDb s m)) (a : Bytes) : (b.applyAll L).readAccount a = curOf b.reader s a := by
  cases ho : s.objects.get? a with
  | some o =>
    have hcur : curOf b.reader s a = o.current := by unfold curOf; rw [effObj_of_get ho]; rfl
    rw [hcur]
    refine applyAll_account L b a o.current (fun i c hm => ?_) (Or.inl ⟨o.initial, o.current, ?_⟩)
    · have := (mem_updateAccount hw).mp ((hL _).mp hm)
      rw [ho] at this
      cases this
      rfl
    · exact (hL _).mpr ((mem_updateAccount hw).mpr ho)
  | none =>
    have hcur : curOf b.reader s a = b.readAccount a := by
      unfold curOf effObj
      rw [ho]
      show (Option.map _ (b.readAccount a)).bind _ = _
      cases b.readAccount a <;> rfl
    rw [hcur]
    refine applyAll_account L b a _ (fun i c hm => ?_) (Or.inr rfl)
    have := (mem_updateAccount hw).mp ((hL _).mp hm)
    rw [ho] at this
    cases this

/-- Storage after writing. -/
theorem commit_storage {s : IntraBlockState} (hi : Inv b.reader s) {m : Nat} {L : List BufferCall}
    (hL : SameCalls L (writeToDb s m)) (a : Bytes) (n : Nat) (k : Bytes) :
    (b.applyAll L).readStorage a n k =
      match s.objects.get? a with
      | none => b.readStorage a n k
      | some o =>
        match o.current with
        | none => b.readStorage a n k
        | some c =>
          if c.incarnation = n then (((stor s a).committed.get? k).map (·.original)).getD (b.readStorage a n k)
          else b.readStorage a n k := by
  refine applyAll_storage L b a n k _ (fun i c hm => ?_) ?_
  · obtain ⟨o, c', h1, h2, h3, h4⟩ := (mem_updateStorage hi.order).mp ((hL _).mp hm)
    simp only [h1, h2, if_pos h3, h4, Option.map_some, Option.getD_some]
  · cases ho : s.objects.get? a with
    | none => exact Or.inr rfl
    | some o =>
      simp only
      cases hc : o.current with
      | none => exact Or.inr rfl
      | some c =>
        simp only
        by_cases hn : c.incarnation = n
        · rw [if_pos hn]
          cases hk : (stor s a).committed.get? k with
          | none => exact Or.inr rfl
          | some e => exact Or.inl ⟨e.initial, e.original, (hL _).mpr ((mem_updateStorage hi.order).mpr ⟨o, c, ho, hc, hn, hk⟩)⟩
        · rw [if_neg hn]; exact Or.inr rfl

/-- Previous incarnations after writing. -/
theorem commit_previous {s : IntraBlockState} (hw : AMap.WF s.objects) {m : Nat} {L : List BufferCall}
    (hL : SameCalls L (writeToDb s m)) (a : Bytes) :
    (b.applyAll L).previousIncarnation a =
      match s.objects.get? a with
      | some { initial := some i, current := none } => i.incarnation
      | _ => b.previousIncarnation a := by
  have key : ∀ i, .updateAccount a (some i) none ∈ L → s.objects.get? a = some { initial := some i, current := none } :=
    fun i hm => (mem_updateAccount hw).mp ((hL _).mp hm)
  refine applyAll_previous L b a _ (fun i hm => ?_) ?_
  · rw [key i hm]
  · cases ho : s.objects.get? a with
    | none => exact Or.inr rfl
    | some o =>
      obtain ⟨ini, cur⟩ := o
      cases cur with
      | some c => right; cases ini <;> rfl
      | none =>
        cases ini with
        | none => exact Or.inr rfl
        | some i => exact Or.inl ⟨i, (hL _).mpr ((mem_updateAccount hw).mpr ho)⟩

/-- Storage values of an existing account after writing. -/
theorem commit_value {s : IntraBlockState} (hi : Inv b.reader s) {m : Nat}
    {L : List BufferCall} (hL : SameCalls L (writeToDb s m)) {a : Bytes} {c : Account}
    (hc : curOf b.reader s a = some c) (k : Bytes) :
    (b.applyAll L).readStorage a c.incarnation k = origOf b.reader s a k := by
  · rw [commit_storage hi hL]
    cases ho : s.objects.get? a with
    | none =>
      simp only
      unfold origOf origIn
      have hst : (stor s a).committed.get? k = none := by
        have hcell := (hi.cells a).cached
        cases hs : s.storage.get? a with
        | none => unfold stor; rw [hs]; rfl
        | some st =>
          exfalso
          rcases hcell (by show s.storage.get? a ≠ none; rw [hs]; simp) with h1 | h1
          · exact h1 ho
          · unfold curOf effObj at hc
            rw [ho] at hc
            simp only [h1, Option.map_none, Option.bind_none] at hc
            cases hc
      rw [hst]
      simp only
      have hini : iniOf b.reader s a = some c := by
        unfold curOf effObj at hc
        unfold iniOf effObj
        rw [ho] at hc ⊢
        simp only at hc ⊢
        cases hr : b.reader.readAccount a with
        | none => rw [hr] at hc; cases hc
        | some x => rw [hr] at hc; cases hc; rfl
      rw [hini, hc]
      show _ = dbView b.reader (some c) c.incarnation a k
      unfold dbView
      simp only [ne_eq, not_true_eq_false, if_false]
      rfl
    | some o =>
      have ho' : effObj b.reader s a = some o := effObj_of_get ho
      have hcur : o.current = some c := by unfold curOf at hc; rw [ho'] at hc; exact hc
      have hini : iniOf b.reader s a = o.initial := by unfold iniOf; rw [ho']; rfl
      simp only [hcur, if_true]
      unfold origOf origIn
      cases hk : (stor s a).committed.get? k with
      | some e => rfl
      | none =>
        simp only [Option.map_none, Option.getD_none]
        rw [hini, hc]
        show _ = dbView b.reader o.initial c.incarnation a k
        unfold dbView
        have hok := hi.order.objs a o ho
        cases hin : o.initial with
        | none => exact (hok.fresh c hcur (fun i h => by rw [hin] at h; cases h)).2 k
        | some i =>
          simp only
          by_cases hne : i.incarnation ≠ c.incarnation
          · rw [if_pos hne]
            exact (hok.fresh c hcur (fun j h => by rw [hin] at h; cases h; exact hne)).2 k
          · rw [if_neg hne]; rfl

/-- The codes in memory come from the database or were set. -/
def CodeInv (keccak : Bytes → Bytes) (db : StateReader) (W : Bytes → Prop) (s : IntraBlockState) : Prop :=
  ∀ x, lookupCode db s x = db.readCode x ∨ ∃ code, W code ∧ keccak code = x ∧ lookupCode db s x = code

/-- Code after writing. -/
theorem commit_code {W : Bytes → Prop} {s : IntraBlockState} (hi : Inv b.reader s)
    (hw : CodeInv keccak b.reader W s)
    (hn : ∀ a i code, b.readAccount a = some i → W code → keccak code = i.codeHash → i.codeHash ≠ kEmptyHash →
      b.readCode i.codeHash = code) {m : Nat}
    {L : List BufferCall} (hL : SameCalls L (writeToDb s m)) {a : Bytes} {c : Account}
    (hc : curOf b.reader s a = some c) (he : c.codeHash ≠ kEmptyHash) :
    (b.applyAll L).readCode c.codeHash = lookupCode b.reader s c.codeHash := by
  have value : ∀ a' n code, .updateAccountCode a' n c.codeHash code ∈ L → code = lookupCode b.reader s c.codeHash := by
    intro a' n code hm
    obtain ⟨o, c', h1, h2, h3, h4, h5, h6⟩ := (mem_updateCode hi.order.wfObjects).mp ((hL _).mp hm)
    have hok := hi.order.objs a' o h1
    have hfresh : ∀ i, o.initial = some i → i.incarnation ≠ c'.incarnation := by
      intro i hi'
      unfold codeChanged at h3
      rw [hi'] at h3
      simp only [Bool.and_eq_true, bne_iff_ne] at h3
      exact h3.2
    have hk := (hok.fresh c' h2 hfresh).1
    rw [h5] at hk
    rcases hk with hk | ⟨y, hy⟩
    · exact absurd hk he
    · rw [h6, hy]
      unfold lookupCode
      rw [hy]
      rfl
  refine applyAll_code L b c.codeHash _ value ?_
  by_cases hx : ∃ a' n code, .updateAccountCode a' n c.codeHash code ∈ L
  · exact Or.inl hx
  · right
    have noCode : ∀ o, effObj b.reader s a = some o → (s.objects.get? a = some o ∨ s.objects.get? a = none) →
        ∃ i, b.readAccount a = some i ∧ i.codeHash = c.codeHash := by
      intro o ho hcase
      have hcur : o.current = some c := by unfold curOf at hc; rw [ho] at hc; exact hc
      rcases hcase with hg | hg
      · have hok := hi.order.objs a o hg
        by_cases hch : codeChanged o c = true
        · exact absurd ⟨a, c.incarnation, _, (hL _).mpr ((mem_updateCode hi.order.wfObjects).mpr
            ⟨o, c, hg, hcur, hch, rfl, rfl, rfl⟩)⟩ hx
        · cases hin : o.initial with
          | none =>
            unfold codeChanged at hch
            rw [hin] at hch
            simp only [Bool.and_true, bne_iff_ne, ne_eq, Decidable.not_not] at hch
            exact absurd hch he
          | some i =>
            unfold codeChanged at hch
            rw [hin] at hch
            simp only [Bool.and_eq_true, bne_iff_ne, ne_eq, not_and, Decidable.not_not] at hch
            have hini := hok.initial
            rw [hin] at hini
            exact ⟨i, hini.symm, (hok.same c i hcur hin (hch he)).symm⟩
      · unfold effObj at ho
        rw [hg] at ho
        simp only at ho
        cases hr : b.reader.readAccount a with
        | none => rw [hr] at ho; cases ho
        | some y =>
          rw [hr] at ho
          simp only [Option.map_some, Option.some.injEq] at ho
          subst ho
          have hy : y = c := Option.some.inj hcur
          exact ⟨y, hr, by rw [hy]⟩
    cases ho : effObj b.reader s a with
    | none => unfold curOf at hc; rw [ho] at hc; cases hc
    | some o =>
      have hcase : s.objects.get? a = some o ∨ s.objects.get? a = none := by
        cases hg : s.objects.get? a with
        | none => exact Or.inr rfl
        | some p =>
          have := effObj_of_get (db := b.reader) hg
          rw [ho] at this
          exact Or.inl this.symm
      obtain ⟨i, hi1, hi2⟩ := noCode o ho hcase
      rcases hw c.codeHash with h1 | ⟨code, hW, hk, h2⟩
      · exact h1.symm
      · rw [h2, ← hi2]
        exact hn a i code hi1 hW (by rw [hk, hi2]) (by rw [hi2]; exact he)

/-- A safe database stays safe. -/
theorem commit_safeDb (hdb : SafeDb b.reader) {s : IntraBlockState} (hi : Inv b.reader s)
    (hp : PlainZero (view b.reader s)) (he : SafeEnd b.reader s) {m : Nat}
    {L : List BufferCall} (hL : SameCalls L (writeToDb s m)) : SafeDb (b.applyAll L).reader := by
  have hacc := commit_account (b := b) hi.order.wfObjects hL
  have hst := commit_storage hi hL
  have hpr := commit_previous (b := b) hi.order.wfObjects hL
  have hobj : ∀ a o, s.objects.get? a = some o → (getObject b.reader s a).1 = some o := fun a o h => by
    rw [getObject_fst]; exact effObj_of_get h
  -- accounts that are not cached
  have huncached : ∀ a, s.objects.get? a = none → curOf b.reader s a = b.readAccount a := by
    intro a ho
    unfold curOf effObj
    rw [ho]
    show (Option.map _ (b.readAccount a)).bind _ = _
    cases b.readAccount a <;> rfl
  have hcached : ∀ a o, s.objects.get? a = some o → curOf b.reader s a = o.current := by
    intro a o ho
    unfold curOf
    rw [effObj_of_get ho]
    rfl
  refine ⟨?_, ?_, ?_, ?_, ?_⟩
  · intro a k
    show (b.applyAll L).readStorage a 0 k = zero32
    rw [hst]
    cases ho : s.objects.get? a with
    | none => exact hdb.zero a k
    | some o =>
      simp only
      cases hc : o.current with
      | none => exact hdb.zero a k
      | some c =>
        simp only
        by_cases h0 : c.incarnation = 0
        · rw [if_pos h0]
          cases hk : (stor s a).committed.get? k with
          | none => exact hdb.zero a k
          | some e =>
            have hcur : (view b.reader s).cur a = some c := (hcached a o ho).trans hc
            have := (hp a k (by rw [hcur]; exact h0)).1
            have horig : (view b.reader s).orig a k = e.original := by
              show origOf b.reader s a k = e.original
              unfold origOf origIn
              rw [hk]
            rw [horig] at this
            exact this
        · rw [if_neg h0]; exact hdb.zero a k
  · intro a n k hpn han
    have hpn' : (b.applyAll L).previousIncarnation a < n := hpn
    have han' : ∀ i, (b.applyAll L).readAccount a = some i → i.incarnation < n := han
    show (b.applyAll L).readStorage a n k = zero32
    rw [hst]
    rw [hpr] at hpn'
    rw [hacc] at han'
    cases ho : s.objects.get? a with
    | none =>
      rw [ho] at hpn'
      rw [huncached a ho] at han'
      exact hdb.fresh a n k hpn' han'
    | some o =>
      rw [ho] at hpn'
      rw [hcached a o ho] at han'
      have hok := hi.order.objs a o ho
      obtain ⟨ini, cur⟩ := o
      cases cur with
      | none =>
        simp only
        cases ini with
        | none =>
          refine hdb.fresh a n k hpn' (fun i hi' => ?_)
          have := hok.initial
          rw [hi'] at this
          cases this
        | some i =>
          have hini : b.readAccount a = some i := hok.initial.symm
          have hin : i.incarnation < n := hpn'
          refine hdb.fresh a n k ?_ (fun j hj => ?_)
          · by_cases h0 : i.incarnation = 0
            · rw [he.destroyed a _ i (hobj a _ ho) rfl rfl h0]
              omega
            · exact Nat.lt_of_le_of_lt (hdb.previous a i hini h0) hin
          · have : b.readAccount a = some j := hj
            rw [hini] at this
            cases this
            exact hin
      | some c =>
        have hcn : c.incarnation < n := han' c rfl
        simp only
        rw [if_neg (by omega)]
        refine hdb.fresh a n k ?_ (fun j hj => ?_)
        · by_cases h0 : c.incarnation = 0
          · cases ini <;> exact hpn'
          · exact Nat.lt_of_le_of_lt (hok.inc c rfl h0).1 hcn
        · have hj' : ini = some j := hok.initial.trans hj
          by_cases h0 : c.incarnation = 0
          · rw [he.kept a _ c j (hobj a _ ho) rfl hj' h0]
            omega
          · exact Nat.lt_of_le_of_lt ((hok.inc c rfl h0).2 j hj') hcn
  · intro a i hr h0
    have hr' : (b.applyAll L).readAccount a = some i := hr
    show (b.applyAll L).previousIncarnation a ≤ i.incarnation
    rw [hpr]
    rw [hacc] at hr'
    cases ho : s.objects.get? a with
    | none =>
      rw [huncached a ho] at hr'
      exact hdb.previous a i hr' h0
    | some o =>
      rw [hcached a o ho] at hr'
      have hok := hi.order.objs a o ho
      obtain ⟨ini, cur⟩ := o
      cases hr'
      have := (hok.inc i rfl h0).1
      cases ini <;> exact this
  · intro a i hr h0
    have hr' : (b.applyAll L).readAccount a = some i := hr
    rw [hacc] at hr'
    cases ho : s.objects.get? a with
    | none =>
      rw [huncached a ho] at hr'
      exact hdb.plain a i hr' h0
    | some o =>
      rw [hcached a o ho] at hr'
      exact (hi.order.objs a o ho).plain i hr' h0
  · intro a
    refine ⟨?_, fun i hr => ?_⟩
    · show (b.applyAll L).previousIncarnation a + 1 < 2 ^ 64
      rw [hpr]
      cases ho : s.objects.get? a with
      | none => exact (hdb.bound a).1
      | some o =>
        have hok := hi.order.objs a o ho
        obtain ⟨ini, cur⟩ := o
        cases cur with
        | some c => have := (hdb.bound a).1; cases ini <;> exact this
        | none =>
          cases ini with
          | none => exact (hdb.bound a).1
          | some i => exact (hdb.bound a).2 i hok.initial.symm
    · have hr' : (b.applyAll L).readAccount a = some i := hr
      rw [hacc] at hr'
      cases ho : s.objects.get? a with
      | none =>
        rw [huncached a ho] at hr'
        exact (hdb.bound a).2 i hr'
      | some o =>
        rw [hcached a o ho] at hr'
        exact he.bound a o i (hobj a o ho) hr'

/-- The calls record what was in the buffer. -/
theorem writeToDb_faithful {s : IntraBlockState} (hi : Inv b.reader s) {m : Nat} {x : BufferCall}
    (hx : x ∈ writeToDb s m) : x = .beginBlock m ∨ Faithful b.readAccount b.readStorage x := by
  cases x with
  | beginBlock n =>
    rcases mem_writeToDb hx with h | ⟨e, _, h⟩ | ⟨e, _, h⟩
    · exact Or.inl h
    · obtain ⟨_, _, _, _, _, _, h⟩ := storageCalls_mem h
      cases h
    · rcases objectCalls_mem h with h | ⟨_, _, _, h⟩ <;> cases h
  | updateAccount a i c => exact Or.inr (hi.order.objs a _ ((mem_updateAccount hi.order.wfObjects).mp hx)).initial
  | updateAccountCode _ _ _ _ => exact Or.inr trivial
  | updateStorage a n k v w =>
    right
    obtain ⟨o, c, h1, h2, h3, h4⟩ := (mem_updateStorage hi.order).mp hx
    have hcell := (hi.cells a).committed k { initial := v, original := w } h4
    show v = b.readStorage a n k
    have hcell' : v = dv b.reader a (s.objects.get? a) k := hcell
    rw [hcell', h1]
    unfold dv effO
    simp only [Option.bind_some, h2]
    have hok := hi.order.objs a o h1
    show dbView b.reader o.initial c.incarnation a k = _
    unfold dbView
    cases hin : o.initial with
    | none =>
      simp only
      rw [← h3]
      exact ((hok.fresh c h2 (fun i h => by rw [hin] at h; cases h)).2 k).symm
    | some i =>
      simp only
      by_cases hne : i.incarnation ≠ c.incarnation
      · rw [if_pos hne, ← h3]
        exact ((hok.fresh c h2 (fun j h => by rw [hin] at h; cases h; exact hne)).2 k).symm
      · rw [if_neg hne, ← h3]; rfl

end Silkworm.IntraBlockState
