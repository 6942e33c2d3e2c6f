import Verif.Execution.Effects

/-!
# Metering of storage writes

Helper lemmas.
-/

namespace Silkworm.Evm

open IntraBlockState
open Spec.Execution

variable {env : Env}

/-- The counter after a change, as the 64-bit number that it is. -/
def wrapped (r : Nat) (d : Int) : Nat := ((r + d) % 2 ^ 64).toNat

theorem wrapped_cast (r : Nat) (d : Int) : (wrapped r d : Int) = (r + d) % 2 ^ 64 := by
  unfold wrapped
  omega

theorem wrapped_zero {r : Nat} (h : r < 2 ^ 64) : wrapped r 0 = r := by
  unfold wrapped
  omega

theorem wrapped_lt (r : Nat) (d : Int) : wrapped r d < 2 ^ 64 := by
  unfold wrapped
  omega

theorem add_wrapped (r n : Nat) : (r + n) % 2 ^ 64 = wrapped r n := by unfold wrapped; omega

theorem sub_wrapped (r n : Nat) : (r + (2 ^ 64 - n % 2 ^ 64)) % 2 ^ 64 = wrapped r (- (n : Int)) := by unfold wrapped; omega

theorem wrapped_wrapped (r : Nat) (d e : Int) : wrapped (wrapped r d) e = wrapped r (d + e) := by unfold wrapped; omega

theorem addRefund_eq (s : IntraBlockState) (n : Nat) : s.addRefund n = { s with refund := wrapped s.refund n } := by
  unfold addRefund; rw [add_wrapped]

theorem subtractRefund_eq (s : IntraBlockState) (n : Nat) :
    s.subtractRefund n = { s with refund := wrapped s.refund (- (n : Int)) } := by
  unfold subtractRefund; rw [sub_wrapped]

/-- Where net metering applies (core/silkworm/execution/evm.cpp:382). -/
def NetRevision (rev : Nat) : Prop := rev ≥ Revision.istanbul ∨ rev = Revision.constantinople

theorem schedule_net {rev : Nat} (h : NetRevision rev) :
    (schedule rev).net = true ∧ (schedule rev).sload = sloadCost rev ∧
    (schedule rev).clears = sstoreClearsRefund rev ∧ ((sub64 20000 (sloadCost rev) : Nat) : Int) = (schedule rev).set - (schedule rev).sload ∧
    ((sub64 (sstoreResetGas rev) (sloadCost rev) : Nat) : Int) = (schedule rev).reset - (schedule rev).sload := by
  unfold NetRevision Revision.istanbul Revision.constantinople at h
  have hc : 9 ≤ rev ∨ rev = 8 ∨ rev = 7 ∨ rev = 5 := by omega
  rcases hc with hc | rfl | rfl | rfl
  · have h1 : schedule rev = ⟨true, 100, 20000, 2900, 4800⟩ := by unfold schedule; rw [if_pos hc]
    have h2 : sloadCost rev = 100 := by
      unfold sloadCost; rw [if_pos (show rev ≥ Revision.berlin by unfold Revision.berlin; omega)]
    have h3 : sstoreResetGas rev = 2900 := by
      unfold sstoreResetGas; rw [if_pos (show rev ≥ Revision.berlin by unfold Revision.berlin; omega)]; decide
    have h4 : sstoreClearsRefund rev = 4800 := by
      unfold sstoreClearsRefund; rw [if_pos (show rev ≥ Revision.london by unfold Revision.london; omega), h3]
    rw [h1, h2, h3, h4]
    decide
  · decide
  · decide
  · decide

theorem schedule_gross {rev : Nat} (h : ¬ NetRevision rev) :
    (schedule rev).net = false ∧ (schedule rev).clears = 15000 := by
  unfold NetRevision Revision.istanbul Revision.constantinople at h
  unfold schedule
  rw [if_neg (by omega), if_neg (by omega), if_neg (by omega), if_neg (by omega)]
  exact ⟨rfl, rfl⟩

theorem netMetering_eq {rev : Nat} (h : NetRevision rev) (s : IntraBlockState) (hr : s.refund < 2 ^ 64)
    (original current value : Bytes) (hne : current ≠ value) :
    (statusCharge true (netMetering rev s original current value).1) = sstoreCharge (schedule rev) original current value ∧
    (netMetering rev s original current value).2 =
      { s with refund := wrapped s.refund (sstoreRefund (schedule rev) original current value) } := by
  obtain ⟨h1, h2, h3, h4, h5⟩ := schedule_net h
  have hz : ∀ s : IntraBlockState, s.refund < 2 ^ 64 → s = { s with refund := wrapped s.refund 0 } := by
    intro s hs; rw [wrapped_zero hs]
  unfold netMetering sstoreCharge sstoreRefund
  simp only [h1, if_true, if_neg hne]
  by_cases ho : original = current
  · simp only [if_pos ho]
    by_cases hzo : original = zero32
    · simp only [if_pos hzo]
      refine ⟨rfl, ?_⟩
      rw [if_neg (fun hh => hh.1 hzo)]
      exact hz s hr
    · simp only [if_neg hzo]
      refine ⟨rfl, ?_⟩
      by_cases hv : value = zero32
      · rw [if_pos hv, if_pos ⟨hzo, hv⟩, addRefund_eq, h3]
      · rw [if_neg hv, if_neg (fun hh => hv hh.2)]
        exact hz s hr
  · simp only [if_neg ho]
    refine ⟨rfl, ?_⟩
    have tail : ∀ (t : IntraBlockState) (d : Int), t = { s with refund := wrapped s.refund d } →
        (if original = value then
          if original = zero32 then t.addRefund (sub64 20000 (sloadCost rev))
          else t.addRefund (sub64 (sstoreResetGas rev) (sloadCost rev))
        else t) = { s with refund := wrapped s.refund (d + (if original = value then
          (if original = zero32 then (schedule rev).set - (schedule rev).sload
           else (schedule rev).reset - (schedule rev).sload) else 0)) } := by
      intro t d ht
      by_cases hv : original = value
      · rw [if_pos hv, if_pos hv]
        by_cases hzo : original = zero32
        · rw [if_pos hzo, if_pos hzo, addRefund_eq, ht, h4]
          dsimp only
          rw [wrapped_wrapped]
        · rw [if_neg hzo, if_neg hzo, addRefund_eq, ht, h5]
          dsimp only
          rw [wrapped_wrapped]
      · rw [if_neg hv, if_neg hv, ht, Int.add_zero]
    refine tail _ _ ?_
    by_cases hzo : original = zero32
    · rw [if_neg (fun hh => hh.1 hzo), if_neg (fun hh => hh.1 hzo), if_neg (fun hh => hh hzo)]
      exact hz s hr
    · rw [if_pos hzo]
      by_cases hc : current = zero32
      · have hv : ¬ value = zero32 := fun hh => hne (hc.trans hh.symm)
        rw [if_neg (fun hh => hv hh.2), if_pos ⟨hzo, hc⟩, if_pos hc, if_neg hv, subtractRefund_eq, ← h3, Int.add_zero]
      · rw [if_neg (show ¬ (original ≠ zero32 ∧ current = zero32) from fun hh => hc hh.2), if_neg hc, Int.zero_add]
        by_cases hv : value = zero32
        · rw [if_pos ⟨hzo, hv⟩, if_pos hv, addRefund_eq, h3]
        · rw [if_neg (fun hh => hv hh.2), if_neg hv]
          exact hz s hr

theorem grossMetering_eq {rev : Nat} (h : ¬ NetRevision rev) (s : IntraBlockState) (hr : s.refund < 2 ^ 64)
    (original current value : Bytes) (hne : current ≠ value) :
    (statusCharge false (grossMetering s current value).1) = sstoreCharge (schedule rev) original current value ∧
    (grossMetering s current value).2 =
      { s with refund := wrapped s.refund (sstoreRefund (schedule rev) original current value) } := by
  obtain ⟨h1, h2⟩ := schedule_gross h
  have hz : ∀ s : IntraBlockState, s.refund < 2 ^ 64 → s = { s with refund := wrapped s.refund 0 } := by
    intro s hs; rw [wrapped_zero hs]
  unfold grossMetering sstoreCharge sstoreRefund
  simp only [h1, Bool.false_eq_true, if_false]
  by_cases hc : current = zero32
  · rw [if_pos hc, if_pos ⟨hc, fun hv => hne (hc.trans hv.symm)⟩, if_neg (fun hh => hh.1 hc)]
    exact ⟨rfl, hz s hr⟩
  · rw [if_neg hc, if_neg (show ¬ (current = zero32 ∧ value ≠ zero32) from fun hh => hc hh.1)]
    by_cases hv : value = zero32
    · rw [if_pos hv, if_pos ⟨hc, hv⟩]
      refine ⟨rfl, ?_⟩
      show s.addRefund 15000 = _
      rw [addRefund_eq, h2]; rfl
    · rw [if_neg hv, if_neg (fun hh => hv hh.2)]
      exact ⟨rfl, hz s hr⟩

theorem slot_view (db : StateReader) (s : IntraBlockState) (a k : Bytes) :
    slot db s a k = (match (view db s).cur a with | none => zero32 | some _ => (view db s).curv a k) := by
  obtain ⟨t, e, _⟩ := getStorage_eq (db := db) s a k false
  unfold slot getCurrentStorage
  rw [e]
  show storageView db s a k false = (match curOf db s a with | none => zero32 | some _ => curvOf db s a k)
  unfold storageView
  cases curOf db s a <;> rfl

theorem originalSlot_view (db : StateReader) (s : IntraBlockState) (a k : Bytes) :
    originalSlot db s a k = (match (view db s).cur a with | none => zero32 | some _ => (view db s).orig a k) := by
  obtain ⟨t, e, _⟩ := getStorage_eq (db := db) s a k true
  unfold originalSlot getOriginalStorage
  rw [e]
  show storageView db s a k true = (match curOf db s a with | none => zero32 | some _ => origOf db s a k)
  unfold storageView
  cases curOf db s a <;> rfl

theorem View.setStorage_obj (v : View) (a k x : Bytes) : (v.setStorage a k x).obj = v.obj ∧ (v.setStorage a k x).orig = v.orig := by
  unfold View.setStorage
  split <;> split <;> exact ⟨rfl, rfl⟩

/-- A write: what is charged, what it does. -/
theorem setStorage_eq (s : IntraBlockState) (hr : s.refund < 2 ^ 64) (a k v : Bytes) :
    statusCharge (schedule env.revision).net (setStorage env s a k v).1 =
      sstoreCharge (schedule env.revision) (originalSlot env.db s a k) (slot env.db s a k) v ∧
    view env.db (setStorage env s a k v).2 =
      { (view env.db s).setStorage a k v with
        refund := wrapped s.refund
          (sstoreRefund (schedule env.revision) (originalSlot env.db s a k) (slot env.db s a k) v) } := by
  have k1 : Same env.db s (getCurrentStorage env.db s a k).2 := read_same (env := env) s (o := .getCurrentStorage a k) rfl
  have v1 := view_of_same k1
  have e1 : (getCurrentStorage env.db s a k).1 = slot env.db s a k := rfl
  have r1 : (getCurrentStorage env.db s a k).2.refund = s.refund := k1.refund.symm
  unfold Evm.setStorage
  dsimp only
  rw [e1]
  generalize (getCurrentStorage env.db s a k).2 = s1 at *
  by_cases hc : slot env.db s a k = v
  · rw [if_pos hc]
    have hnn : (view env.db s).setStorage a k v = view env.db s := by
      rw [slot_view] at hc
      unfold View.setStorage
      exact if_pos hc
    constructor
    · unfold statusCharge sstoreCharge
      dsimp only
      cases (schedule env.revision).net with
      | true => simp [hc]
      | false =>
        simp only [Bool.false_eq_true, if_false]
        rw [if_neg (fun hh => hh.2 (hc.symm.trans hh.1))]
    · have hz : sstoreRefund (schedule env.revision) (originalSlot env.db s a k) (slot env.db s a k) v = 0 := by
        unfold sstoreRefund
        split
        · first | rfl | rw [if_pos hc]
        · rw [if_neg (fun hh => hh.1 (hc.trans hh.2))]
      dsimp only
      rw [hz, hnn, v1, wrapped_zero hr]
      rfl
  · rw [if_neg hc]
    have v2 : view env.db (IntraBlockState.setStorage env.db s1 a k v) = (view env.db s).setStorage a k v := by
      rw [setStorage_view, v1]
    have r2 : (IntraBlockState.setStorage env.db s1 a k v).refund = s.refund := by
      have : (view env.db (IntraBlockState.setStorage env.db s1 a k v)).refund = s.refund := by
        rw [v2]
        unfold View.setStorage
        split <;> split <;> rfl
      exact this
    generalize IntraBlockState.setStorage env.db s1 a k v = s2 at *
    by_cases hn : env.revision ≥ Revision.istanbul ∨ env.revision = Revision.constantinople
    · rw [if_pos hn]
      have k3 : Same env.db s2 (getOriginalStorage env.db s2 a k).2 :=
        read_same (env := env) s2 (o := .getOriginalStorage a k) rfl
      have v3 := view_of_same k3
      have r3 : (getOriginalStorage env.db s2 a k).2.refund = s2.refund := k3.refund.symm
      have e3 : (getOriginalStorage env.db s2 a k).1 = originalSlot env.db s a k := by
        show originalSlot env.db s2 a k = _
        obtain ⟨o1, o2⟩ := View.setStorage_obj (view env.db s) a k v
        rw [originalSlot_view, originalSlot_view, v2]
        unfold View.cur
        rw [o1, o2]
      rw [e3]
      generalize (getOriginalStorage env.db s2 a k).2 = s3 at *
      obtain ⟨g1, g2⟩ := netMetering_eq (rev := env.revision) hn s3 (by rw [r3, r2]; exact hr)
        (originalSlot env.db s a k) (slot env.db s a k) v hc
      rw [(schedule_net hn).1]
      refine ⟨g1, ?_⟩
      rw [g2, r3, r2, ← v2, ← v3]
      rfl
    · rw [if_neg hn]
      obtain ⟨g1, g2⟩ := grossMetering_eq (rev := env.revision) hn s2 (by rw [r2]; exact hr)
        (originalSlot env.db s a k) (slot env.db s a k) v hc
      rw [(schedule_gross hn).1]
      refine ⟨g1, ?_⟩
      rw [g2, r2, ← v2]
      rfl

theorem netMetering_refund (rev : Nat) (s : IntraBlockState) (o c v : Bytes) :
    ∃ r, (netMetering rev s o c v).2 = { s with refund := r } := by
  have add : ∀ (t : IntraBlockState) n, (∃ r, t = { s with refund := r }) → ∃ r, t.addRefund n = { s with refund := r } := by
    rintro t n ⟨r, rfl⟩; exact ⟨_, rfl⟩
  have sub : ∀ (t : IntraBlockState) n, (∃ r, t = { s with refund := r }) →
      ∃ r, t.subtractRefund n = { s with refund := r } := by
    rintro t n ⟨r, rfl⟩; exact ⟨_, rfl⟩
  have base : ∃ r, s = { s with refund := r } := ⟨_, rfl⟩
  have ite : ∀ (p : Prop) [Decidable p] (t u : IntraBlockState), (∃ r, t = { s with refund := r }) →
      (∃ r, u = { s with refund := r }) → ∃ r, (if p then t else u) = { s with refund := r } := by
    intro p _ t u h1 h2
    split
    · exact h1
    · exact h2
  unfold netMetering
  split
  · split
    · exact base
    · exact ite _ _ _ (add _ _ base) base
  · dsimp only
    have h1 := ite (o ≠ zero32 ∧ c = zero32) _ _ (sub s (sstoreClearsRefund rev) base) base
    have h2 := ite (o ≠ zero32 ∧ v = zero32) _ _ (add _ (sstoreClearsRefund rev) h1) h1
    exact ite _ _ _ (ite _ _ _ (add _ _ h2) (add _ _ h2)) h2

/-- The effect of a write on all but the refund counter. -/
theorem setStorage_effect (s : IntraBlockState) (a k v : Bytes) :
    ∃ r, view env.db (setStorage env s a k v).2 = { (view env.db s).setStorage a k v with refund := r } := by
  have k1 : Same env.db s (getCurrentStorage env.db s a k).2 := read_same (env := env) s (o := .getCurrentStorage a k) rfl
  have v1 := view_of_same k1
  have e1 : (getCurrentStorage env.db s a k).1 = slot env.db s a k := rfl
  unfold Evm.setStorage
  dsimp only
  rw [e1]
  generalize (getCurrentStorage env.db s a k).2 = s1 at *
  by_cases hc : slot env.db s a k = v
  · rw [if_pos hc]
    have hnn : (view env.db s).setStorage a k v = view env.db s := by
      rw [slot_view] at hc
      unfold View.setStorage
      exact if_pos hc
    exact ⟨(view env.db s).refund, by rw [hnn]; exact v1⟩
  · rw [if_neg hc]
    have v2 : view env.db (IntraBlockState.setStorage env.db s1 a k v) = (view env.db s).setStorage a k v := by
      rw [setStorage_view, v1]
    generalize IntraBlockState.setStorage env.db s1 a k v = s2 at *
    split
    · have k3 : Same env.db s2 (getOriginalStorage env.db s2 a k).2 :=
        read_same (env := env) s2 (o := .getOriginalStorage a k) rfl
      have v3 := view_of_same k3
      generalize (getOriginalStorage env.db s2 a k).2 = s3 at *
      obtain ⟨r, hr⟩ := netMetering_refund env.revision s3 (getOriginalStorage env.db s2 a k).1 (slot env.db s a k) v
      exact ⟨r, by rw [hr, ← v2, ← v3]; rfl⟩
    · rw [← v2]
      have add : ∀ n, ∃ r, view env.db (s2.addRefund n) = { view env.db s2 with refund := r } := fun n => ⟨_, rfl⟩
      unfold grossMetering
      split
      · exact ⟨_, rfl⟩
      · split
        · exact add _
        · exact ⟨_, rfl⟩

/-! ## Sequences of writes -/

/-- Carry out the writes. -/
def runWrites (env : Env) : Writes → IntraBlockState → IntraBlockState
  | .done, s => s
  | .write a k v rest, s => runWrites env rest (setStorage env s a k v).2
  | .scope body reverted rest, s =>
    let t := runWrites env body s
    runWrites env rest (if reverted then t.revertToSnapshot s.takeSnapshot else t)

theorem slot_setStorage (s : IntraBlockState) (a k v : Bytes) (h : live env.db s a = true) (b l : Bytes) :
    slot env.db (setStorage env s a k v).2 b l = (if b = a ∧ l = k then v else slot env.db s b l) ∧
    originalSlot env.db (setStorage env s a k v).2 b l = originalSlot env.db s b l := by
  obtain ⟨r, hr⟩ := setStorage_effect (env := env) s a k v
  obtain ⟨o1, o2⟩ := View.setStorage_obj (view env.db s) a k v
  constructor
  · rw [slot_view, slot_view, hr]
    unfold View.cur
    dsimp only
    rw [o1]
    rw [live_view] at h
    unfold View.cur at h
    unfold View.setStorage View.cur
    cases ho : ((view env.db s).obj a).bind (·.current) with
    | none => rw [ho] at h; cases h
    | some c =>
      dsimp only
      by_cases hv : (view env.db s).curv a k = v
      · rw [if_pos hv]
        by_cases hb : b = a ∧ l = k
        · rw [if_pos hb, hb.1, hb.2, ho]; exact hv
        · rw [if_neg hb]
      · rw [if_neg hv]
        dsimp only
        by_cases hb : b = a
        · subst hb
          rw [ho, upd_self]
          by_cases hl : l = k
          · rw [if_pos ⟨rfl, hl⟩, hl, upd_self]
          · rw [if_neg (fun hh => hl hh.2), upd_ne _ _ hl]
        · rw [if_neg (fun hh => hb hh.1), upd_ne _ _ hb]
  · rw [originalSlot_view, originalSlot_view, hr]
    unfold View.cur
    dsimp only
    rw [o1, o2]

theorem Steps.writes (w : Writes) (s : IntraBlockState) (h : ∀ a ∈ w.accounts, live env.db s a = true)
    (alive : ∀ {s t : IntraBlockState}, Steps env s t → ∀ a, live env.db s a = true → live env.db t a = true) :
    Steps env s (runWrites env w s) := by
  induction w generalizing s with
  | done => exact .refl s
  | write a k v rest ih =>
    have h1 := Steps.setStorage (env := env) s a k v (h a (List.mem_cons_self ..))
    exact h1.trans (ih _ fun b hb => alive h1 b (h b (List.mem_cons_of_mem _ hb)))
  | scope body reverted rest ih1 ih2 =>
    have h1 := ih1 s fun b hb => h b (List.mem_append_left _ hb)
    have h2 : Steps env s (if reverted then (runWrites env body s).revertToSnapshot s.takeSnapshot else runWrites env body s) := by
      split
      · exact h1.revert
      · exact h1
    exact h2.trans (ih2 _ fun b hb => alive h2 b (h b (List.mem_append_right _ hb)))

/-- The state agrees with the specification. -/
structure Metered (env : Env) (original : Bytes → Bytes → Bytes) (s : IntraBlockState) (q : Slots) : Prop where
  current : ∀ a k, slot env.db s a k = q.current a k
  original : ∀ a k, originalSlot env.db s a k = original a k
  small : s.refund < 2 ^ 64
  counter : (s.refund : Int) = q.counter % 2 ^ 64

theorem Steps.undoable {s t : IntraBlockState} (h : Steps env s t) : Undoable env s t := by
  obtain ⟨p, rfl, hp⟩ := h
  refine run_ok p s (fun _ => hp) ?_
  clear hp
  induction p generalizing s with
  | nil => trivial
  | op o rest ih => exact ⟨by cases o <;> trivial, ih⟩
  | scope body revert rest ih1 ih2 => exact ⟨ih1, ih2⟩

theorem Metered.writes {original : Bytes → Bytes → Bytes} (w : Writes) {s : IntraBlockState} {q : Slots}
    (hq : Metered env original s q) (h : ∀ a ∈ w.accounts, live env.db s a = true)
    (alive : ∀ {s t : IntraBlockState}, Steps env s t → ∀ a, live env.db s a = true → live env.db t a = true) :
    Metered env original (runWrites env w s) (w.meter (schedule env.revision) original q) := by
  induction w generalizing s q with
  | done => exact hq
  | write a k v rest ih =>
    have hl := h a (List.mem_cons_self ..)
    have h1 := Steps.setStorage (env := env) s a k v hl
    refine ih ?_ fun b hb => alive h1 b (h b (List.mem_cons_of_mem _ hb))
    have e := (setStorage_eq (env := env) s hq.small a k v).2
    have er : (setStorage env s a k v).2.refund = wrapped s.refund
        (sstoreRefund (schedule env.revision) (originalSlot env.db s a k) (slot env.db s a k) v) :=
      congrArg View.refund e
    refine ⟨fun b l => ?_, fun b l => ?_, ?_, ?_⟩
    · rw [(slot_setStorage s a k v hl b l).1]
      dsimp only
      rw [hq.current]
    · rw [(slot_setStorage s a k v hl b l).2]; exact hq.original b l
    · rw [er]; exact wrapped_lt _ _
    · rw [er, wrapped_cast, hq.counter, hq.original, hq.current]
      dsimp only
      omega
  | scope body reverted rest ih1 ih2 =>
    have hs := Steps.writes (env := env) body s (fun b hb => h b (List.mem_append_left _ hb)) alive
    have hb := ih1 hq (fun b hb => h b (List.mem_append_left _ hb))
    cases reverted with
    | false => exact ih2 hb fun b hb' => alive hs b (h b (List.mem_append_right _ hb'))
    | true =>
      refine ih2 (s := (runWrites env body s).revertToSnapshot s.takeSnapshot) (q := q) ?_
        fun b hb' => alive hs.revert b (h b (List.mem_append_right _ hb'))
      obtain ⟨r1, r2, r3, _, _, r6⟩ := revert_view hs.undoable
      refine ⟨fun a k => ?_, fun a k => ?_, ?_, ?_⟩
      · rw [← hq.current, slot_view, slot_view]
        unfold View.cur
        rw [r1, r3]
      · rw [← hq.original, originalSlot_view, originalSlot_view]
        unfold View.cur
        rw [r1, r2]
      · rw [r6]; exact hq.small
      · rw [r6]; exact hq.counter

/-! ## The counter is never negative -/

/-- Every slot that has been cleared is in the counter. -/
def Covered (x : Schedule) (original : Bytes → Bytes → Bytes) (q : Slots) : Prop :=
  ∀ l : List (Bytes × Bytes), l.Nodup → (∀ p ∈ l, original p.1 p.2 ≠ zero32 ∧ q.current p.1 p.2 = zero32) →
    x.clears * l.length ≤ q.counter

theorem schedule_bounds (rev : Nat) :
    0 ≤ (schedule rev).clears ∧ 0 ≤ (schedule rev).set - (schedule rev).sload ∧
      0 ≤ (schedule rev).reset - (schedule rev).sload := by
  unfold schedule
  split
  · decide
  · split
    · decide
    · split
      · decide
      · split <;> decide

theorem refund_bound (rev : Nat) (hn : (schedule rev).net = true) (o c v : Bytes) :
    (if o ≠ zero32 ∧ v = zero32 then (schedule rev).clears else 0) -
      (if o ≠ zero32 ∧ c = zero32 then (schedule rev).clears else 0) ≤ sstoreRefund (schedule rev) o c v := by
  obtain ⟨b1, b2, b3⟩ := schedule_bounds rev
  unfold sstoreRefund
  rw [if_pos hn]
  by_cases hcv : c = v
  · rw [if_pos hcv, hcv]; omega
  · rw [if_neg hcv]
    by_cases hoc : o = c
    · rw [if_pos hoc]
      split <;> split <;> omega
    · rw [if_neg hoc]
      by_cases ho : o = zero32
      · rw [if_neg (fun hh => hh.1 ho), if_neg (fun hh => hh.1 ho), if_neg (fun hh => hh ho)]
        split
        · first | omega | (split <;> omega)
        · omega
      · have e1 : (if o ≠ zero32 ∧ v = zero32 then (schedule rev).clears else 0) = if v = zero32 then (schedule rev).clears else 0 := by
          by_cases hv : v = zero32
          · rw [if_pos ⟨ho, hv⟩, if_pos hv]
          · rw [if_neg (fun hh => hv hh.2), if_neg hv]
        have e2 : (if o ≠ zero32 ∧ c = zero32 then (schedule rev).clears else 0) = if c = zero32 then (schedule rev).clears else 0 := by
          by_cases hv : c = zero32
          · rw [if_pos ⟨ho, hv⟩, if_pos hv]
          · rw [if_neg (fun hh => hv hh.2), if_neg hv]
        rw [e1, e2, if_pos ho]
        generalize (if v = zero32 then (schedule rev).clears else 0) = A
        have e3 : (if c = zero32 then - (schedule rev).clears else 0) = - (if c = zero32 then (schedule rev).clears else 0) := by
          split <;> omega
        rw [e3]
        generalize (if c = zero32 then (schedule rev).clears else 0) = B
        split
        · first | omega | (split <;> omega)
        · omega

theorem Covered.writes_net (rev : Nat) (hn : (schedule rev).net = true) {original : Bytes → Bytes → Bytes} (w : Writes)
    {q : Slots} (hq : Covered (schedule rev) original q) :
    Covered (schedule rev) original (w.meter (schedule rev) original q) := by
  induction w generalizing q with
  | done => exact hq
  | write a k v rest ih =>
    refine ih ?_
    intro l hl hp
    dsimp only at hp ⊢
    have hb := refund_bound rev hn (original a k) (q.current a k) v
    obtain ⟨b1, _, _⟩ := schedule_bounds rev
    have others : ∀ p ∈ l.erase (a, k), original p.1 p.2 ≠ zero32 ∧ q.current p.1 p.2 = zero32 := by
      intro p hpm
      have hne : p ≠ (a, k) := fun hh => (List.Nodup.not_mem_erase hl) (hh ▸ hpm)
      have := hp p (List.mem_of_mem_erase hpm)
      rw [if_neg (fun hh => hne (Prod.ext hh.1 hh.2))] at this
      exact this
    have hlen : (l.length : Int) ≤ (l.erase (a, k)).length + (if original a k ≠ zero32 ∧ v = zero32 then 1 else 0) := by
      by_cases hm : (a, k) ∈ l
      · have h1 := hp _ hm
        rw [if_pos ⟨rfl, rfl⟩] at h1
        rw [if_pos h1, List.length_erase_of_mem hm]
        omega
      · rw [List.erase_of_not_mem hm]
        split <;> omega
    have hcov : (schedule rev).clears * ((l.erase (a, k)).length + (if original a k ≠ zero32 ∧ q.current a k = zero32 then 1 else 0)) ≤
        q.counter := by
      by_cases hc : original a k ≠ zero32 ∧ q.current a k = zero32
      · rw [if_pos hc]
        have := hq ((a, k) :: l.erase (a, k)) (List.nodup_cons.mpr ⟨List.Nodup.not_mem_erase hl, hl.erase _⟩) (by
          intro p hpm
          rcases List.mem_cons.mp hpm with rfl | hpm
          · exact hc
          · exact others p hpm)
        rw [List.length_cons] at this
        exact_mod_cast this
      · rw [if_neg hc, Int.add_zero]
        exact hq _ (hl.erase _) others
    have e1 : (if original a k ≠ zero32 ∧ v = zero32 then (schedule rev).clears else 0) =
        (schedule rev).clears * (if original a k ≠ zero32 ∧ v = zero32 then 1 else 0) := by split <;> simp
    have e2 : (if original a k ≠ zero32 ∧ q.current a k = zero32 then (schedule rev).clears else 0) =
        (schedule rev).clears * (if original a k ≠ zero32 ∧ q.current a k = zero32 then 1 else 0) := by split <;> simp
    rw [e1, e2] at hb
    have hmul := Int.mul_le_mul_of_nonneg_left hlen b1
    rw [Int.mul_add] at hmul hcov
    omega
  | scope body reverted rest ih1 ih2 =>
    cases reverted with
    | false => exact ih2 (ih1 hq)
    | true => exact ih2 hq

theorem counter_gross (rev : Nat) (hn : (schedule rev).net = false) (original : Bytes → Bytes → Bytes) (w : Writes)
    (q : Slots) : q.counter ≤ (w.meter (schedule rev) original q).counter := by
  induction w generalizing q with
  | done => exact Int.le_refl _
  | write a k v rest ih =>
    refine Int.le_trans ?_ (ih _)
    dsimp only
    have hb : 0 ≤ sstoreRefund (schedule rev) (original a k) (q.current a k) v := by
      unfold sstoreRefund
      rw [if_neg (by rw [hn]; decide)]
      split
      · exact (schedule_bounds rev).1
      · exact Int.le_refl _
    omega
  | scope body reverted rest ih1 ih2 =>
    cases reverted with
    | false => exact Int.le_trans (ih1 q) (ih2 _)
    | true => exact ih2 q

end Silkworm.Evm
