import Verif.Stages.WorkersProgress
import Verif.Spec.Workers

/-!
# The words of the specification in terms of the invariants
-/

namespace Silkworm.Workers

open Silkworm.Spec

variable {B R : Type} {recover : B → Option (List R)} {items : List (Option B)} {n : Nat}

theorem recoveredAs_of {k : Nat} (h : ∀ j < k, j < items.length → (resultOf recover items j).isSome = true) :
    RecoveredAs recover (items.take k) ((items.take k).map fun o => (o.bind recover).getD []) ∧
      ((items.take k).map fun o => (o.bind recover).getD []).flatten = firstResults recover items k := by
  refine ⟨?_, ?_⟩
  · unfold RecoveredAs
    rw [List.map_map]
    refine List.map_congr_left ?_
    intro o ho
    obtain ⟨j, hj, rfl⟩ := List.getElem_of_mem ho
    rw [List.length_take] at hj
    have hs := h j (by omega) (by omega)
    unfold resultOf at hs
    rw [List.getElem?_eq_getElem (by omega)] at hs
    rw [List.getElem_take]
    obtain ⟨rs, hr⟩ := Option.isSome_iff_exists.mp hs
    simp only [Option.bind_some, id] at hr
    show _ = some (Option.getD _ [])
    rw [hr]
    rfl
  · unfold firstResults
    rw [List.flatMap_def]

theorem calm_of (h : AllRecover recover items) : Calm recover items := by
  intro j hj
  obtain ⟨b, rs, e, er⟩ := h _ (List.getElem_mem hj)
  unfold resultOf
  rw [List.getElem?_eq_getElem hj, e]
  simp only [Option.bind_some, id]
  rw [er]
  rfl

theorem recoveredAs_all {rs : List (List R)} (h : RecoveredAs recover items rs) : AllRecover recover items := by
  intro o ho
  have : o.bind recover ∈ rs.map some := by
    rw [← h]
    exact List.mem_map.mpr ⟨o, ho, rfl⟩
  obtain ⟨r, -, hr⟩ := List.mem_map.mp this
  cases o with
  | none => cases hr
  | some b => exact ⟨b, r, rfl, hr.symm⟩

theorem firstResults_all {rs : List (List R)} (h : RecoveredAs recover items rs) :
    firstResults recover items items.length = rs.flatten := by
  unfold firstResults
  rw [List.take_length, List.flatMap_def]
  congr 1
  unfold RecoveredAs at h
  have := congrArg (List.map fun o : Option (List R) => o.getD []) h
  rw [List.map_map, List.map_map] at this
  refine Eq.trans ?_ (this.trans ?_)
  · rfl
  · exact List.map_id' _

theorem actors_calm {as : List Actor} (h : Undisturbed as) : ∀ a ∈ as, a.Calm := by
  intro a ha
  rcases h a ha with rfl | ⟨i, rfl⟩ <;> trivial

theorem actors_undisturbed {as : List Actor} (h : ∀ a ∈ as, a.Calm) : Undisturbed as := by
  intro a ha
  have := h a ha
  cases a with
  | main => exact Or.inl rfl
  | worker i => exact Or.inr ⟨i, rfl⟩
  | mainNoMemory => exact this.elim
  | user => exact this.elim

theorem orderly_not_thrown {f : Farm B R} (h : Orderly items n f) : f.point ≠ .thrown := by
  intro hp
  have e := h.point
  rw [hp] at e
  rcases e with e | e | e <;> first | exact e.elim | cases e

theorem early_two {f : Farm B R} (hinv : Inv recover items f) (h : Early f) : 2 ≤ items.length := by
  obtain ⟨j, hd, -, ht, hl⟩ := h
  obtain ⟨w, hw, -⟩ := hd.stuck
  have h1 := (List.getElem?_eq_some_iff.mp hw).1
  have h2 : ¬ items.length ≤ f.batchId := by
    intro hle
    exact ht (by rw [hinv.todo, List.drop_eq_nil_of_le hle])
  omega

theorem not_ended_of_early {f : Farm B R} (hc : Calm recover items) (hinv : Inv recover items f) (h : Early f) {as : List Actor}
    {g : Farm B R} (hr : run recover as f = .ok g) : ¬ HasEnded g := by
  obtain ⟨j, hd, -⟩ := h
  have := (doomed_run hc hinv hd hr).point_ne
  rintro (e | e)
  · exact this.1 e
  · exact this.2 e

theorem going_kicked {f : Farm B R} (h : NoKickLost f) : ∀ (i : Nat) (w : Worker B R), f.workers[i]? = some w → w.Kicked :=
  fun _ w hi => h w (List.mem_of_getElem? hi)

theorem dispatched_iff {f : Farm B R} : AllDispatched f ↔ f.point.Dispatched := by
  unfold AllDispatched
  cases f.point with
  | collect c => cases c <;> exact Iff.rfl
  | pull c i id => cases c <;> exact Iff.rfl
  | _ => exact Iff.rfl

/-- What is known after all batches were dispatched and no kick was lost. -/
theorem good_of {as : List Actor} {f : Farm B R} (hn : 1 ≤ n) (hc : Calm recover items) (ha : Undisturbed as)
    (hr : run recover as (start n items) = .ok f) (hd : AllDispatched f) (hk : NoKickLost f) : Good recover items n f := by
  rw [dispatched_iff] at hd
  rcases calm_run hn hc (actors_calm ha) with ⟨g, h1, h2, h3, h4⟩ | ⟨bs, cs, g, rfl, h1, h2, ⟨j, h3, -⟩⟩
  · rw [hr] at h1
    cases h1
    exact ⟨h2, h3, h4, ⟨hd, going_kicked hk⟩⟩
  · rw [run_append, h1] at hr
    have := (doomed_run hc h2 h3 hr).point
    exfalso
    rcases this with ⟨hp | ⟨i, id, hp⟩, -⟩ | ⟨i, -, hp | hp | hp⟩ <;> (rw [hp] at hd; exact hd.elim)

theorem rounds_of {rounds : List (List Actor)} (h : ∀ as ∈ rounds, Undisturbed as ∧ EveryThread n as) :
    ∀ as ∈ rounds, Round n as :=
  fun as ha => ⟨actors_calm (h as ha).1, (h as ha).2.1, (h as ha).2.2⟩

end Silkworm.Workers
