import Verif.Stages.Unwind
import Verif.Stages.Lemmas
import Verif.Spec.Unwind
import Verif.Db.TableLemmas
import Verif.Db.BlockLemmas

/-!
# Lemmas about unwinding
-/

namespace Silkworm.Stages

open Silkworm.Db Silkworm.Spec

/-- What `walk_collect` does with an entry. -/
def unwindStep (p : Plain) (e : Bytes × Bytes) : Outcome StageError Plain := do
  let kv ← convertToDbFormat e.1 e.2
  collectForUnwind p kv.1 kv.2

/-- The walk is a fold up to the first entry of the target block. -/
theorem walkCollect_fold (n : Nat) (l : Table) (hl : ∀ e ∈ l, 8 ≤ e.1.length) (p : Plain) :
    walkCollect n l p = (l.takeWhile fun e => decide (recordBlock e ≠ n)).foldlM unwindStep p := by
  induction l generalizing p with
  | nil => rfl
  | cons e l ih =>
    unfold walkCollect loadBig64
    rw [if_pos (hl e List.mem_cons_self), Outcome.ok_bind, List.takeWhile_cons]
    by_cases h : beToNat (e.1.take 8) = n
    · rw [if_pos h, decide_eq_false (by simp [recordBlock, h])]
      rfl
    · rw [if_neg h, decide_eq_true (by simpa [recordBlock] using h), if_pos rfl, List.foldlM_cons]
      unfold unwindStep
      rw [Outcome.bind_assoc]
      congr 1
      funext kv
      congr 1
      funext q
      exact ih (fun x hx => hl x (List.mem_cons_of_mem _ hx)) q

theorem stored_eraseKey (t : Table) (k j : Bytes) : stored (t.eraseKey k) j = if j = k then [] else stored t j := by
  unfold Table.eraseKey stored
  rw [List.filter_filter]
  by_cases h : j = k
  · subst h
    rw [if_pos rfl, List.map_eq_nil_iff, List.filter_eq_nil_iff]
    intro e _
    simp
  · rw [if_neg h]
    congr 1
    refine List.filter_congr fun e _ => ?_
    by_cases he : e.1 = j
    · simp [he, h]
    · simp [he]

theorem ordered_eraseKey {t : Table} (ht : MultiOrdered t) (k : Bytes) : MultiOrdered (t.eraseKey k) :=
  ht.sublist List.filter_sublist

theorem stored_replace {t : Table} (ht : MultiOrdered t) (k v j : Bytes) :
    stored ((t.eraseKey k).upsertMultivalue k v) j = if j = k then [v] else stored t j := by
  by_cases h : j = k
  · subst h
    rw [if_pos rfl, stored_upsertMultivalue_same (ordered_eraseKey ht _), stored_eraseKey, if_pos rfl]
    rfl
  · rw [if_neg h, stored_upsertMultivalue_ne _ h, stored_eraseKey, if_neg h]

theorem eraseFound_sublist (t : Table) (o : Option (Bytes × Bytes)) : (Db.Buffer.eraseFound t o).Sublist t := by
  cases o with
  | none => exact List.Sublist.refl _
  | some e => exact List.erase_sublist

theorem cleanupCodes_sublist (address : Bytes) (n i : Nat) (t : Table) : (cleanupCodes address n i t).Sublist t := by
  induction i generalizing t with
  | zero => exact List.Sublist.refl _
  | succ i ih =>
    unfold cleanupCodes
    split
    · exact (ih _).trans (eraseFound_sublist _ _)
    · exact List.Sublist.refl _

/-- What `unwindAccount` does to the values of the key `j`. -/
theorem unwindAccount_spec {p p' : Plain} {address value : Bytes} (h : unwindAccount p address value = .ok p')
    (hp : MultiOrdered p.state) :
    MultiOrdered p'.state ∧ p'.code.Sublist p.code ∧
      ((value = [] ∧ p'.state = p.state) ∨
       (value ≠ [] ∧ ∃ x y, decodeAccountFromStorage value = .ok x ∧ restoreForUnwind p.code address x = .ok y ∧
          ∀ j, stored p'.state j = if j = address then [y.encodeForStorage] else stored p.state j)) := by
  unfold unwindAccount at h
  by_cases hv : value = []
  · rw [if_pos hv] at h
    have := Outcome.ok.inj h
    subst this
    exact ⟨hp, eraseFound_sublist _ _, .inl ⟨hv, rfl⟩⟩
  · rw [if_neg hv] at h
    obtain ⟨x, hx, h⟩ := Outcome.bind_eq_ok.mp h
    obtain ⟨y, hy, h⟩ := Outcome.bind_eq_ok.mp h
    obtain ⟨c, hc, h⟩ := Outcome.bind_eq_ok.mp h
    have := Outcome.ok.inj h
    subst this
    refine ⟨ordered_upsertMultivalue (ordered_eraseKey hp _) _ _, ?_, .inr ⟨hv, x, y, ?_, hy, fun j => stored_replace hp _ _ j⟩⟩
    · unfold cleanupContract at hc
      cases hf : p.state.find address with
      | none => rw [hf] at hc; rw [← Outcome.ok.inj hc]; exact List.Sublist.refl _
      | some e =>
        rw [hf] at hc
        obtain ⟨i, _, hc⟩ := Outcome.bind_eq_ok.mp hc
        rw [← Outcome.ok.inj hc]
        exact cleanupCodes_sublist _ _ _ _
    · cases hd : decodeAccountFromStorage value with
      | ok z =>
        rw [hd] at hx
        exact congrArg Outcome.ok (Outcome.ok.inj hx)
      | err e => rw [hd] at hx; cases hx
      | ub => rw [hd] at hx; cases hx

/-- The code hash is restored from the table as it was at the beginning. -/
theorem restoreForUnwind_sublist {c c0 : Table} (hs : c.Sublist c0) (ho : Ordered c0) {address : Bytes} {x y : Account}
    (h : restoreForUnwind c address x = .ok y) : restoreForUnwind c0 address x = .ok y := by
  unfold restoreForUnwind at h ⊢
  split
  · rename_i hi
    rw [if_pos hi] at h
    cases hf : c.find (address ++ beFixed 8 x.incarnation) with
    | none => rw [hf] at h; cases h
    | some e =>
      rw [hf] at h
      have hm : e ∈ c := List.mem_of_find?_eq_some hf
      have hk : e.1 = address ++ beFixed 8 x.incarnation := by
        have := List.find?_some hf
        simpa using this
      rw [← hk, find_of_mem ho (k := e.1) (v := e.2) (hs.subset hm)]
      exact h
  · rename_i hi
    rw [if_neg hi] at h
    exact h

/-- The account of `a` after the records, which are in the order in which they are undone. -/
theorem fold_accounts (a : Bytes) (c0 : Table) (ho : Ordered c0) (l : Table) (hl : ∀ e ∈ l, e.1.length = 8) :
    ∀ (p p' : Plain), MultiOrdered p.state → p.code.Sublist c0 → l.foldlM unwindStep p = .ok p' →
    MultiOrdered p'.state ∧ p'.code.Sublist c0 ∧ (∀ j, j.length ≠ 20 → stored p'.state j = stored p.state j) ∧
      match ((l.reverse.filter fun e => decide (e.2.take 20 = a ∧ e.2.drop 20 ≠ [])).map fun e => e.2.drop 20).head? with
      | none => stored p'.state a = stored p.state a
      | some v => ∃ x y, decodeAccountFromStorage v = .ok x ∧ restoreForUnwind c0 a x = .ok y ∧
          stored p'.state a = [y.encodeForStorage] := by
  induction l with
  | nil =>
    intro p p' hp hc h
    have := Outcome.ok.inj h
    subst this
    exact ⟨hp, hc, fun _ _ => rfl, rfl⟩
  | cons e l ih =>
    intro p p' hp hc h
    rw [List.foldlM_cons] at h
    obtain ⟨q, hq, h⟩ := Outcome.bind_eq_ok.mp h
    unfold unwindStep convertToDbFormat at hq
    rw [if_pos (hl e List.mem_cons_self)] at hq
    by_cases h20 : e.2.length < 20
    · rw [if_pos h20] at hq; cases hq
    · rw [if_neg h20, Outcome.ok_bind] at hq
      have hlen : (e.2.take 20).length = 20 := by rw [List.length_take]; omega
      unfold collectForUnwind at hq
      rw [if_pos hlen] at hq
      obtain ⟨q1, q2, q3⟩ := unwindAccount_spec hq hp
      obtain ⟨r1, r2, r3, r4⟩ := ih (fun x hx => hl x (List.mem_cons_of_mem _ hx)) q p' q1 (q2.trans hc) h
      refine ⟨r1, r2, fun j hj => ?_, ?_⟩
      · rw [r3 j hj]
        rcases q3 with ⟨_, q3⟩ | ⟨_, _, _, _, _, q3⟩
        · rw [q3]
        · rw [q3, if_neg (fun hh => hj (by rw [hh, hlen]))]
      · rw [List.reverse_cons, List.filter_append, List.map_append, List.head?_append]
        cases hh : ((l.reverse.filter fun e => decide (e.2.take 20 = a ∧ e.2.drop 20 ≠ [])).map fun e => e.2.drop 20).head? with
        | some v => rw [hh] at r4; exact r4
        | none =>
          rw [hh] at r4
          simp only [Option.none_or]
          by_cases hc1 : e.2.take 20 = a ∧ e.2.drop 20 ≠ []
          · rw [List.filter_cons, decide_eq_true hc1, if_pos rfl, List.filter_nil]
            simp only [List.map_cons, List.map_nil, List.head?_cons]
            rcases q3 with ⟨q3, _⟩ | ⟨_, x, y, q4, q5, q6⟩
            · exact absurd q3 hc1.2
            · refine ⟨x, y, q4, ?_, ?_⟩
              · rw [← hc1.1]; exact restoreForUnwind_sublist hc ho q5
              · rw [r4, q6, if_pos hc1.1.symm]
          · rw [List.filter_cons, decide_eq_false hc1, List.filter_nil]
            simp only [Bool.false_eq_true, if_false, List.map_nil, List.head?_nil]
            rw [r4]
            rcases q3 with ⟨_, q3⟩ | ⟨q3, x, y, q4, q5, q6⟩
            · rw [q3]
            · rw [q6, if_neg fun hh => hc1 ⟨hh.symm, q3⟩]

/-- Undoing slots leaves accounts alone and acts on the key of the contract only. -/
theorem fold_slots (k : Bytes) (hk : k.length = 28) (l : Table) (hl : ∀ e ∈ l, e.1.length = 36) :
    ∀ (p p' : Plain), MultiOrdered p.state → l.foldlM unwindStep p = .ok p' →
    MultiOrdered p'.state ∧ p'.code = p.code ∧ (∀ j, j.length = 20 → stored p'.state j = stored p.state j) ∧
      ((stored p.state k).length ≤ 1 → 
        match ((l.reverse.filter fun e => decide (e.1.drop 8 = k)).map fun e => (e.2.take 32, e.2.drop 32)).head? with
        | none => stored p'.state k = stored p.state k
        | some r => stored p'.state k = if r.2 = [] then [] else [r.1 ++ r.2]) := by
  induction l with
  | nil =>
    intro p p' hp h
    have := Outcome.ok.inj h
    subst this
    exact ⟨hp, rfl, fun _ _ => rfl, fun _ => rfl⟩
  | cons e l ih =>
    intro p p' hp h
    rw [List.foldlM_cons] at h
    obtain ⟨q, hq, h⟩ := Outcome.bind_eq_ok.mp h
    have he := hl e List.mem_cons_self
    unfold unwindStep convertToDbFormat at hq
    rw [if_neg (by omega)] at hq
    by_cases h32 : e.1.length < 36 ∨ e.2.length < 32
    · rw [if_pos h32] at hq; cases hq
    · rw [if_neg h32, Outcome.ok_bind] at hq
      have hd8 : (e.1.drop 8).length = 28 := by rw [List.length_drop]; omega
      have htk : (e.1.drop 8).take 28 = e.1.drop 8 := List.take_of_length_le (by omega)
      have hlen : ((e.1.drop 8).take 28 ++ e.2.take 32).length = 60 := by
        rw [List.length_append, htk, hd8, List.length_take]; omega
      have hk1 : ((e.1.drop 8).take 28 ++ e.2.take 32).take 28 = e.1.drop 8 := by
        rw [htk, ← hd8, List.take_left]
      have hk2 : ((e.1.drop 8).take 28 ++ e.2.take 32).drop 28 = e.2.take 32 := by
        rw [htk, ← hd8, List.drop_left]
      unfold collectForUnwind at hq
      dsimp only at hq
      rw [if_neg (by omega), if_neg (by omega), hk1, hk2] at hq
      unfold unwindSlot Table.findMultivalue at hq
      rw [find_stored] at hq
      cases hs : stored p.state (e.1.drop 8) with
      | nil => rw [hs] at hq; cases hq
      | cons w ws =>
        rw [hs] at hq
        have := Outcome.ok.inj hq
        have hqc : q.code = p.code := by rw [← this]
        have hqs : q.state = if e.2.drop 32 = [] then p.state.erase (e.1.drop 8, w)
          else (p.state.erase (e.1.drop 8, w)).upsertMultivalue (e.1.drop 8) (e.2.take 32 ++ e.2.drop 32) := by rw [← this]
        have hqo : MultiOrdered q.state := by
          rw [hqs]
          split
          · exact ordered_erase hp _
          · exact ordered_upsertMultivalue (ordered_erase hp _) _ _
        have hst : ∀ j, stored q.state j = if j = e.1.drop 8 then
            (if e.2.drop 32 = [] then ws else insertKey (e.2.take 32 ++ e.2.drop 32) ws) else stored p.state j := by
          intro j
          have her : stored (p.state.erase (e.1.drop 8, w)) (e.1.drop 8) = ws := by
            rw [stored_erase, if_pos rfl, hs, List.erase_cons_head]
          rw [hqs]
          by_cases hj : j = e.1.drop 8
          · rw [hj, if_pos rfl]
            split
            · exact her
            · rw [stored_upsertMultivalue_same (ordered_erase hp _), her]
          · rw [if_neg hj]
            split
            · rw [stored_erase, if_neg hj]
            · rw [stored_upsertMultivalue_ne _ hj, stored_erase, if_neg hj]
        obtain ⟨r1, r2, r3, r4⟩ := ih (fun x hx => hl x (List.mem_cons_of_mem _ hx)) q p' hqo h
        refine ⟨r1, r2.trans hqc, fun j hj => ?_, fun h1 => ?_⟩
        · rw [r3 j hj, hst, if_neg (fun hh => by rw [hh] at hj; omega)]
        · rw [List.reverse_cons, List.filter_append, List.map_append, List.head?_append]
          have hle : (stored q.state k).length ≤ 1 := by
            rw [hst]
            split
            · rename_i hkk
              have : ws = [] := by
                rw [hkk, hs, List.length_cons] at h1
                exact List.length_eq_zero_iff.mp (by omega)
              rw [this]
              split
              · exact Nat.zero_le _
              · exact Nat.le_refl _
            · exact h1
          have r4 := r4 hle
          cases hh : ((l.reverse.filter fun e => decide (e.1.drop 8 = k)).map fun e => (e.2.take 32, e.2.drop 32)).head? with
          | some r => rw [hh] at r4; exact r4
          | none =>
            rw [hh] at r4
            simp only [Option.none_or]
            by_cases hkk : e.1.drop 8 = k
            · rw [List.filter_cons, decide_eq_true hkk, if_pos rfl, List.filter_nil]
              simp only [List.map_cons, List.map_nil, List.head?_cons]
              have : ws = [] := by
                rw [← hkk, hs, List.length_cons] at h1
                exact List.length_eq_zero_iff.mp (by omega)
              rw [r4, hst, if_pos hkk.symm, this]
              rfl
            · rw [List.filter_cons, decide_eq_false hkk, List.filter_nil]
              simp only [Bool.false_eq_true, if_false, List.map_nil, List.head?_nil]
              rw [r4, hst, if_neg (Ne.symm hkk)]

theorem takeWhile_later {r : Table} (hord : r.Pairwise fun e f => recordBlock f ≤ recordBlock e) {n : Nat}
    (h : (∃ e ∈ r, recordBlock e = n) ∨ ∀ e ∈ r, n < recordBlock e) :
    (r.takeWhile fun e => decide (recordBlock e ≠ n)) = r.filter fun e => decide (n < recordBlock e) := by
  induction r with
  | nil => rfl
  | cons e r ih =>
    obtain ⟨h1, h2⟩ := List.pairwise_cons.mp hord
    rw [List.takeWhile_cons, List.filter_cons]
    by_cases he : recordBlock e = n
    · rw [decide_eq_false (by simp [he]), decide_eq_false (by omega)]
      simp only [Bool.false_eq_true, if_false]
      symm
      rw [List.filter_eq_nil_iff]
      intro f hf
      have := h1 f hf
      simp; omega
    · have hlt : n < recordBlock e := by
        rcases h with ⟨f, hf, hn⟩ | h
        · rcases List.mem_cons.mp hf with rfl | hf
          · exact absurd hn he
          · have := h1 f hf
            omega
        · exact h e List.mem_cons_self
      rw [decide_eq_true he, decide_eq_true hlt, if_pos rfl, if_pos rfl, ih h2]
      rcases h with ⟨f, hf, hn⟩ | h
      · rcases List.mem_cons.mp hf with rfl | hf
        · exact absurd hn he
        · exact .inl ⟨f, hf, hn⟩
      · exact .inr fun f hf => h f (List.mem_cons_of_mem _ hf)

/-- In a table that is in order of the blocks the walk reaches exactly the later blocks, if it finds the target block or there
is nothing before it. -/
theorem undone_filter {t : Table} (hord : t.Pairwise fun e f => recordBlock e ≤ recordBlock f) {n : Nat}
    (h : (∃ e ∈ t, recordBlock e = n) ∨ ∀ e ∈ t, n < recordBlock e) :
    (t.reverse.takeWhile fun e => decide (recordBlock e ≠ n)).reverse = t.filter fun e => decide (n < recordBlock e) := by
  rw [takeWhile_later (List.pairwise_reverse.mpr hord) (by
    rcases h with ⟨e, he, hn⟩ | h
    · exact .inl ⟨e, List.mem_reverse.mpr he, hn⟩
    · exact .inr fun e he => h e (List.mem_reverse.mp he)), List.filter_reverse, List.reverse_reverse]

theorem lexLt_append {a b x y : Bytes} (hl : a.length = b.length) (h : lexLt a b = true) : lexLt (a ++ x) (b ++ y) = true := by
  induction a generalizing b with
  | nil =>
    cases b with
    | nil => cases h
    | cons _ _ => cases hl
  | cons c a ih =>
    cases b with
    | nil => cases hl
    | cons d b =>
      unfold lexLt at h
      rw [List.cons_append, List.cons_append]
      unfold lexLt
      by_cases h1 : c < d
      · rw [if_pos h1]
      · rw [if_neg h1] at h ⊢
        by_cases h2 : d < c
        · rw [if_pos h2] at h; cases h
        · rw [if_neg h2] at h ⊢
          exact ih (by simpa using hl) h

/-- Order by keys is order by blocks. -/
theorem ordered_blocks {t : Table} (ht : MultiOrdered t) (h8 : ∀ e ∈ t, 8 ≤ e.1.length) :
    t.Pairwise fun e f => recordBlock e ≤ recordBlock f := by
  refine List.Pairwise.imp_of_mem (fun {e f} he hf h => ?_) ht
  rcases h with h | ⟨h, _⟩
  · unfold recordBlock
    have l1 : (e.1.take 8).length = 8 := by rw [List.length_take]; have := h8 e he; omega
    have l2 : (f.1.take 8).length = 8 := by rw [List.length_take]; have := h8 f hf; omega
    rw [← Nat.not_lt, ← key_lt l2 l1]
    intro hlt
    have h3 := lexLt_append (x := f.1.drop 8) (y := e.1.drop 8) (l2.trans l1.symm) ((Etl.lexLt_iff _ _).mpr hlt)
    rw [List.take_append_drop, List.take_append_drop] at h3
    exact absurd ((Etl.lexLt_iff _ _).mp h3) (fun h4 => List.lt_irrefl _ (List.lt_trans h h4))
  · unfold recordBlock
    rw [h]

end Silkworm.Stages
