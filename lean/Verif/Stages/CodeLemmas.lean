import Verif.Stages.HashStateLemmas
import Verif.Rlp.Lemmas

/-!
# Lemmas about the code hashes of contracts when stages are unwound
-/

namespace Silkworm.Stages

open Silkworm.Db Silkworm.Spec

theorem extractIncarnation_lt {v : Bytes} {n : Nat} (h : extractIncarnation v = .ok n) : n < 256 ^ 8 := by
  unfold extractIncarnation at h
  obtain ⟨f, _, h⟩ := Outcome.bind_eq_ok.mp h
  obtain ⟨r, _, h⟩ := Outcome.bind_eq_ok.mp h
  obtain ⟨r2, _, h⟩ := Outcome.bind_eq_ok.mp h
  split at h
  · obtain ⟨l, _, h⟩ := Outcome.bind_eq_ok.mp h
    exact (Rlp.readUint_inv h).2.1
  · rw [← Outcome.ok.inj h]; decide

/-- The incarnations from `i` down to `n + 1` are removed. -/
theorem cleanupCodes_stored (a : Bytes) (n i : Nat) (t : Table) (k : Bytes) (h1 : (stored t k).length ≤ 1) :
    ((∃ j, n < j ∧ j ≤ i ∧ k = a ++ beFixed 8 j) → stored (cleanupCodes a n i t) k = []) ∧
    ((∀ j, n < j → j ≤ i → k ≠ a ++ beFixed 8 j) → stored (cleanupCodes a n i t) k = stored t k) := by
  induction i generalizing t with
  | zero => exact ⟨fun ⟨j, h2, h3, _⟩ => by omega, fun _ => rfl⟩
  | succ i ih =>
    unfold cleanupCodes
    by_cases hn : n < i + 1
    · rw [if_pos hn]
      have hs := stored_erase_found t (a ++ beFixed 8 (i + 1)) k
      obtain ⟨i1, i2⟩ := ih _ (by
        rw [hs]; split
        · rename_i hk; rw [← hk, List.length_tail]; omega
        · exact h1)
      by_cases hk : k = a ++ beFixed 8 (i + 1)
      · refine ⟨fun _ => ?_, fun hno => absurd hk (hno _ hn (Nat.le_refl _))⟩
        have hnil : stored (Db.Buffer.eraseFound t (t.find (a ++ beFixed 8 (i + 1)))) k = [] := by
          rw [hs, if_pos hk, ← hk, ← List.length_eq_zero_iff, List.length_tail]; omega
        by_cases he : ∃ j, n < j ∧ j ≤ i ∧ k = a ++ beFixed 8 j
        · exact i1 he
        · rw [i2 (fun j j1 j2 j3 => he ⟨j, j1, j2, j3⟩), hnil]
      · rw [if_neg hk] at hs
        refine ⟨fun ⟨j, j1, j2, j3⟩ => i1 ⟨j, j1, ?_, j3⟩, fun hno => ?_⟩
        · rcases Nat.lt_or_ge i j with h | h
          · exact absurd (by rw [j3, show j = i + 1 by omega]) hk
          · exact h
        · rw [i2 (fun j j1 j2 => hno j j1 (by omega)), hs]
    · rw [if_neg hn]
      exact ⟨fun ⟨j, j1, j2, _⟩ => by omega, fun _ => rfl⟩

theorem restoreForUnwind_incarnation {c : Table} {a : Bytes} {x y : Account} (h : restoreForUnwind c a x = .ok y) :
    y.incarnation = x.incarnation := by
  unfold restoreForUnwind at h
  split at h
  · split at h
    · cases h
    · split at h
      · cases h
      · rw [← Outcome.ok.inj h]
  · rw [← Outcome.ok.inj h]

theorem lift_ok {α : Type} {d : Rlp.Dec α} {x : α} (h : liftDb (liftDec d) = .ok x) : d = .ok x := by
  cases d with
  | ok y => exact congrArg _ (Outcome.ok.inj h)
  | err e => cases h
  | ub => cases h

/-- What undoing a record of an account does to the code hashes. -/
theorem unwindAccount_code {p p' : Plain} {a v : Bytes} (h : unwindAccount p a v = .ok p') (ha : a.length = 20)
    (ho : Ordered p.code) (b : Bytes) (hb : b.length = 20) (i : Nat) (hi : i < 256 ^ 8) :
    (a = b → v ≠ [] → ∀ x, decodeAccountFromStorage v = .ok x → x.incarnation < i → ∀ w, p.state.find a = some (a, w) →
      ∀ c, extractIncarnation w = .ok c → i ≤ c → stored p'.code (b ++ beFixed 8 i) = []) ∧
    ((a = b → v ≠ [] → ∀ x, decodeAccountFromStorage v = .ok x → i ≤ x.incarnation) →
      stored p'.code (b ++ beFixed 8 i) = stored p.code (b ++ beFixed 8 i)) := by
  unfold unwindAccount at h
  by_cases hv : v = []
  · rw [if_pos hv] at h
    rw [← Outcome.ok.inj h]
    refine ⟨fun _ hn => absurd hv hn, fun _ => ?_⟩
    dsimp only
    rw [stored_erase_found, if_neg]
    intro hc
    have := congrArg List.length hc
    rw [List.length_append, beFixed_length, hb, ha] at this
    omega
  · rw [if_neg hv] at h
    obtain ⟨x, hx, h⟩ := Outcome.bind_eq_ok.mp h
    obtain ⟨y, hy, h⟩ := Outcome.bind_eq_ok.mp h
    obtain ⟨c, hc, h⟩ := Outcome.bind_eq_ok.mp h
    have hx := lift_ok hx
    have hinc := restoreForUnwind_incarnation hy
    rw [← Outcome.ok.inj h]
    dsimp only
    unfold cleanupContract at hc
    cases hf : p.state.find a with
    | none =>
      rw [hf] at hc
      rw [← Outcome.ok.inj hc]
      exact ⟨fun _ _ _ _ _ w hw => (by cases hw), fun _ => rfl⟩
    | some e =>
      rw [hf] at hc
      obtain ⟨m, hm, hc⟩ := Outcome.bind_eq_ok.mp hc
      have hm := lift_ok hm
      rw [← Outcome.ok.inj hc]
      obtain ⟨s1, s2⟩ := cleanupCodes_stored a y.incarnation m p.code (b ++ beFixed 8 i) (stored_ordered_le ho _)
      refine ⟨fun hab _ z hz hlt w hw c' hc' hle => ?_, fun hno => s2 fun j j1 j2 j3 => ?_⟩
      · have h1 := Option.some.inj hw
        rw [h1] at hm
        have h2 : c' = m := Outcome.ok.inj (hc'.symm.trans hm)
        have h3 : z = x := Outcome.ok.inj (hz.symm.trans hx)
        exact s1 ⟨i, by rw [hinc, ← h3]; exact hlt, by rw [← h2]; exact hle, by rw [hab]⟩
      · have hab : b = a := List.append_inj_left j3 (hb.trans ha.symm)
        have hij : i = j := beFixed_inj hi (Nat.lt_of_le_of_lt j2 (extractIncarnation_lt hm)) (List.append_inj_right j3 (hb.trans ha.symm))
        have := hno hab.symm hv x hx
        omega

/-- A record of an account, as the walk undoes it. -/
theorem unwindStep_account {p p' : Plain} {e : Bytes × Bytes} (he : e.1.length = 8) (h : unwindStep p e = .ok p') :
    (e.2.take 20).length = 20 ∧ unwindAccount p (e.2.take 20) (e.2.drop 20) = .ok p' := by
  unfold unwindStep convertToDbFormat at h
  rw [if_pos he] at h
  by_cases h20 : e.2.length < 20
  · rw [if_pos h20] at h; cases h
  · rw [if_neg h20, Outcome.ok_bind] at h
    have hlen : (e.2.take 20).length = 20 := by rw [List.length_take]; omega
    unfold collectForUnwind at h
    rw [if_pos hlen] at h
    exact ⟨hlen, h⟩

theorem Ordered.sub {s t : Table} (h : s.Sublist t) (ht : Ordered t) : Ordered s := List.Pairwise.sublist h ht

theorem stored_sublist_nil {s t : Table} (h : s.Sublist t) {k : Bytes} (hk : stored t k = []) : stored s k = [] := by
  have : (stored s k).Sublist (stored t k) := (h.filter _).map _
  rw [hk] at this
  exact List.sublist_nil.mp this

/-- The code hash of an incarnation stays if no record is of an earlier one. -/
theorem fold_codes_kept (b : Bytes) (hb : b.length = 20) (i : Nat) (hi : i < 256 ^ 8) (l : Table) (hl : ∀ e ∈ l, e.1.length = 8)
    (hk : ∀ e ∈ l, e.2.take 20 = b → e.2.drop 20 ≠ [] → ∀ x, decodeAccountFromStorage (e.2.drop 20) = .ok x → i ≤ x.incarnation) :
    ∀ (p p' : Plain), MultiOrdered p.state → Ordered p.code → l.foldlM unwindStep p = .ok p' →
      stored p'.code (b ++ beFixed 8 i) = stored p.code (b ++ beFixed 8 i) := by
  induction l with
  | nil =>
    intro p p' _ _ h
    rw [← Outcome.ok.inj h]
  | cons e l ih =>
    intro p p' hp ho h
    rw [List.foldlM_cons] at h
    obtain ⟨q, hq, h⟩ := Outcome.bind_eq_ok.mp h
    obtain ⟨h20, hq⟩ := unwindStep_account (hl e List.mem_cons_self) hq
    obtain ⟨q1, q2, _⟩ := unwindAccount_spec hq hp
    rw [ih (fun x hx => hl x (List.mem_cons_of_mem _ hx)) (fun x hx => hk x (List.mem_cons_of_mem _ hx)) q p' q1 (Ordered.sub q2 ho) h]
    exact (unwindAccount_code hq h20 ho b hb i hi).2 (hk e List.mem_cons_self)

/-- Code hashes are only removed. -/
theorem fold_codes_sublist (l : Table) (hl : ∀ e ∈ l, e.1.length = 8) :
    ∀ (p p' : Plain), MultiOrdered p.state → l.foldlM unwindStep p = .ok p' → MultiOrdered p'.state ∧ p'.code.Sublist p.code := by
  induction l with
  | nil =>
    intro p p' hp h
    rw [← Outcome.ok.inj h]
    exact ⟨hp, List.Sublist.refl _⟩
  | cons e l ih =>
    intro p p' hp h
    rw [List.foldlM_cons] at h
    obtain ⟨q, hq, h⟩ := Outcome.bind_eq_ok.mp h
    obtain ⟨_, hq⟩ := unwindStep_account (hl e List.mem_cons_self) hq
    obtain ⟨q1, q2, _⟩ := unwindAccount_spec hq hp
    obtain ⟨r1, r2⟩ := ih (fun x hx => hl x (List.mem_cons_of_mem _ hx)) q p' q1 h
    exact ⟨r1, r2.trans q2⟩

/-- The code hash of an incarnation is removed if the first record to be undone is of an earlier one. -/
theorem fold_codes_erased (b : Bytes) (hb : b.length = 20) (i : Nat) (hi : i < 256 ^ 8) (e : Bytes × Bytes) (he : e.2.take 20 = b)
    (hv : e.2.drop 20 ≠ []) (x : Account) (hx : decodeAccountFromStorage (e.2.drop 20) = .ok x) (hxi : x.incarnation < i)
    (u : Table) (l : Table) (hl : ∀ f ∈ u ++ e :: l, f.1.length = 8) (hu : ∀ f ∈ u, f.2.take 20 ≠ b) (w : Bytes) (c : Nat)
    (hc : extractIncarnation w = .ok c) (hic : i ≤ c) :
    ∀ (p p' : Plain), MultiOrdered p.state → Ordered p.code → p.state.find b = some (b, w) →
      (u ++ e :: l).foldlM unwindStep p = .ok p' → stored p'.code (b ++ beFixed 8 i) = [] := by
  induction u with
  | nil =>
    intro p p' hp ho hw h
    rw [List.nil_append, List.foldlM_cons] at h
    obtain ⟨q, hq, h⟩ := Outcome.bind_eq_ok.mp h
    obtain ⟨h20, hq⟩ := unwindStep_account (hl e (by simp)) hq
    obtain ⟨q1, q2, _⟩ := unwindAccount_spec hq hp
    refine stored_sublist_nil (fold_codes_sublist l (fun f hf => hl f (by simp [hf])) q p' q1 h).2 ?_
    exact (unwindAccount_code hq h20 ho b hb i hi).1 he hv x hx hxi w (by rw [he]; exact hw) c hc hic
  | cons f u ih =>
    intro p p' hp ho hw h
    rw [List.cons_append, List.foldlM_cons] at h
    obtain ⟨q, hq, h⟩ := Outcome.bind_eq_ok.mp h
    obtain ⟨h20, hq⟩ := unwindStep_account (hl f (by simp)) hq
    obtain ⟨q1, q2, q3⟩ := unwindAccount_spec hq hp
    refine ih (fun g hg => hl g (by simp only [List.cons_append, List.mem_cons]; exact .inr hg))
      (fun g hg => hu g (List.mem_cons_of_mem _ hg)) q p' q1 (Ordered.sub q2 ho) ?_ h
    rcases q3 with ⟨_, q3⟩ | ⟨_, _, _, _, _, q3⟩
    · rw [q3]; exact hw
    · rw [find_stored] at hw ⊢
      rw [q3, if_neg (fun hh => hu f List.mem_cons_self hh.symm)]
      exact hw

/-- The hashed keys of the current code hashes of the accounts. -/
def codeKeys (keccak : Bytes → Bytes) (plain : Table) (t : Table) : List Bytes :=
  t.filterMap fun e => match plain.find (e.2.take 20) with
    | none => none
    | some x => match extractIncarnation x.2 with
      | .ok i => if i = 0 then none else some (keccak (e.2.take 20) ++ beFixed 8 i)
      | _ => none

theorem unwindCodes_fold (keccak : Bytes → Bytes) (plain t target r : Table)
    (h : t.foldlM (fun tg e => unwindHashedCode keccak plain tg (e.2.take 20)) target = .ok r) :
    r = erases (codeKeys keccak plain t) target := by
  induction t generalizing target with
  | nil => exact (Outcome.ok.inj h).symm
  | cons e t ih =>
    rw [List.foldlM_cons] at h
    obtain ⟨q, hq, h⟩ := Outcome.bind_eq_ok.mp h
    rw [ih q h]
    unfold codeKeys
    rw [List.filterMap_cons]
    unfold unwindHashedCode at hq
    rw [List.take_take, Nat.min_self] at hq
    cases hf : plain.find (e.2.take 20) with
    | none =>
      rw [hf] at hq
      rw [← Outcome.ok.inj hq]
    | some x =>
      rw [hf] at hq
      obtain ⟨i, hi, hq⟩ := Outcome.bind_eq_ok.mp hq
      have hi := lift_ok hi
      dsimp only
      rw [hi]
      dsimp only
      by_cases h0 : i = 0
      · rw [if_pos h0] at hq ⊢
        rw [← Outcome.ok.inj hq]
      · rw [if_neg h0] at hq ⊢
        rw [← Outcome.ok.inj hq]
        rfl

end Silkworm.Stages
