import Verif.Etl.Collector
import Verif.Spec.Etl
import Verif.Db.UtilLemmas
import Mathlib.Tactic.Tauto

/-!
# Lemmas about collecting and loading
-/

namespace Silkworm.Etl

open Silkworm.Db (lexLt)
open Silkworm.Spec

/-! ## The order of entries -/

theorem lexLt_iff (a b : Bytes) : lexLt a b = true ↔ a < b := by
  induction a generalizing b with
  | nil => cases b <;> simp [lexLt]
  | cons x a ih =>
    cases b with
    | nil => simp [lexLt]
    | cons y b =>
      rw [List.cons_lt_cons_iff, ← ih b]
      rw [show lexLt (x :: a) (y :: b) = (if x < y then true else if y < x then false else lexLt a b) from rfl]
      by_cases h : x < y
      · simp [h]
      · rw [if_neg h]
        by_cases h2 : y < x
        · have : x ≠ y := by intro he; subst he; exact absurd h2 h
          simp [h, h2, this]
        · have : x = y := UInt8.le_antisymm (UInt8.not_lt.mp h2) (UInt8.not_lt.mp h)
          rw [if_neg h2]
          simp [this]

theorem lexLt_false_iff (a b : Bytes) : lexLt a b = false ↔ b ≤ a := by
  rw [← Bool.not_eq_true, lexLt_iff]
  exact List.not_lt

/-- The pair of an entry. -/
def Entry.pair (e : Entry) : Bytes × Bytes := (e.key, e.value)

theorem lt_false_iff (a b : Entry) : Entry.lt b a = false ↔ Precedes a.pair b.pair := by
  unfold Entry.lt Precedes Entry.pair
  split
  · rename_i h
    rw [lexLt_false_iff]
    simp only [h, true_and]
    constructor
    · exact Or.inr
    · rintro (hl | hl)
      · exact absurd hl (List.lt_irrefl _)
      · exact hl
  · rename_i h
    rw [lexLt_false_iff, List.le_iff_lt_or_eq]
    have : ¬ a.key = b.key := fun he => h he.symm
    simp [this]

theorem precedes_trans {a b c : Bytes × Bytes} (h1 : Precedes a b) (h2 : Precedes b c) : Precedes a c := by
  rcases h1 with h1 | ⟨h1, h1'⟩ <;> rcases h2 with h2 | ⟨h2, h2'⟩
  · exact Or.inl (List.lt_trans h1 h2)
  · exact Or.inl (h2 ▸ h1)
  · exact Or.inl (h1 ▸ h2)
  · exact Or.inr ⟨h1.trans h2, List.le_trans h1' h2'⟩

theorem precedes_total (a b : Bytes × Bytes) : Precedes a b ∨ Precedes b a := by
  unfold Precedes
  by_cases h : a.1 < b.1
  · exact Or.inl (Or.inl h)
  · rcases List.le_iff_lt_or_eq.mp (List.not_lt.mp h) with h | h
    · exact Or.inr (Or.inl h)
    · rcases List.le_total a.2 b.2 with h2 | h2
      · exact Or.inl (Or.inr ⟨h.symm, h2⟩)
      · exact Or.inr (Or.inr ⟨h, h2⟩)

theorem precedes_antisymm {a b : Bytes × Bytes} (h1 : Precedes a b) (h2 : Precedes b a) : a = b := by
  rcases h1 with h1 | ⟨h1, h1'⟩ <;> rcases h2 with h2 | ⟨h2, h2'⟩
  · exact absurd (List.lt_trans h1 h2) (List.lt_irrefl _)
  · exact absurd (h2 ▸ h1) (List.lt_irrefl _)
  · exact absurd (h1 ▸ h2) (List.lt_irrefl _)
  · exact Prod.ext h1 (List.le_antisymm h1' h2')

/-- Entries in order. -/
def Ordered (l : List Entry) : Prop := l.Pairwise fun a b => Precedes a.pair b.pair

theorem insert_perm (e : Entry) (l : List Entry) : (Buffer.insert e l).Perm (e :: l) := by
  induction l with
  | nil => exact List.Perm.refl _
  | cons x l ih =>
    unfold Buffer.insert
    split
    · exact (ih.cons x).trans (List.Perm.swap _ _ _)
    · exact List.Perm.refl _

theorem sorted_perm (l : List Entry) : (Buffer.sorted l).Perm l := by
  induction l with
  | nil => exact List.Perm.refl _
  | cons x l ih => exact (insert_perm x _).trans (ih.cons x)

theorem ordered_insert (e : Entry) {l : List Entry} (h : Ordered l) : Ordered (Buffer.insert e l) := by
  induction l with
  | nil => exact List.pairwise_singleton _ _
  | cons x l ih =>
    have hx := List.pairwise_cons.mp h
    unfold Buffer.insert
    split
    · rename_i hlt
      have hxe : Precedes x.pair e.pair := by
        rcases precedes_total x.pair e.pair with h1 | h1
        · exact h1
        · rw [(lt_false_iff _ _).mpr h1] at hlt
          exact absurd hlt (by simp)
      refine List.pairwise_cons.mpr ⟨fun y hy => ?_, ih hx.2⟩
      rcases List.mem_cons.mp ((insert_perm e l).mem_iff.mp hy) with hy | hy
      · rw [hy]; exact hxe
      · exact hx.1 y hy
    · rename_i hlt
      have hex : Precedes e.pair x.pair := (lt_false_iff _ _).mp (Bool.eq_false_iff.mpr hlt)
      refine List.pairwise_cons.mpr ⟨fun y hy => ?_, h⟩
      rcases List.mem_cons.mp hy with hy | hy
      · rw [hy]; exact hex
      · exact precedes_trans hex (hx.1 y hy)

theorem ordered_sort (l : List Entry) : Ordered (Buffer.sorted l) := by
  induction l with
  | nil => exact List.Pairwise.nil
  | cons x l ih => exact ordered_insert x ih

/-! ## Files -/

theorem le32_length (n : Nat) : (le32 n).length = 4 := rfl

theorem le32_roundtrip {n : Nat} (h : n < 2 ^ 32) : le32ToNat (le32 n) = n := by
  unfold le32ToNat le32
  simp only [List.getD_cons_zero, List.getD_cons_succ, UInt8.toNat_ofNat']
  omega

/-- An entry of which the lengths fit. -/
def Fits (e : Entry) : Prop := EntryFits e.pair

theorem readBytes_append (a b : Bytes) : FileProvider.readBytes (a ++ b) a.length = some (a, b) := by
  unfold FileProvider.readBytes
  rw [if_pos (by simp)]
  simp

theorem readEntry_cons {p : FileProvider} {e : Entry} {rest : Bytes} (hf : p.file = some (FileProvider.entryBytes e ++ rest))
    (hs : p.fileSize ≠ 0) (he : Fits e) : p.readEntry = .ok (some (e, p.id), { p with file := some rest }) := by
  have h1 : e.key.length < 2 ^ 32 := he.1
  have h2 : e.value.length < 2 ^ 32 := he.2
  have e0 : FileProvider.entryBytes e ++ rest =
      (le32 e.key.length ++ le32 e.value.length) ++ (e.key ++ (e.value ++ rest)) := by
    unfold FileProvider.entryBytes
    rw [Nat.mod_eq_of_lt h1, Nat.mod_eq_of_lt h2]
    simp
  have e1 : FileProvider.readBytes (FileProvider.entryBytes e ++ rest) 8 =
      some (le32 e.key.length ++ le32 e.value.length, e.key ++ (e.value ++ rest)) := by
    rw [e0]
    exact readBytes_append _ _
  have e2 : (le32 e.key.length ++ le32 e.value.length).take 4 = le32 e.key.length := rfl
  have e3 : (le32 e.key.length ++ le32 e.value.length).drop 4 = le32 e.value.length := rfl
  unfold FileProvider.readEntry
  rw [hf]
  simp only [hs, if_false]
  rw [e1]
  simp only
  rw [e2, e3, le32_roundtrip h1, le32_roundtrip h2, readBytes_append]
  simp only
  rw [readBytes_append]

theorem readEntry_nil {p : FileProvider} (hf : p.file = some []) (hs : p.fileSize ≠ 0) :
    p.readEntry = .ok (none, p.reset) := by
  unfold FileProvider.readEntry
  rw [hf]
  simp only [hs, if_false]
  rfl

/-- The contents of a file. -/
def contents (l : List Entry) : Bytes := l.flatMap FileProvider.entryBytes

theorem length_contents (l : List Entry) : l.length ≤ (contents l).length := by
  induction l with
  | nil => simp
  | cons e l ih =>
    have : 1 ≤ (FileProvider.entryBytes e).length := by
      unfold FileProvider.entryBytes
      simp only [List.length_append, le32_length]
      omega
    simp only [contents, List.flatMap_cons, List.length_append, List.length_cons] at *
    omega

/-! ## Merging -/

namespace Collector

variable {σ ε : Type}

/-- The entry of the queue at position `x.1.2` is followed in its file by `x.2`. -/
structure Follows (ps : List (Option FileProvider)) (x : (Entry × Nat) × List Entry) : Prop where
  provider : ∃ p, ps[x.1.2]? = some (some p) ∧ p.id = x.1.2 ∧ p.fileSize ≠ 0 ∧ p.file = some (contents x.2)
  fits : ∀ e ∈ x.2, Fits e
  ordered : Ordered (x.1.1 :: x.2)

/-- What is still to be delivered. -/
def pending (Q : List ((Entry × Nat) × List Entry)) : List Entry := Q.flatMap fun x => x.1.1 :: x.2

theorem loadEntries_cons (f : σ → Entry → Outcome ε σ) (s : σ) (e : Entry) (l : List Entry) :
    loadEntries f s (e :: l) = (deliver f s e >>= fun s => loadEntries f s l) := rfl

theorem eraseIdx_map {α β : Type} (f : α → β) (l : List α) (i : Nat) : (l.map f).eraseIdx i = (l.eraseIdx i).map f := by
  induction l generalizing i with
  | nil => simp
  | cons a l ih => cases i <;> simp [ih]

theorem perm_eraseIdx {α : Type} {l : List α} {i : Nat} (h : i < l.length) : l.Perm (l[i] :: l.eraseIdx i) := by
  induction l generalizing i with
  | nil => exact absurd h (Nat.not_lt_zero _)
  | cons a l ih =>
    cases i with
    | zero => exact List.Perm.refl _
    | succ i =>
      have := ih (i := i) (by simpa using h)
      simp only [List.eraseIdx_cons_succ, List.getElem_cons_succ]
      exact (this.cons a).trans (List.Perm.swap _ _ _)

theorem ordered_head {e : Entry} {l : List Entry} (h : Ordered (e :: l)) {x : Entry} (hx : x ∈ l) :
    Precedes e.pair x.pair := (List.pairwise_cons.mp h).1 x hx

theorem mergeLoop_spec (h : Heap) (f : σ → Entry → Outcome ε σ) :
    ∀ (fuel : Nat) (Q : List ((Entry × Nat) × List Entry)) (ps : List (Option FileProvider)),
      (pending Q).length ≤ fuel → (∀ x ∈ Q, Follows ps x) → (Q.map fun x => x.1.2).Nodup →
      ∃ L ps', L.Perm (pending Q) ∧ Ordered L ∧
        ∀ s, mergeLoop h f fuel s (Q.map Prod.fst) ps = (loadEntries f s L >>= fun s => .ok (s, ps')) := by
  intro fuel
  induction fuel with
  | zero =>
    intro Q ps hl _ _
    cases Q with
    | nil => exact ⟨[], ps, List.Perm.refl _, List.Pairwise.nil, fun s => rfl⟩
    | cons x Q => simp [pending] at hl
  | succ fuel ih =>
    intro Q ps hl hQ hn
    cases Q with
    | nil => exact ⟨[], ps, List.Perm.refl _, List.Pairwise.nil, fun s => rfl⟩
    | cons x0 Q0 =>
      generalize hQe : x0 :: Q0 = Q at *
      have hne : Q.map Prod.fst ≠ [] := by rw [← hQe]; simp
      obtain ⟨k, hk, hlt, hmin⟩ : ∃ k, h.top (Q.map Prod.fst) = k ∧ ∃ hlt : k < (Q.map Prod.fst).length,
          ∀ x ∈ Q.map Prod.fst, Entry.lt x.1 ((Q.map Prod.fst)[k]).1 = false :=
        ⟨_, rfl, h.top_lt _ hne, h.top_min _ hne⟩
      have hk' : k < Q.length := by simpa using hlt
      obtain ⟨x, hx⟩ : ∃ x, Q[k] = x := ⟨_, rfl⟩
      have hget : (Q.map Prod.fst)[k]? = some x.1 := by
        rw [List.getElem?_map, List.getElem?_eq_getElem hk', hx]; rfl
      have hxm : x ∈ Q := hx ▸ List.getElem_mem hk'
      have hmin' : ∀ y ∈ Q, Precedes x.1.1.pair y.1.1.pair := by
        intro y hy
        have := hmin y.1 (List.mem_map_of_mem hy)
        simp only [List.getElem_map, hx] at this
        exact (lt_false_iff _ _).mp this
      obtain ⟨p, hp, hid, hfs, hfile⟩ := (hQ x hxm).provider
      have hperm : Q.Perm (x :: Q.eraseIdx k) := by rw [← hx]; exact perm_eraseIdx hk'
      have hnd : ((x :: Q.eraseIdx k).map fun x => x.1.2).Nodup := (hperm.map _).nodup_iff.mp hn
      rw [List.map_cons, List.nodup_cons] at hnd
      have hother : ∀ y ∈ Q.eraseIdx k, y.1.2 ≠ x.1.2 := by
        intro y hy he
        exact hnd.1 (he ▸ List.mem_map_of_mem (f := fun x => x.1.2) hy)
      have hpend : (pending Q).Perm (x.1.1 :: (x.2 ++ pending (Q.eraseIdx k))) := by
        have := hperm.flatMap_right (fun x : (Entry × Nat) × List Entry => x.1.1 :: x.2)
        simpa [pending] using this
      have hle : ∀ e ∈ x.2 ++ pending (Q.eraseIdx k), Precedes x.1.1.pair e.pair := by
        intro e he
        rcases List.mem_append.mp he with he | he
        · exact ordered_head (hQ x hxm).ordered he
        · obtain ⟨y, hy, hey⟩ := List.mem_flatMap.mp he
          have hyQ := List.mem_of_mem_eraseIdx hy
          rcases List.mem_cons.mp hey with hey | hey
          · rw [hey]; exact hmin' y hyQ
          · exact precedes_trans (hmin' y hyQ) (ordered_head (hQ y hyQ).ordered hey)
      have hset : ∀ (o : Option FileProvider), ∀ y ∈ Q.eraseIdx k, Follows (ps.set x.1.2 o) y := by
        intro o y hy
        obtain ⟨p', h1, h2⟩ := (hQ y (List.mem_of_mem_eraseIdx hy)).provider
        exact ⟨⟨p', by rw [List.getElem?_set_ne (Ne.symm (hother y hy))]; exact h1, h2⟩,
          (hQ y (List.mem_of_mem_eraseIdx hy)).fits, (hQ y (List.mem_of_mem_eraseIdx hy)).ordered⟩
      have herase : (Q.map Prod.fst).eraseIdx k = (Q.eraseIdx k).map Prod.fst := by
        exact eraseIdx_map _ _ _
      have hlen := hpend.length_eq
      have hstep : ∀ s, mergeLoop h f (fuel + 1) s (Q.map Prod.fst) ps =
          (deliver f s x.1.1 >>= fun s => lift p.readEntry >>= fun r =>
            match r.1 with
            | some item => mergeLoop h f fuel s ((Q.eraseIdx k).map Prod.fst ++ [item]) (ps.set x.1.2 (some r.2))
            | none => mergeLoop h f fuel s ((Q.eraseIdx k).map Prod.fst) (ps.set x.1.2 none)) := by
        intro s
        rw [← herase]
        cases hq : Q.map Prod.fst with
        | nil => exact absurd hq hne
        | cons a b =>
          rw [mergeLoop]
          simp only
          rw [← hq, hk, hget]
          simp only
          rw [hp]
          rfl
      cases hx2 : x.2 with
      | nil =>
        have hr := readEntry_nil (p := p) (by rw [hfile, hx2]; rfl) hfs
        obtain ⟨L, ps', hL, ho, hrun⟩ := ih (Q.eraseIdx k) (ps.set x.1.2 none) (by
          rw [hx2] at hlen; simp only [List.nil_append, List.length_cons] at hlen; omega) (hset none) hnd.2
        refine ⟨x.1.1 :: L, ps', ?_, ?_, ?_⟩
        · rw [hx2] at hpend
          exact (hL.cons _).trans hpend.symm
        · refine List.pairwise_cons.mpr ⟨fun e he => hle e (List.mem_append_right _ (hL.mem_iff.mp he)), ho⟩
        · intro s
          rw [hstep, loadEntries_cons, Outcome.bind_assoc, hr]
          simp only [lift, Outcome.ok_bind]
          congr 1
          funext s
          exact hrun s
      | cons e' t =>
        have hfit := (hQ x hxm).fits
        rw [hx2] at hfit
        have hr := readEntry_cons (p := p) (e := e') (rest := contents t) (by rw [hfile, hx2]; rfl) hfs
          (hfit e' (List.mem_cons_self ..))
        have hlt2 : x.1.2 < ps.length := by
          by_cases hc : x.1.2 < ps.length
          · exact hc
          · rw [List.getElem?_eq_none (by omega)] at hp; exact absurd hp (by simp)
        have hord := (hQ x hxm).ordered
        rw [hx2] at hord
        obtain ⟨L, ps', hL, ho, hrun⟩ := ih (Q.eraseIdx k ++ [((e', x.1.2), t)])
          (ps.set x.1.2 (some { p with file := some (contents t) })) (by
            rw [hx2] at hlen
            simp only [pending, List.length_cons, List.length_append, List.flatMap_append, List.flatMap_cons,
              List.flatMap_nil, List.length_nil] at *
            omega) (by
            intro y hy
            rcases List.mem_append.mp hy with hy | hy
            · exact hset _ y hy
            · rw [List.mem_singleton.mp hy]
              exact ⟨⟨{ p with file := some (contents t) }, List.getElem?_set_self hlt2, hid, hfs, rfl⟩,
                fun e he => hfit e (List.mem_cons_of_mem _ he), (List.pairwise_cons.mp hord).2⟩) (by
            rw [List.map_append, List.nodup_append]
            refine ⟨hnd.2, List.nodup_cons.mpr ⟨List.not_mem_nil, List.nodup_nil⟩, ?_⟩
            intro a ha b hb hab
            simp only [List.map_cons, List.map_nil, List.mem_singleton] at hb
            exact hnd.1 (by rw [← hb, ← hab]; exact ha))
        refine ⟨x.1.1 :: L, ps', ?_, ?_, ?_⟩
        · rw [hx2] at hpend
          refine (hL.cons _).trans (List.Perm.trans ?_ hpend.symm)
          refine List.Perm.cons _ ?_
          simp only [pending, List.flatMap_append, List.flatMap_cons, List.flatMap_nil, List.append_nil]
          exact List.perm_append_comm
        · refine List.pairwise_cons.mpr ⟨fun e he => hle e ?_, ho⟩
          have := hL.mem_iff.mp he
          rw [hx2]
          simp only [pending, List.flatMap_append, List.flatMap_cons, List.flatMap_nil, List.append_nil,
            List.mem_append, List.mem_cons] at this ⊢
          tauto
        · intro s
          rw [hstep, loadEntries_cons, Outcome.bind_assoc, hr]
          simp only [lift, Outcome.ok_bind]
          congr 1
          funext s
          rw [← hrun s]
          rw [List.map_append, hid]
          rfl

end Collector

end Silkworm.Etl
