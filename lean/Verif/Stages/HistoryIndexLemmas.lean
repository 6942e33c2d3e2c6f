import Verif.Stages.HistoryIndex
import Verif.Stages.HashStateLemmas
import Verif.Db.BitmapLemmas

/-!
# Lemmas about the stages that index blocks in bitmaps
-/

namespace Silkworm.Db.Bitmap

theorem mem_add (x y : Nat) (l : List Nat) : y ∈ add x l ↔ y = x ∨ y ∈ l := by
  induction l with
  | nil => simp [add]
  | cons z l ih =>
    unfold add
    split
    · simp
    · split
      · rename_i h; subst h; simp
      · simp only [List.mem_cons, ih]
        constructor
        · rintro (h | h | h) <;> simp [h]
        · rintro (h | h | h) <;> simp [h]

theorem sorted_add (x : Nat) (l : List Nat) (h : l.Pairwise (· < ·)) : (add x l).Pairwise (· < ·) := by
  induction l with
  | nil => exact List.pairwise_singleton _ _
  | cons z l ih =>
    obtain ⟨h1, h2⟩ := List.pairwise_cons.mp h
    unfold add
    split
    · rename_i hx
      refine List.pairwise_cons.mpr ⟨fun y hy => ?_, h⟩
      rcases List.mem_cons.mp hy with rfl | hy
      · exact hx
      · exact Nat.lt_trans hx (h1 y hy)
    · split
      · exact h
      · refine List.pairwise_cons.mpr ⟨fun y hy => ?_, ih h2⟩
        rcases (mem_add x y l).mp hy with rfl | hy
        · omega
        · exact h1 y hy

theorem mem_union (a b : List Nat) (y : Nat) : y ∈ union a b ↔ y ∈ a ∨ y ∈ b := by
  induction a with
  | nil => simp [union]
  | cons x a ih =>
    unfold union at ih ⊢
    rw [List.foldr_cons, mem_add, ih, List.mem_cons, or_assoc]

theorem sorted_union (a b : List Nat) (h : b.Pairwise (· < ·)) : (union a b).Pairwise (· < ·) := by
  induction a with
  | nil => exact h
  | cons x a ih => exact sorted_add _ _ ih

/-- A bitmap that fits is cut into itself. -/
theorem cutLeft64_fits (size : List Nat → Nat) (limit : Nat) {bm : List Nat} (hb : bm ≠ []) (hs : bm.Pairwise (· < ·))
    (hm : ∀ x ∈ bm, x < 2 ^ 32) (h : size bm ≤ limit) : cutLeft64 size bm limit = .ok (bm, []) := by
  obtain ⟨l, m, rfl⟩ := exists_last hb
  have hm := hm m (by simp)
  unfold cutLeft64
  rw [if_pos h, maximum_concat, Nat.mod_eq_of_lt (by omega), fromRange_all hs hm]

theorem cutLeft32_fits (size : List Nat → Nat) (limit : Nat) {bm : List Nat} (hb : bm ≠ []) (hs : bm.Pairwise (· < ·))
    (hm : ∀ x ∈ bm, x < 2 ^ 32 - 1) (h : size bm ≤ limit) : cutLeft32 size bm limit = .ok (bm, []) := by
  obtain ⟨l, m, rfl⟩ := exists_last hb
  have hm := hm m (by simp)
  unfold cutLeft32
  rw [if_pos h, maximum_concat, Nat.mod_eq_of_lt (by omega), fromRange_all hs (by omega)]

end Silkworm.Db.Bitmap

namespace Silkworm.Stages

open Silkworm.Db Silkworm.Spec Silkworm.Etl

theorem lt_or_eq_of_le {a b : Bytes} (h : a ≤ b) : a < b ∨ a = b := by
  by_cases hlt : a < b
  · exact .inl hlt
  · exact .inr (List.le_antisymm h (List.not_lt.mp hlt))

theorem mem_upsert {t : Table} {k v : Bytes} {e : Bytes × Bytes} (h : e ∈ t.upsert k v) : e = (k, v) ∨ e ∈ t := by
  induction t with
  | nil => exact .inl (List.mem_singleton.mp h)
  | cons f t ih =>
    obtain ⟨k', v'⟩ := f
    unfold Table.upsert at h
    split at h
    · rcases List.mem_cons.mp h with h | h
      · exact .inl h
      · exact .inr (List.mem_cons_of_mem _ h)
    · split at h
      · rcases List.mem_cons.mp h with h | h
        · exact .inl h
        · exact .inr h
      · rcases List.mem_cons.mp h with h | h
        · exact .inr (h ▸ List.mem_cons_self)
        · rcases ih h with h | h
          · exact .inl h
          · exact .inr (List.mem_cons_of_mem _ h)

theorem ordered_upsert {t : Table} (h : Spec.Ordered t) (k v : Bytes) : Spec.Ordered (t.upsert k v) := by
  induction t with
  | nil => exact List.pairwise_singleton _ _
  | cons f t ih =>
    obtain ⟨k', v'⟩ := f
    obtain ⟨h1, h2⟩ := List.pairwise_cons.mp h
    unfold Table.upsert
    split
    · rename_i hk
      subst hk
      exact List.pairwise_cons.mpr ⟨h1, h2⟩
    · split
      · rename_i _ hlt
        have hlt := (lexLt_iff _ _).mp hlt
        refine List.pairwise_cons.mpr ⟨fun e he => ?_, h⟩
        rcases List.mem_cons.mp he with rfl | he
        · exact hlt
        · exact List.lt_trans hlt (h1 e he)
      · rename_i hne hlt
        refine List.pairwise_cons.mpr ⟨fun e he => ?_, ih h2⟩
        rcases mem_upsert he with rfl | he
        · have hle : k' ≤ k := by
            rw [← List.not_lt]
            exact fun hh => hlt ((lexLt_iff _ _).mpr hh)
          rcases lt_or_eq_of_le hle with hh | hh
          · exact hh
          · exact absurd hh hne
        · exact h1 e he

theorem endsLargest_of_ordered {t : Table} (h : Spec.Ordered t) : EndsLargest t := by
  intro l hl e he
  obtain ⟨u, hu⟩ := List.getLast?_eq_some_iff.mp hl
  rw [hu] at he h
  rcases List.mem_append.mp he with he | he
  · exact List.le_of_lt ((List.pairwise_append.mp h).2.2 e he l (List.mem_singleton.mpr rfl))
  · rw [List.mem_singleton.mp he]; exact List.le_refl _

/-- The key of the last chunk. -/
def lastKey (w : Nat) (k : Bytes) : Bytes := k ++ beFixed w (256 ^ w - 1)

/-- What the last chunk of a key lists. -/
def bitsAt (R : Roaring) (w : Nat) (t : Table) (k : Bytes) : List Nat :=
  match t.find (lastKey w k) with
  | none => []
  | some p => (R.read p.2).getD []

/-- The last chunk of a key, if there is one, is a bitmap of numbers that `B` allows. -/
def ChunkOk (R : Roaring) (w : Nat) (B : Bytes → Nat → Prop) (t : Table) (k : Bytes) : Prop :=
  ∀ p, t.find (lastKey w k) = some p → ∃ bm, R.read p.2 = some bm ∧ bm.Pairwise (· < ·) ∧ ∀ x ∈ bm, B k x

/-- An entry holds a bitmap of numbers that `B` allows. -/
def EntryOk (R : Roaring) (B : Bytes → Nat → Prop) (e : Entry) : Prop :=
  ∃ bm, R.read e.value = some bm ∧ bm ≠ [] ∧ bm.Pairwise (· < ·) ∧ ∀ x ∈ bm, B e.key x

theorem lastKey_inj {w : Nat} {j k : Bytes} (hl : j.length = k.length) (h : lastKey w j = lastKey w k) : j = k :=
  (List.append_inj h hl).1

theorem lastKey_le {w : Nat} {j k : Bytes} (hl : j.length = k.length) (h : j ≤ k) : lastKey w j ≤ lastKey w k := by
  rw [← List.not_lt] at h ⊢
  intro hlt
  have := (Db.lexLt_append hl.symm (beFixed w (256 ^ w - 1)) (beFixed w (256 ^ w - 1))).mp ((lexLt_iff _ _).mpr hlt)
  rcases this with h1 | ⟨_, h1⟩
  · exact h ((lexLt_iff _ _).mp h1)
  · exact List.lt_irrefl _ ((lexLt_iff _ _).mp h1)

section Loading
variable (w K : Nat) (cut : (List Nat → Nat) → List Nat → Nat → Outcome Empty (List Nat × List Nat)) (R : Roaring)
  (B : Bytes → Nat → Prop)
  (hread : ∀ bm : List Nat, bm.Pairwise (· < ·) → R.read (R.write bm) = some bm)
  (hcut : ∀ k bm, k.length = K → bm ≠ [] → bm.Pairwise (· < ·) → (∀ x ∈ bm, B k x) → cutChunks cut R bm = .ok [bm])
include hread hcut

/-- Loading one entry. -/
theorem loadChunks_step (append : Bool) (t : Table) (e : Entry) (he : EntryOk R B e) (hK : e.key.length = K)
    (hc : ∀ k, k.length = K → ChunkOk R w B t k)
    (ha : append = true → Spec.Ordered t ∧ ∀ x ∈ t, x.1 ≤ lastKey w e.key) :
    ∃ t' bm, loadChunks w cut R append t e = .ok t' ∧ bm.Pairwise (· < ·) ∧ (∀ x ∈ bm, B e.key x) ∧
      (∀ x, x ∈ bm ↔ x ∈ bitsAt R w t e.key ∨ x ∈ (R.read e.value).getD []) ∧
      t'.find (lastKey w e.key) = some (lastKey w e.key, R.write bm) ∧
      (∀ j, j ≠ lastKey w e.key → t'.find j = t.find j) ∧
      (∀ x ∈ t', x.1 = lastKey w e.key ∨ x ∈ t) ∧ (append = true → Spec.Ordered t') := by
  obtain ⟨bm, h1, h2, h3, h4⟩ := he
  unfold loadChunks
  rw [h1]
  dsimp only
  rw [show e.key ++ beFixed w (256 ^ w - 1) = lastKey w e.key from rfl]
  cases hf : t.find (lastKey w e.key) with
  | none =>
    dsimp only
    rw [hcut e.key bm hK h2 h3 h4, Outcome.ok_bind]
    refine ⟨_, bm, rfl, h3, h4, fun x => ?_, ?_⟩
    · unfold bitsAt
      rw [hf, Option.getD_some]
      simp
    · show (put append t (lastKey w e.key) (R.write bm)).find _ = _ ∧ _
      cases append with
      | false =>
        refine ⟨Table.find_upsert_same .., fun j hj => Table.find_upsert_other _ _ hj, fun x hx => ?_, fun h => by cases h⟩
        rcases mem_upsert hx with rfl | hx
        · exact .inl rfl
        · exact .inr hx
      | true =>
        obtain ⟨ho, hle⟩ := ha rfl
        have hlt : ∀ x ∈ t, x.1 < lastKey w e.key := by
          intro x hx
          rcases lt_or_eq_of_le (hle x hx) with h | h
          · exact h
          · have := List.find?_eq_none.mp hf x hx
            simp [h] at this
        have hp : put true t (lastKey w e.key) (R.write bm) = t ++ [(lastKey w e.key, R.write bm)] := by
          unfold put
          rw [if_pos rfl]
          exact (putAppend_spec t (endsLargest_of_ordered ho) _ _).2.1 hlt
        show (put true t (lastKey w e.key) (R.write bm)).find _ = _ ∧ (∀ j, _ → (put true t (lastKey w e.key) (R.write bm)).find j = _) ∧
          (∀ x ∈ put true t (lastKey w e.key) (R.write bm), _) ∧ (_ → Spec.Ordered (put true t (lastKey w e.key) (R.write bm)))
        rw [hp]
        refine ⟨?_, fun j hj => ?_, fun x hx => ?_, fun _ => ?_⟩
        · unfold Table.find at hf ⊢
          rw [List.find?_append, hf]
          simp
        · unfold Table.find
          rw [List.find?_append]
          have : List.find? (fun e => e.1 == j) [(lastKey w e.key, R.write bm)] = none := by
            simp [Ne.symm hj]
          rw [this, Option.or_none]
        · rcases List.mem_append.mp hx with hx | hx
          · exact .inr hx
          · rw [List.mem_singleton.mp hx]; exact .inl rfl
        · refine List.pairwise_append.mpr ⟨ho, List.pairwise_singleton _ _, fun x hx y hy => ?_⟩
          rw [List.mem_singleton.mp hy]
          exact hlt x hx
  | some p =>
    obtain ⟨q, q1, q2, q3⟩ := hc e.key hK p hf
    dsimp only
    rw [q1]
    dsimp only
    have hne : Bitmap.union q bm ≠ [] := by
      obtain ⟨y, l, hy⟩ := List.exists_cons_of_ne_nil h2
      exact List.ne_nil_of_mem ((Bitmap.mem_union q bm y).mpr (.inr (by rw [hy]; exact List.mem_cons_self)))
    have hB : ∀ x ∈ Bitmap.union q bm, B e.key x := by
      intro x hx
      rcases (Bitmap.mem_union q bm x).mp hx with hx | hx
      · exact q3 x hx
      · exact h4 x hx
    rw [hcut e.key _ hK hne (Bitmap.sorted_union q bm h3) hB, Outcome.ok_bind]
    refine ⟨_, Bitmap.union q bm, rfl, Bitmap.sorted_union q bm h3, hB, fun x => ?_, ?_⟩
    · unfold bitsAt
      rw [hf, Bitmap.mem_union]
      simp [q1]
    · show (Table.upsert t (lastKey w e.key) (R.write (Bitmap.union q bm))).find _ = _ ∧ _
      refine ⟨Table.find_upsert_same .., fun j hj => Table.find_upsert_other _ _ hj, fun x hx => ?_,
        fun h => ordered_upsert (ha h).1 _ _⟩
      rcases mem_upsert hx with rfl | hx
      · exact .inl rfl
      · exact .inr hx

/-- Loading entries in order. -/
theorem loadChunks_fold (append : Bool) (L : List Entry) (ho : Etl.Ordered L) (t : Table)
    (he : ∀ e ∈ L, EntryOk R B e ∧ e.key.length = K) (hc : ∀ k, k.length = K → ChunkOk R w B t k)
    (ha : append = true → Spec.Ordered t ∧ ∀ x ∈ t, ∀ e ∈ L, x.1 ≤ lastKey w e.key) :
    ∃ t', L.foldlM (loadChunks w cut R append) t = .ok t' ∧ (∀ k, k.length = K → ChunkOk R w B t' k) ∧
      (∀ k x, k.length = K → (x ∈ bitsAt R w t' k ↔
        x ∈ bitsAt R w t k ∨ ∃ e ∈ L, e.key = k ∧ x ∈ (R.read e.value).getD [])) ∧
      (∀ j, (∀ e ∈ L, j ≠ lastKey w e.key) → t'.find j = t.find j) ∧ (append = true → Spec.Ordered t') := by
  induction L generalizing t with
  | nil => exact ⟨t, rfl, hc, fun k x _ => by simp, fun _ _ => rfl, fun h => (ha h).1⟩
  | cons e L ih =>
    obtain ⟨he1, he2⟩ := he e List.mem_cons_self
    obtain ⟨o1, o2⟩ := List.pairwise_cons.mp ho
    obtain ⟨t1, bm, s1, s2, s3, s4, s5, s6, s7, s8⟩ := loadChunks_step w K cut R B hread hcut append t e he1 he2 hc
      fun h => ⟨(ha h).1, fun x hx => (ha h).2 x hx e List.mem_cons_self⟩
    have hbit : ∀ k x, k.length = K → (x ∈ bitsAt R w t1 k ↔ x ∈ bitsAt R w t k ∨ e.key = k ∧ x ∈ (R.read e.value).getD []) := by
      intro k x hk
      by_cases hek : e.key = k
      · subst hek
        have hb1 : bitsAt R w t1 e.key = bm := by
          unfold bitsAt
          rw [s5]
          dsimp only
          rw [hread bm s2]
          rfl
        rw [hb1, s4]
        simp
      · have : bitsAt R w t1 k = bitsAt R w t k := by
          unfold bitsAt
          rw [s6 _ fun h => hek (lastKey_inj (by omega) h).symm]
        rw [this]
        simp [hek]
    obtain ⟨t', r1, r2, r3, r4, r5⟩ := ih o2 t1 (fun f hf => he f (List.mem_cons_of_mem _ hf))
      (fun k hk p hp => by
        by_cases hek : e.key = k
        · subst hek
          rw [s5] at hp
          rw [← Option.some.inj hp]
          exact ⟨bm, hread bm s2, s2, s3⟩
        · rw [s6 _ fun h => hek (lastKey_inj (by omega) h).symm] at hp
          exact hc k hk p hp)
      (fun h => ⟨s8 h, fun x hx f hf => by
        rcases s7 x hx with hx | hx
        · rw [hx]
          have hle : e.key ≤ f.key := by
            rcases o1 f hf with h | h
            · exact List.le_of_lt h
            · have h1 : e.key = f.key := h.1
              rw [h1]; exact List.le_refl _
          exact lastKey_le (by rw [he2, (he f (List.mem_cons_of_mem _ hf)).2]) hle
        · exact (ha h).2 x hx f (List.mem_cons_of_mem _ hf)⟩)
    refine ⟨t', ?_, r2, fun k x hk => ?_, fun j hj => ?_, r5⟩
    · rw [List.foldlM_cons, s1, Outcome.ok_bind]
      exact r1
    · rw [r3 k x hk, hbit k x hk]
      constructor
      · rintro ((h | h) | ⟨f, hf, h⟩)
        · exact .inl h
        · exact .inr ⟨e, List.mem_cons_self, h⟩
        · exact .inr ⟨f, List.mem_cons_of_mem _ hf, h⟩
      · rintro (h | ⟨f, hf, h⟩)
        · exact .inl (.inl h)
        · rcases List.mem_cons.mp hf with rfl | hf
          · exact .inl (.inr h)
          · exact .inr ⟨f, hf, h⟩
    · rw [r4 j fun f hf => hj f (List.mem_cons_of_mem _ hf), s6 j (hj e List.mem_cons_self)]

/-- Collecting and loading entries. -/
theorem loadChunks_etl (d : Disk) (flush : Nat) (append : Bool) (es : List Entry) (t : Table)
    (he : ∀ e ∈ es, EntryOk R B e ∧ e.key.length = K ∧ e.value.length < 2 ^ 32) (h0 : 0 < K) (h32 : K < 2 ^ 32)
    (hc : ∀ k, k.length = K → ChunkOk R w B t k) (ha : append = true → t = []) (t' : Table)
    (h : etlLoad d flush es (loadChunks w cut R append) t = .ok t') :
    (∀ k, k.length = K → ChunkOk R w B t' k) ∧
      (∀ k x, k.length = K → (x ∈ bitsAt R w t' k ↔
        x ∈ bitsAt R w t k ∨ ∃ e ∈ es, e.key = k ∧ x ∈ (R.read e.value).getD [])) ∧
      ∀ j, (∀ e ∈ es, j ≠ lastKey w e.key) → t'.find j = t.find j := by
  rcases etlLoad_cases d flush es (loadChunks w cut R append) t
    (fun e hm => ⟨by show e.key.length < _; rw [(he e hm).2.1]; exact h32, (he e hm).2.2⟩)
    (fun e hm => by unfold Entry.size; rw [(he e hm).2.1]; omega) with hbad | ⟨L, hperm, hord, hload⟩
  · rw [hbad] at h; cases h
  · obtain ⟨t2, r1, r2, r3, r4, _⟩ := loadChunks_fold w K cut R B hread hcut append L hord t
      (fun e hm => ⟨(he e (hperm.mem_iff.mp hm)).1, (he e (hperm.mem_iff.mp hm)).2.1⟩) hc
      (fun hh => by rw [ha hh]; exact ⟨List.Pairwise.nil, fun x hx => by cases hx⟩)
    rw [hload, r1] at h
    have h := Outcome.ok.inj h
    subst h
    refine ⟨r2, fun k x hk => ?_, fun j hj => r4 j fun e hm => hj e (hperm.mem_iff.mp hm)⟩
    rw [r3 k x hk]
    constructor
    · rintro (h | ⟨e, hm, h⟩)
      · exact .inl h
      · exact .inr ⟨e, hperm.mem_iff.mp hm, h⟩
    · rintro (h | ⟨e, hm, h⟩)
      · exact .inl h
      · exact .inr ⟨e, hperm.mem_iff.mpr hm, h⟩

end Loading

/-! ## What is collected -/

/-- The numbers that a map holds for a key. -/
def Held (m : List (Bytes × List Nat)) (k : Bytes) (x : Nat) : Prop := ∃ bm, (k, bm) ∈ m ∧ x ∈ bm

/-- A map of bitmaps. -/
structure MapOk (m : AMap Bytes (List Nat)) : Prop where
  wf : AMap.WF m
  bitmaps : ∀ e ∈ m, e.2 ≠ [] ∧ e.2.Pairwise (· < ·)

theorem mapOk_nil : MapOk [] := ⟨AMap.WF_nil, fun e he => by cases he⟩

/-- Adding a number to the bitmap of a key. -/
theorem mapOk_add {m : AMap Bytes (List Nat)} (hm : MapOk m) (k : Bytes) (n : Nat) :
    MapOk (m.set k (Bitmap.add n ((m.get? k).getD []))) ∧
    ∀ j x, Held (m.set k (Bitmap.add n ((m.get? k).getD []))) j x ↔ Held m j x ∨ (j = k ∧ x = n) := by
  have hs : ((m.get? k).getD []).Pairwise (· < ·) := by
    cases h : m.get? k with
    | none => exact List.Pairwise.nil
    | some bm => exact (hm.bitmaps _ (AMap.mem_of_get? h)).2
  have hwf := AMap.WF_set hm.wf k (Bitmap.add n ((m.get? k).getD []))
  constructor
  · refine ⟨hwf, fun e he => ?_⟩
    rcases List.mem_cons.mp he with rfl | he
    · exact ⟨List.ne_nil_of_mem ((Bitmap.mem_add n n _).mpr (.inl rfl)), Bitmap.sorted_add _ _ hs⟩
    · exact hm.bitmaps e (List.mem_filter.mp he).1
  · intro j x
    unfold Held
    constructor
    · rintro ⟨bm, hb, hx⟩
      have hg := AMap.get?_of_mem hwf hb
      rw [AMap.get?_set] at hg
      by_cases hj : j = k
      · rw [if_pos hj] at hg
        have hg := Option.some.inj hg
        rw [← hg, Bitmap.mem_add] at hx
        rcases hx with hx | hx
        · exact .inr ⟨hj, hx⟩
        · cases h : m.get? k with
          | none => rw [h] at hx; cases hx
          | some bm' =>
            rw [h] at hx
            exact .inl ⟨bm', hj ▸ AMap.mem_of_get? h, hx⟩
      · rw [if_neg hj] at hg
        exact .inl ⟨bm, AMap.mem_of_get? hg, hx⟩
    · rintro (⟨bm, hb, hx⟩ | ⟨rfl, rfl⟩)
      · by_cases hj : j = k
        · subst hj
          refine ⟨_, List.mem_cons_self, ?_⟩
          rw [Bitmap.mem_add, AMap.get?_of_mem hm.wf hb]
          exact .inr hx
        · have hg := AMap.get?_of_mem hm.wf hb
          rw [← AMap.get?_set_ne m hj (Bitmap.add n ((m.get? k).getD []))] at hg
          exact ⟨bm, AMap.mem_of_get? hg, hx⟩
      · exact ⟨_, List.mem_cons_self, (Bitmap.mem_add _ _ _).mpr (.inl rfl)⟩

theorem historyMaps_spec (key : Bytes × Bytes → Outcome StageError Bytes) (kf : Bytes × Bytes → Bytes) (t : Table)
    (hk : ∀ e ∈ t, key e = .ok (kf e) ∧ 8 ≤ e.1.length) (m : AMap Bytes (List Nat)) (hm : MapOk m) (allocated n : Nat) :
    ∃ ms l, historyMaps key t m allocated n = .ok (ms, l) ∧ (∀ m' ∈ ms, MapOk m') ∧
      (∀ k x, (∃ m' ∈ ms, Held m' k x) ↔ Held m k x ∨ ∃ e ∈ t, kf e = k ∧ recordBlock e = x) ∧
      l = (t.getLast?.map recordBlock).getD n := by
  induction t generalizing m allocated n with
  | nil => exact ⟨[m], n, rfl, fun m' h => List.mem_singleton.mp h ▸ hm, fun k x => by simp, rfl⟩
  | cons e t ih =>
    obtain ⟨h1, h2⟩ := hk e List.mem_cons_self
    have hload : loadBig64 e.1 = .ok (recordBlock e) := by
      unfold loadBig64
      rw [if_pos h2]
      rfl
    obtain ⟨a1, a2⟩ := mapOk_add hm (kf e) (recordBlock e)
    have hlast : ∀ n, ((e :: t).getLast?.map recordBlock).getD n = (t.getLast?.map recordBlock).getD (recordBlock e) := by
      intro n
      cases t with
      | nil => rfl
      | cons f t => rw [List.getLast?_cons_cons]; cases h : (f :: t).getLast? with
        | none => simp at h
        | some y => rfl
    unfold historyMaps
    simp only [h1, hload, Outcome.ok_bind]
    split
    · obtain ⟨ms, l, r1, r2, r3, r4⟩ := ih (fun f hf => hk f (List.mem_cons_of_mem _ hf)) [] mapOk_nil 0 (recordBlock e)
      rw [r1]
      refine ⟨_ :: ms, l, rfl, fun m' h => ?_, fun k x => ?_, by rw [r4, hlast]⟩
      · rcases List.mem_cons.mp h with rfl | h
        · exact a1
        · exact r2 m' h
      · constructor
        · rintro ⟨m', h, hx⟩
          rcases List.mem_cons.mp h with rfl | h
          · rcases (a2 k x).mp hx with hx | ⟨rfl, rfl⟩
            · exact .inl hx
            · exact .inr ⟨e, List.mem_cons_self, rfl, rfl⟩
          · rcases (r3 k x).mp ⟨m', h, hx⟩ with ⟨_, hh, _⟩ | ⟨f, hf, hx⟩
            · cases hh
            · exact .inr ⟨f, List.mem_cons_of_mem _ hf, hx⟩
        · rintro (hx | ⟨f, hf, rfl, rfl⟩)
          · exact ⟨_, List.mem_cons_self, (a2 k x).mpr (.inl hx)⟩
          · rcases List.mem_cons.mp hf with rfl | hf
            · exact ⟨_, List.mem_cons_self, (a2 _ _).mpr (.inr ⟨rfl, rfl⟩)⟩
            · obtain ⟨m', h, hx⟩ := (r3 (kf f) (recordBlock f)).mpr (.inr ⟨f, hf, rfl, rfl⟩)
              exact ⟨m', List.mem_cons_of_mem _ h, hx⟩
    · obtain ⟨ms, l, r1, r2, r3, r4⟩ := ih (fun f hf => hk f (List.mem_cons_of_mem _ hf)) _ a1 (allocated + 8) (recordBlock e)
      refine ⟨ms, l, r1, r2, fun k x => ?_, by rw [r4, hlast]⟩
      rw [r3, a2]
      constructor
      · rintro ((hx | ⟨rfl, rfl⟩) | ⟨f, hf, hx⟩)
        · exact .inl hx
        · exact .inr ⟨e, List.mem_cons_self, rfl, rfl⟩
        · exact .inr ⟨f, List.mem_cons_of_mem _ hf, hx⟩
      · rintro (hx | ⟨f, hf, rfl, rfl⟩)
        · exact .inl (.inl hx)
        · rcases List.mem_cons.mp hf with rfl | hf
          · exact .inl (.inr ⟨rfl, rfl⟩)
          · exact .inr ⟨f, hf, rfl, rfl⟩

/-- The entries of flushed maps. -/
theorem flush_spec (R : Roaring) (order : MapOrder) (horder : ∀ m, (order m).Perm m) (m : AMap Bytes (List Nat)) (e : Entry) :
    e ∈ flushBitmaps R order m ↔ ∃ bm, (e.key, bm) ∈ m ∧ e.value = R.write bm := by
  unfold flushBitmaps
  rw [List.mem_map]
  constructor
  · rintro ⟨x, hx, rfl⟩
    exact ⟨x.2, (horder m).mem_iff.mp hx, rfl⟩
  · rintro ⟨bm, hb, hv⟩
    refine ⟨(e.key, bm), (horder m).mem_iff.mpr hb, ?_⟩
    cases e
    simp only at hv ⊢
    rw [hv]

/-- An entry holds a bitmap. -/
def Written (R : Roaring) (e : Entry) : Prop := ∃ bm, bm ≠ [] ∧ bm.Pairwise (· < ·) ∧ e.value = R.write bm

/-- Entries hold a number for a key. -/
def Collected (R : Roaring) (es : List Entry) (k : Bytes) (x : Nat) : Prop :=
  ∃ e ∈ es, e.key = k ∧ ∃ bm, bm.Pairwise (· < ·) ∧ e.value = R.write bm ∧ x ∈ bm

theorem collected_append (R : Roaring) (a b : List Entry) (k : Bytes) (x : Nat) :
    Collected R (a ++ b) k x ↔ Collected R a k x ∨ Collected R b k x := by
  unfold Collected
  simp only [List.mem_append]
  constructor
  · rintro ⟨e, h | h, r⟩
    · exact .inl ⟨e, h, r⟩
    · exact .inr ⟨e, h, r⟩
  · rintro (⟨e, h, r⟩ | ⟨e, h, r⟩)
    · exact ⟨e, .inl h, r⟩
    · exact ⟨e, .inr h, r⟩

theorem collected_nil (R : Roaring) (k : Bytes) (x : Nat) : ¬ Collected R [] k x := by
  rintro ⟨e, h, _⟩
  cases h

theorem flush_written (R : Roaring) (order : MapOrder) (horder : ∀ m, (order m).Perm m) {m : AMap Bytes (List Nat)} (hm : MapOk m) :
    ∀ e ∈ flushBitmaps R order m, Written R e := by
  intro e he
  obtain ⟨bm, h1, h2⟩ := (flush_spec R order horder m e).mp he
  exact ⟨bm, (hm.bitmaps _ h1).1, (hm.bitmaps _ h1).2, h2⟩

/-- What is flushed is what the map holds, since different bitmaps are written differently. -/
theorem flush_collected (R : Roaring) (hread : ∀ bm : List Nat, bm.Pairwise (· < ·) → R.read (R.write bm) = some bm)
    (order : MapOrder) (horder : ∀ m, (order m).Perm m) {m : AMap Bytes (List Nat)} (hm : MapOk m) (k : Bytes) (x : Nat) :
    Collected R (flushBitmaps R order m) k x ↔ Held m k x := by
  constructor
  · rintro ⟨e, he, rfl, bm, h1, h2, h3⟩
    obtain ⟨bm', g1, g2⟩ := (flush_spec R order horder m e).mp he
    have h4 := hread bm h1
    have h5 := hread bm' (hm.bitmaps _ g1).2
    rw [← h2, g2, h5] at h4
    rw [← Option.some.inj h4] at h3
    exact ⟨bm', g1, h3⟩
  · rintro ⟨bm, h1, h2⟩
    exact ⟨⟨k, R.write bm⟩, (flush_spec R order horder m _).mpr ⟨bm, h1, rfl⟩, rfl, bm, (hm.bitmaps _ h1).2, rfl, h2⟩

/-- The bytes of written entries. -/
theorem collected_read (R : Roaring) (hread : ∀ bm : List Nat, bm.Pairwise (· < ·) → R.read (R.write bm) = some bm)
    {es : List Entry} (h : ∀ e ∈ es, Written R e) (k : Bytes) (x : Nat) :
    (∃ e ∈ es, e.key = k ∧ x ∈ (R.read e.value).getD []) ↔ Collected R es k x := by
  constructor
  · rintro ⟨e, he, hk, hx⟩
    obtain ⟨bm, _, h2, h3⟩ := h e he
    rw [h3, hread bm h2] at hx
    exact ⟨e, he, hk, bm, h2, h3, hx⟩
  · rintro ⟨e, he, hk, bm, h2, h3, hx⟩
    refine ⟨e, he, hk, ?_⟩
    rw [h3, hread bm h2]
    exact hx

/-- The listener over the strings of one value. -/
theorem onBytes_fold (n : Nat) (l : List Bytes) (m : LogMaps) (ht : MapOk m.topics) (ha : MapOk m.addresses) :
    MapOk (l.foldl (LogMaps.onBytes n) m).topics ∧ MapOk (l.foldl (LogMaps.onBytes n) m).addresses ∧
    (∀ k x, Held (l.foldl (LogMaps.onBytes n) m).topics k x ↔
      Held m.topics k x ∨ (k ∈ l ∧ k.length = 32 ∧ x = n % 2 ^ 32)) ∧
    ∀ k x, Held (l.foldl (LogMaps.onBytes n) m).addresses k x ↔
      Held m.addresses k x ∨ (k ∈ l ∧ k.length = 20 ∧ x = n % 2 ^ 32) := by
  induction l generalizing m with
  | nil => exact ⟨ht, ha, fun k x => by simp, fun k x => by simp⟩
  | cons b l ih =>
    rw [List.foldl_cons]
    have step : MapOk (m.onBytes n b).topics ∧ MapOk (m.onBytes n b).addresses ∧
        (∀ k x, Held (m.onBytes n b).topics k x ↔ Held m.topics k x ∨ (k = b ∧ k.length = 32 ∧ x = n % 2 ^ 32)) ∧
        ∀ k x, Held (m.onBytes n b).addresses k x ↔ Held m.addresses k x ∨ (k = b ∧ k.length = 20 ∧ x = n % 2 ^ 32) := by
      unfold LogMaps.onBytes
      by_cases h32 : b.length = 32
      · rw [if_pos h32]
        obtain ⟨a1, a2⟩ := mapOk_add ht b (n % 2 ^ 32)
        refine ⟨a1, ha, fun k x => ?_, fun k x => ?_⟩
        · rw [a2]
          constructor
          · rintro (h | ⟨rfl, h⟩)
            · exact .inl h
            · exact .inr ⟨rfl, h32, h⟩
          · rintro (h | ⟨rfl, _, h⟩)
            · exact .inl h
            · exact .inr ⟨rfl, h⟩
        · constructor
          · exact .inl
          · rintro (h | ⟨rfl, h, _⟩)
            · exact h
            · omega
      · rw [if_neg h32]
        by_cases h20 : b.length = 20
        · rw [if_pos h20]
          obtain ⟨a1, a2⟩ := mapOk_add ha b (n % 2 ^ 32)
          refine ⟨ht, a1, fun k x => ?_, fun k x => ?_⟩
          · constructor
            · exact .inl
            · rintro (h | ⟨rfl, h, _⟩)
              · exact h
              · omega
          · rw [a2]
            constructor
            · rintro (h | ⟨rfl, h⟩)
              · exact .inl h
              · exact .inr ⟨rfl, h20, h⟩
            · rintro (h | ⟨rfl, _, h⟩)
              · exact .inl h
              · exact .inr ⟨rfl, h⟩
        · rw [if_neg h20]
          refine ⟨ht, ha, fun k x => ⟨.inl, ?_⟩, fun k x => ⟨.inl, ?_⟩⟩
          · rintro (h | ⟨rfl, h, _⟩)
            · exact h
            · exact absurd h h32
          · rintro (h | ⟨rfl, h, _⟩)
            · exact h
            · exact absurd h h20
    obtain ⟨s1, s2, s3, s4⟩ := step
    obtain ⟨r1, r2, r3, r4⟩ := ih _ s1 s2
    refine ⟨r1, r2, fun k x => ?_, fun k x => ?_⟩
    · rw [r3, s3, List.mem_cons]
      constructor
      · rintro ((h | ⟨h, g⟩) | ⟨h, g⟩)
        · exact .inl h
        · exact .inr ⟨.inl h, g⟩
        · exact .inr ⟨.inr h, g⟩
      · rintro (h | ⟨h | h, g⟩)
        · exact .inl (.inl h)
        · exact .inl (.inr ⟨h, g⟩)
        · exact .inr ⟨h, g⟩
    · rw [r4, s4, List.mem_cons]
      constructor
      · rintro ((h | ⟨h, g⟩) | ⟨h, g⟩)
        · exact .inl h
        · exact .inr ⟨.inl h, g⟩
        · exact .inr ⟨.inr h, g⟩
      · rintro (h | ⟨h | h, g⟩)
        · exact .inl (.inl h)
        · exact .inl (.inr ⟨h, g⟩)
        · exact .inr ⟨h, g⟩

/-- A block and one of the strings of its logs. -/
def Mentions (strings : Bytes → List Bytes) (t : Table) (len : Nat) (k : Bytes) (x : Nat) : Prop :=
  ∃ e ∈ t, k ∈ strings e.2 ∧ k.length = len ∧ x = recordBlock e % 2 ^ 32

theorem mentions_cons (strings : Bytes → List Bytes) (e : Bytes × Bytes) (t : Table) (len : Nat) (k : Bytes) (x : Nat) :
    Mentions strings (e :: t) len k x ↔
      (k ∈ strings e.2 ∧ k.length = len ∧ x = recordBlock e % 2 ^ 32) ∨ Mentions strings t len k x := by
  unfold Mentions
  simp only [List.mem_cons]
  constructor
  · rintro ⟨f, rfl | h, r⟩
    · exact .inl r
    · exact .inr ⟨f, h, r⟩
  · rintro (r | ⟨f, h, r⟩)
    · exact ⟨e, .inl rfl, r⟩
    · exact ⟨f, .inr h, r⟩

theorem logEntries_spec (R : Roaring) (hread : ∀ bm : List Nat, bm.Pairwise (· < ·) → R.read (R.write bm) = some bm)
    (order : MapOrder) (horder : ∀ m, (order m).Perm m) (strings : Bytes → List Bytes) (t : Table)
    (h8 : ∀ e ∈ t, 8 ≤ e.1.length) (m : LogMaps) (ht : MapOk m.topics) (ha : MapOk m.addresses) (n : Nat) :
    ∃ as bs m' l, logEntries R order strings t m n = .ok (as, bs, m', l) ∧
      (∀ e ∈ as ++ flushBitmaps R order m'.topics, Written R e) ∧
      (∀ e ∈ bs ++ flushBitmaps R order m'.addresses, Written R e) ∧
      (∀ k x, Collected R (as ++ flushBitmaps R order m'.topics) k x ↔ Held m.topics k x ∨ Mentions strings t 32 k x) ∧
      (∀ k x, Collected R (bs ++ flushBitmaps R order m'.addresses) k x ↔ Held m.addresses k x ∨ Mentions strings t 20 k x) ∧
      l = (t.getLast?.map recordBlock).getD n := by
  induction t generalizing m n with
  | nil =>
    refine ⟨[], [], m, n, rfl, flush_written R order horder ht, flush_written R order horder ha, fun k x => ?_, fun k x => ?_,
      rfl⟩
    · rw [List.nil_append, flush_collected R hread order horder ht]
      unfold Mentions
      simp
    · rw [List.nil_append, flush_collected R hread order horder ha]
      unfold Mentions
      simp
  | cons e t ih =>
    have hload : loadBig64 e.1 = .ok (recordBlock e) := by
      unfold loadBig64
      rw [if_pos (h8 e List.mem_cons_self)]
      rfl
    have hlast : ∀ n, ((e :: t).getLast?.map recordBlock).getD n = (t.getLast?.map recordBlock).getD (recordBlock e) := by
      intro n
      cases t with
      | nil => rfl
      | cons f t => rw [List.getLast?_cons_cons]; cases h : (f :: t).getLast? with
        | none => simp at h
        | some y => rfl
    obtain ⟨o1, o2, o3, o4⟩ := onBytes_fold (recordBlock e) (strings e.2) m ht ha
    unfold logEntries
    simp only [hload, Outcome.ok_bind]
    generalize (strings e.2).foldl (LogMaps.onBytes (recordBlock e)) m = q at o1 o2 o3 o4
    -- what is flushed now and what stays
    have htop : ∃ (a : List Entry) (q' : AMap Bytes (List Nat)) (s : Nat),
        (if kLogBufferSizeLimit < q.topicSpace then flushBitmaps R order q.topics else []) = a ∧
        (if kLogBufferSizeLimit < q.topicSpace then { q with topics := [], topicSpace := 0 } else q) =
          { q with topics := q', topicSpace := s } ∧ MapOk q' ∧ (∀ e ∈ a, Written R e) ∧
        ∀ k x, Held q.topics k x ↔ Collected R a k x ∨ Held q' k x := by
      by_cases hc : kLogBufferSizeLimit < q.topicSpace
      · refine ⟨_, [], 0, rfl, by rw [if_pos hc], mapOk_nil, ?_, fun k x => ?_⟩
        · rw [if_pos hc]; exact flush_written R order horder o1
        · rw [if_pos hc, flush_collected R hread order horder o1]
          constructor
          · exact .inl
          · rintro (h | ⟨_, h, _⟩)
            · exact h
            · cases h
      · refine ⟨_, q.topics, q.topicSpace, rfl, by rw [if_neg hc], o1, ?_, fun k x => ?_⟩
        · rw [if_neg hc]; intro e he; cases he
        · rw [if_neg hc]
          constructor
          · exact .inr
          · rintro (h | h)
            · exact absurd h (collected_nil R k x)
            · exact h
    obtain ⟨a, q', s, t1, t2, t3, t4, t5⟩ := htop
    rw [t1, t2]
    have hadd : ∃ (b : List Entry) (q'' : AMap Bytes (List Nat)) (s' : Nat),
        (if kLogBufferSizeLimit < q.addressSpace then flushBitmaps R order q.addresses else []) = b ∧
        (if kLogBufferSizeLimit < q.addressSpace then
          ({ q with topics := q', topicSpace := s, addresses := [], addressSpace := 0 } : LogMaps)
          else { q with topics := q', topicSpace := s }) =
          { q with topics := q', topicSpace := s, addresses := q'', addressSpace := s' } ∧ MapOk q'' ∧
        (∀ e ∈ b, Written R e) ∧ ∀ k x, Held q.addresses k x ↔ Collected R b k x ∨ Held q'' k x := by
      by_cases hc : kLogBufferSizeLimit < q.addressSpace
      · refine ⟨_, [], 0, rfl, by rw [if_pos hc], mapOk_nil, ?_, fun k x => ?_⟩
        · rw [if_pos hc]; exact flush_written R order horder o2
        · rw [if_pos hc, flush_collected R hread order horder o2]
          constructor
          · exact .inl
          · rintro (h | ⟨_, h, _⟩)
            · exact h
            · cases h
      · refine ⟨_, q.addresses, q.addressSpace, rfl, by rw [if_neg hc], o2, ?_, fun k x => ?_⟩
        · rw [if_neg hc]; intro e he; cases he
        · rw [if_neg hc]
          constructor
          · exact .inr
          · rintro (h | h)
            · exact absurd h (collected_nil R k x)
            · exact h
    obtain ⟨b, q'', s', u1, u2, u3, u4, u5⟩ := hadd
    rw [u1]
    dsimp only
    rw [u2]
    obtain ⟨as, bs, m', l, r1, r2, r3, r4, r5, r6⟩ := ih (fun f hf => h8 f (List.mem_cons_of_mem _ hf))
      { topics := q', addresses := q'', topicSpace := s, addressSpace := s' } t3 u3 (recordBlock e)
    rw [r1]
    refine ⟨a ++ as, b ++ bs, m', l, rfl, fun f hf => ?_, fun f hf => ?_, fun k x => ?_, fun k x => ?_, by rw [r6, hlast]⟩
    · rw [List.append_assoc] at hf
      rcases List.mem_append.mp hf with hf | hf
      · exact t4 f hf
      · exact r2 f hf
    · rw [List.append_assoc] at hf
      rcases List.mem_append.mp hf with hf | hf
      · exact u4 f hf
      · exact r3 f hf
    · rw [List.append_assoc, collected_append, r4, ← or_assoc, mentions_cons, ← or_assoc]
      dsimp only
      rw [← t5, o3]
    · rw [List.append_assoc, collected_append, r5, ← or_assoc, mentions_cons, ← or_assoc]
      dsimp only
      rw [← u5, o4]

/-! ## Where the cursor is set -/

/-- With a record of block `p` the cursor passes all records from that block on. -/
theorem fromKey_present {t : Table} (ht : MultiOrdered t) (h8 : ∀ e ∈ t, e.1.length = 8) {p : Nat} (hp : p < 2 ^ 64)
    (hm : ∃ v, (beFixed 8 p, v) ∈ t) : fromKey t (beFixed 8 p) = t.filter fun e => decide (p ≤ recordBlock e) := by
  have h64 : (256 : Nat) ^ 8 = 2 ^ 64 := by decide
  have hrec : ∀ e ∈ t, (e.1 = beFixed 8 p ↔ recordBlock e = p) := by
    intro e he
    unfold recordBlock
    rw [List.take_of_length_le (Nat.le_of_eq (h8 e he))]
    constructor
    · intro h; rw [h, beToNat_beFixed (by omega)]
    · intro h
      have := beFixed_beToNat e.1
      rw [h8 e he, h] at this
      exact this.symm
  have hord := ordered_blocks ht fun e he => Nat.le_of_eq (h8 e he).symm
  replace hm : ∃ e ∈ t, recordBlock e = p := by
    obtain ⟨v, hv⟩ := hm
    exact ⟨_, hv, (hrec _ hv).mp rfl⟩
  clear ht h8
  unfold fromKey
  induction t with
  | nil => rfl
  | cons e t ih =>
    obtain ⟨h1, h2⟩ := List.pairwise_cons.mp hord
    have he := hrec e List.mem_cons_self
    rw [List.dropWhile_cons, List.filter_cons]
    by_cases hb : e.1 = beFixed 8 p
    · have hr := he.mp hb
      rw [if_neg (by simp [hb]), if_pos (by simp [hr])]
      congr 1
      symm
      rw [List.filter_eq_self]
      intro f hf
      have := h1 f hf
      rw [decide_eq_true_eq]
      omega
    · have hne : recordBlock e ≠ p := fun h => hb (he.mpr h)
      obtain ⟨f, hf, hfp⟩ := hm
      rcases List.mem_cons.mp hf with rfl | hf
      · exact absurd hfp hne
      · have := h1 f hf
        rw [if_pos (by simp [hb]), if_neg (by rw [decide_eq_true_eq]; omega)]
        exact ih (fun g hg => hrec g (List.mem_cons_of_mem _ hg)) h2 ⟨f, hf, hfp⟩

end Silkworm.Stages
