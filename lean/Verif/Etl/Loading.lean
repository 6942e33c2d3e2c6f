import Verif.Etl.Lemmas

/-!
# The collector holds what was collected
-/

namespace Silkworm.Etl

open Silkworm.Spec

namespace Collector

variable {σ ε : Type}

/-- A file that has not been read yet. -/
def IsFile (i : Nat) (L : List Entry) (o : Option FileProvider) : Prop :=
  (∃ p, o = some p ∧ p.id = i ∧ p.fileSize ≠ 0 ∧ p.file = some (contents L)) ∧ (∀ e ∈ L, Fits e) ∧ Ordered L

/-- The files from number `b` on hold these lists of entries. -/
inductive Files : Nat → List (Option FileProvider) → List (List Entry) → Prop
  | nil (b : Nat) : Files b [] []
  | cons {b : Nat} {o : Option FileProvider} {L : List Entry} {ps : List (Option FileProvider)} {Ls : List (List Entry)} :
    IsFile b L o → Files (b + 1) ps Ls → Files b (o :: ps) (L :: Ls)

theorem Files.append {b : Nat} {ps : List (Option FileProvider)} {Ls : List (List Entry)} (h : Files b ps Ls)
    {L : List Entry} {o : Option FileProvider} (ho : IsFile (b + ps.length) L o) : Files b (ps ++ [o]) (Ls ++ [L]) := by
  induction h with
  | nil b => exact .cons ho (.nil _)
  | cons h1 h2 ih => exact .cons h1 (ih (by rw [List.length_cons] at ho; rwa [Nat.add_right_comm, Nat.add_assoc]))

theorem files_empty {b : Nat} {Ls : List (List Entry)} (h : Files b [] Ls) : Ls = [] := by cases h; rfl

theorem fillQueue_spec {b : Nat} {ps : List (Option FileProvider)} {Ls : List (List Entry)} (h : Files b ps Ls) :
    ∃ Q ps', fillQueue ps = .ok (Q.map Prod.fst, ps') ∧ pending Q = Ls.flatten ∧
      (∀ pre : List (Option FileProvider), pre.length = b → ∀ x ∈ Q, Follows (pre ++ ps') x) ∧
      (Q.map fun x => x.1.2).Nodup ∧ (∀ x ∈ Q, b ≤ x.1.2) ∧ (pending Q).length ≤ Q.length + leftToRead ps' := by
  induction h with
  | nil b => exact ⟨[], [], rfl, rfl, by simp, by simp, by simp, by simp [pending]⟩
  | @cons b o L ps Ls ho hps ih =>
    obtain ⟨Q, ps', hq, hp, hf, hn, hb, hl⟩ := ih
    obtain ⟨⟨p, rfl, hid, hfs, hfile⟩, hfit, hord⟩ := ho
    cases L with
    | nil =>
      have hr := readEntry_nil hfile hfs
      refine ⟨Q, some p.reset :: ps', ?_, by simpa using hp, ?_, hn, fun x hx => Nat.le_of_succ_le (hb x hx), ?_⟩
      · simp only [fillQueue, hr, Outcome.ok_bind, hq]
        rfl
      · intro pre hpre x hx
        have := hf (pre ++ [some p.reset]) (by simp [hpre]) x hx
        simpa using this
      · simp only [leftToRead, List.map_cons, List.sum_cons] at *
        omega
    | cons e L =>
      have hr := readEntry_cons (p := p) (e := e) (rest := contents L) (by rw [hfile]; rfl) hfs
        (hfit e (List.mem_cons_self ..))
      refine ⟨((e, p.id), L) :: Q, some { p with file := some (contents L) } :: ps', ?_, ?_, ?_, ?_, ?_, ?_⟩
      · simp only [fillQueue, hr, Outcome.ok_bind, hq]
        rfl
      · simp only [pending, List.flatMap_cons, List.flatten_cons] at *
        rw [hp]
      · intro pre hpre x hx
        rcases List.mem_cons.mp hx with hx | hx
        · rw [hx]
          refine ⟨⟨{ p with file := some (contents L) }, ?_, rfl, hfs, rfl⟩,
            fun e' he' => hfit e' (List.mem_cons_of_mem _ he'), hord⟩
          simp only [hid]
          rw [List.getElem?_append_right (by omega), hpre, Nat.sub_self]
          simp
        · have := hf (pre ++ [some { p with file := some (contents L) }]) (by simp [hpre]) x hx
          simpa using this
      · rw [List.map_cons, List.nodup_cons]
        refine ⟨fun hm => ?_, hn⟩
        obtain ⟨x, hx, he⟩ := List.mem_map.mp hm
        have := hb x hx
        simp only [hid] at he
        omega
      · intro x hx
        rcases List.mem_cons.mp hx with hx | hx
        · rw [hx]; simp [hid]
        · exact Nat.le_of_succ_le (hb x hx)
      · have := length_contents L
        simp only [pending, List.flatMap_cons, List.length_append, List.length_cons, leftToRead, List.map_cons,
          List.sum_cons, Option.getD_some] at *
        omega

/-- What the collector holds after collecting `es`. -/
structure Holds (c : Collector) (Ls : List (List Entry)) (es : List Entry) : Prop where
  files : Files 0 c.providers Ls
  perm : (Ls.flatten ++ c.buffer.entries).Perm es
  room : c.buffer.length ≤ c.buffer.buffer.length
  bytes : c.buffer.size = (c.buffer.entries.map Entry.size).sum
  count : c.size = es.length

/-- Bytes needed on disk for entries. -/
def needed (es : List Entry) : Nat := (es.map fun e => e.size + 8).sum

theorem needed_eq (es : List Entry) : needed es = (es.map Entry.size).sum + es.length * 8 := by
  unfold needed
  induction es with
  | nil => rfl
  | cons e es ih => simp only [List.map_cons, List.sum_cons, ih, List.length_cons]; omega

theorem needed_perm {a b : List Entry} (h : a.Perm b) : needed a = needed b := by
  unfold needed
  induction h with
  | nil => rfl
  | cons x _ ih => simp only [List.map_cons, List.sum_cons, ih]
  | swap x y l => simp only [List.map_cons, List.sum_cons]; omega
  | trans _ _ ih1 ih2 => exact ih1.trans ih2

theorem entries_put {b b' : Buffer} {e : Entry} (h : b.put e = .ok b') (hr : b.length ≤ b.buffer.length) :
    b'.entries = b.entries ++ [e] ∧ b'.length ≤ b'.buffer.length ∧ b'.size = b.size + e.size := by
  unfold Buffer.put at h
  rw [if_pos hr] at h
  split at h
  · rename_i hc
    rw [← Outcome.ok.inj h]
    refine ⟨?_, ?_, rfl⟩
    · simp only [Buffer.entries]
      rw [List.take_of_length_le (by simp; omega), List.take_of_length_le (by omega)]
    · simp; omega
  · rename_i hc
    rw [← Outcome.ok.inj h]
    refine ⟨?_, ?_, rfl⟩
    · simp only [Buffer.entries]
      rw [List.take_add_one, List.take_set_of_le (Nat.le_refl _), List.getElem?_set_self (by omega)]
      rfl
    · simp; omega

theorem put_ok {b : Buffer} (e : Entry) (hr : b.length ≤ b.buffer.length) : ∃ b', b.put e = .ok b' := by
  unfold Buffer.put
  rw [if_pos hr]
  split <;> exact ⟨_, rfl⟩

theorem entries_sort (b : Buffer) (hr : b.length ≤ b.buffer.length) :
    b.sort.entries = Buffer.sorted b.entries := by
  unfold Buffer.entries Buffer.sort
  simp only
  rw [List.take_append_of_le_length (by rw [(sorted_perm _).length_eq]; simp; omega),
    List.take_of_length_le (by rw [(sorted_perm _).length_eq]; simp)]

theorem sum_zero {l : List Nat} (h : l.sum = 0) : ∀ x ∈ l, x = 0 := by
  induction l with
  | nil => simp
  | cons a l ih =>
    simp only [List.sum_cons] at h
    intro x hx
    rcases List.mem_cons.mp hx with hx | hx
    · omega
    · exact ih (by omega) x hx

theorem flush_spec (space : Nat → Nat) {c : Collector} {Ls : List (List Entry)} {es : List Entry} (hc : Holds c Ls es)
    (hfit : ∀ e ∈ es, Fits e) (hne : ∀ e ∈ es, e.size ≠ 0) :
    (flushBuffer space c = .err .insufficientDiskSpace ∧ space c.providers.length < needed es) ∨
      ∃ c' Ls', flushBuffer space c = .ok c' ∧ Holds c' Ls' es ∧ c'.buffer.entries = [] ∧
        (c.providers ≠ [] → c'.providers ≠ []) := by
  unfold flushBuffer
  by_cases h0 : c.buffer.size = 0
  · rw [if_neg (by simp [h0])]
    refine Or.inr ⟨c, Ls, rfl, hc, ?_, id⟩
    have hz := sum_zero (hc.bytes ▸ h0)
    cases he : c.buffer.entries with
    | nil => rfl
    | cons e l =>
      have hm : e ∈ es := hc.perm.mem_iff.mp (List.mem_append_right _ (by rw [he]; exact List.mem_cons_self ..))
      exact absurd (hz e.size (by rw [he]; simp)) (hne e hm)
  · rw [if_pos h0]
    have hs := entries_sort c.buffer hc.room
    have hperm := sorted_perm c.buffer.entries
    unfold FileProvider.flush
    simp only
    by_cases hsp : space c.providers.length < c.buffer.sort.size + c.buffer.sort.entries.length * 8
    · rw [if_pos hsp]
      refine Or.inl ⟨rfl, Nat.lt_of_lt_of_le hsp ?_⟩
      rw [show c.buffer.sort.size = c.buffer.size from rfl, hs, hperm.length_eq, hc.bytes, ← needed_eq,
        ← needed_perm hc.perm]
      unfold needed
      simp only [List.map_append, List.sum_append]
      omega
    · rw [if_neg hsp]
      have hone : c.buffer.sort.entries.length ≠ 0 := by
        intro hz
        rw [hs, hperm.length_eq] at hz
        rw [hc.bytes, List.length_eq_zero_iff.mp hz] at h0
        exact h0 rfl
      refine Or.inr ⟨_, Ls ++ [c.buffer.sort.entries], rfl, ⟨?_, ?_, Nat.zero_le _, rfl, hc.count⟩, rfl, by simp⟩
      · refine hc.files.append ⟨⟨_, rfl, by simp, ?_, rfl⟩, ?_, ?_⟩
        · simp only; omega
        · intro e he
          rw [hs] at he
          exact hfit e (hc.perm.mem_iff.mp (List.mem_append_right _ (hperm.mem_iff.mp he)))
        · rw [hs]; exact ordered_sort _
      · refine List.Perm.trans ?_ hc.perm
        simp only [List.flatten_append, List.flatten_cons, List.flatten_nil, List.append_nil, Buffer.entries,
          Buffer.clear, List.take_zero]
        refine List.Perm.append_left _ ?_
        have := hs ▸ hperm
        exact this

theorem collect_spec (space : Nat → Nat) {c : Collector} {Ls : List (List Entry)} {es : List Entry} (hc : Holds c Ls es)
    (e : Entry) (hfit : ∀ x ∈ es ++ [e], Fits x) (hne : ∀ x ∈ es ++ [e], x.size ≠ 0) :
    (collect space c e = .err .insufficientDiskSpace ∧ ∃ n, space n < needed (es ++ [e])) ∨
      ∃ c' Ls', collect space c e = .ok c' ∧ Holds c' Ls' (es ++ [e]) := by
  obtain ⟨b', hb⟩ := put_ok e hc.room
  obtain ⟨h1, h2, h3⟩ := entries_put hb hc.room
  have hc' : Holds { c with buffer := b', size := c.size + 1 } Ls (es ++ [e]) := by
    refine ⟨hc.files, ?_, h2, ?_, by simp [hc.count]⟩
    · simp only [h1]
      rw [← List.append_assoc]
      exact hc.perm.append_right _
    · simp only [h1, h3, hc.bytes, List.map_append, List.sum_append, List.map_cons, List.map_nil, List.sum_cons,
        List.sum_nil]
      omega
  unfold collect
  rw [hb]
  simp only [Outcome.ok_bind]
  split
  · rcases flush_spec space hc' hfit hne with ⟨h, hl⟩ | ⟨c', Ls', h, hh, _, _⟩
    · exact Or.inl ⟨h, _, hl⟩
    · exact Or.inr ⟨c', Ls', h, hh⟩
  · exact Or.inr ⟨_, Ls, rfl, hc'⟩

theorem collectAll_spec (space : Nat → Nat) (l : List Entry) : ∀ {c : Collector} {Ls : List (List Entry)} {es : List Entry},
    Holds c Ls es → (∀ x ∈ es ++ l, Fits x) → (∀ x ∈ es ++ l, x.size ≠ 0) →
    (collectAll space c l = .err .insufficientDiskSpace ∧ ∃ n, space n < needed (es ++ l)) ∨
      ∃ c' Ls', collectAll space c l = .ok c' ∧ Holds c' Ls' (es ++ l) := by
  induction l with
  | nil =>
    intro c Ls es hc _ _
    exact Or.inr ⟨c, Ls, rfl, by simpa using hc⟩
  | cons e l ih =>
    intro c Ls es hc hf hn
    have e0 : es ++ e :: l = (es ++ [e]) ++ l := by simp
    rw [e0] at hf hn ⊢
    rcases collect_spec space hc e (fun x hx => hf x (List.mem_append_left _ hx))
      (fun x hx => hn x (List.mem_append_left _ hx)) with ⟨h, n, hl⟩ | ⟨c', Ls', h, hh⟩
    · refine Or.inl ⟨by simp [collectAll, h], n, Nat.lt_of_lt_of_le hl ?_⟩
      unfold needed
      simp only [List.map_append, List.sum_append]
      omega
    · rcases ih hh hf hn with ⟨h', hl⟩ | ⟨c'', Ls'', h', hh'⟩
      · exact Or.inl ⟨by simp [collectAll, h, h'], hl⟩
      · exact Or.inr ⟨c'', Ls'', by simp [collectAll, h, h'], hh'⟩

theorem load_spec (space : Nat → Nat) (h : Heap) (f : σ → Entry → Outcome ε σ) {c : Collector} {Ls : List (List Entry)}
    {es : List Entry} (hc : Holds c Ls es) (hfit : ∀ x ∈ es, Fits x) (hne : ∀ x ∈ es, x.size ≠ 0) :
    ((∀ s, load space h f s c = .err (.etl .insufficientDiskSpace)) ∧ ∃ n, space n < needed es) ∨
      ∃ L c', L.Perm es ∧ Ordered L ∧ ∀ s, load space h f s c = (loadEntries f s L >>= fun s => .ok (s, c')) := by
  unfold load
  by_cases h0 : c.size = 0
  · simp only [h0, if_true]
    have : es = [] := List.length_eq_zero_iff.mp (hc.count ▸ h0)
    rw [this]
    exact Or.inr ⟨[], c, List.Perm.refl _, List.Pairwise.nil, fun s => rfl⟩
  · simp only [h0, if_false]
    by_cases hp : c.providers = []
    · simp only [hp, if_true]
      have hL := files_empty (hp ▸ hc.files)
      have hperm := hc.perm
      rw [hL, List.flatten_nil, List.nil_append] at hperm
      have hs := entries_sort c.buffer hc.room
      rw [hs]
      exact Or.inr ⟨_, _, (sorted_perm _).trans hperm, ordered_sort _, fun s => rfl⟩
    · simp only [hp, if_false]
      rcases flush_spec space hc hfit hne with ⟨hfl, hl⟩ | ⟨c', Ls', hfl, hh, he, _⟩
      · exact Or.inl ⟨fun s => by simp [hfl, lift], _, hl⟩
      · obtain ⟨Q, ps', hq, hpend, hfol, hn, _, hlen⟩ := fillQueue_spec hh.files
        obtain ⟨L, ps'', hL, ho, hrun⟩ := mergeLoop_spec h f (Q.length + leftToRead ps') Q ps' hlen
          (by simpa using hfol [] rfl) hn
        refine Or.inr ⟨L, { c' with providers := ps'', size := 0 }, ?_, ho, ?_⟩
        · refine hL.trans ?_
          rw [hpend]
          have := hh.perm
          rw [he, List.append_nil] at this
          exact this
        · intro s
          simp only [hfl, lift, Outcome.ok_bind, hq]
          rw [List.length_map, hrun s, Outcome.bind_assoc]
          rfl

theorem loadEntries_foldlM (f : σ → Entry → Outcome ε σ) (s : σ) (L : List Entry) :
    loadEntries f s L = (match L.foldlM f s with
      | .ok s => .ok s
      | .err e => .err (.load e)
      | .ub => .ub) := by
  induction L generalizing s with
  | nil => rfl
  | cons e L ih =>
    rw [loadEntries_cons, List.foldlM_cons]
    unfold deliver
    cases hf : f s e with
    | ok s' => simp only [Outcome.ok_bind]; exact ih s'
    | err x => rfl
    | ub => rfl

theorem holds_new (optimalSize : Nat) : Holds (new optimalSize) [] [] :=
  ⟨.nil 0, List.Perm.refl _, Nat.zero_le _, rfl, rfl⟩

end Collector

end Silkworm.Etl
