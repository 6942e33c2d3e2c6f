import Verif.Tools.CheckSenders
import Verif.Stages.SendersBatches

/-!
# Lemmas on cmd/check_senders.cpp

Whatever the tool recovers, the stage recovers if there are enough workers.
-/

namespace Silkworm.Tools

open Silkworm.Db Silkworm.Etl Silkworm.Stages

theorem toolCanonicalLoop_ok (t : Table) (n r : Nat) (q : List Bytes × Nat) (h : toolCanonicalLoop t n r = .ok (.inr q)) :
    canonicalLoop t n r = .ok (some q) := by
  induction t generalizing n r q with
  | nil =>
    have := Sum.inr.inj (Outcome.ok.inj h)
    rw [← this]
    rfl
  | cons e t ih =>
    unfold toolCanonicalLoop at h
    unfold canonicalLoop
    split at h
    · cases h
    · cases h
    · rename_i m hm
      rw [hm]
      simp only [Outcome.ok_bind]
      split at h
      · cases h
      · rename_i h1
        rw [if_neg h1]
        split at h
        · cases h
        · rename_i h2
          rw [if_neg h2]
          cases hc : toolCanonicalLoop t (n + 1) m with
          | ub => rw [hc] at h; cases h
          | err e => cases e
          | ok x =>
            cases x with
            | inl s => rw [hc] at h; cases h
            | inr p =>
              rw [hc] at h
              have := Sum.inr.inj (Outcome.ok.inj h)
              rw [ih _ _ _ hc, ← this]
              rfl

theorem canonicalLoop_lengths (t : Table) (n r : Nat) (q : List Bytes × Nat) (h : canonicalLoop t n r = .ok (some q)) :
    ∀ b ∈ q.1, b.length = 32 := by
  induction t generalizing n r q with
  | nil =>
    have := Option.some.inj (Outcome.ok.inj h)
    rw [← this]
    intro b hb
    cases hb
  | cons e t ih =>
    unfold canonicalLoop at h
    obtain ⟨m, _, h⟩ := Outcome.bind_eq_ok.mp h
    split at h
    · cases h
    · split at h
      · cases h
      · rename_i h2
        obtain ⟨p, h3, h⟩ := Outcome.bind_eq_ok.mp h
        cases p with
        | none => cases Outcome.ok.inj h
        | some p =>
          have := Option.some.inj (Outcome.ok.inj h)
          rw [← this]
          intro b hb
          rcases List.mem_cons.mp hb with rfl | hb
          · exact not_not.mp h2
          · exact ih _ _ _ h3 b hb

theorem toolCanonicalHeaders_ok (db : Database) (n m : Nat) (hs : List Bytes) (h : toolCanonicalHeaders db n m = .ok (.inr hs)) :
    fillCanonicalHeaders db n m = .ok (some hs) ∧ ∀ b ∈ hs, b.length = 32 := by
  unfold toolCanonicalHeaders at h
  unfold fillCanonicalHeaders
  generalize fromKey db.canonicalHashes (blockKey n) = t at h ⊢
  cases t with
  | nil => cases h
  | cons e t =>
    dsimp only at h ⊢
    split at h
    · rename_i r hr
      have h1 := toolCanonicalLoop_ok _ _ _ _ hr
      rw [h1]
      split at h
      · cases h
      · rename_i hne
        have := Sum.inr.inj (Outcome.ok.inj h)
        rw [← this]
        refine ⟨?_, canonicalLoop_lengths _ _ _ _ h1⟩
        simp only [Outcome.ok_bind]
        rw [if_neg hne]
    · cases h
    · rename_i e _
      cases e
    · cases h

theorem toolCanonicalLoop_failed (t : Table) (n r : Nat) : toolCanonicalLoop t n r ≠ .ok (.inl .succeeded) := by
  induction t generalizing n r with
  | nil => intro h; cases h
  | cons e t ih =>
    intro h
    unfold toolCanonicalLoop at h
    split at h
    · cases h
    · cases h
    · split at h
      · cases h
      · split at h
        · cases h
        · split at h
          · cases h
          · exact ih _ _ h

theorem toolCanonicalHeaders_failed (db : Database) (n m : Nat) : toolCanonicalHeaders db n m ≠ .ok (.inl .succeeded) := by
  intro h
  unfold toolCanonicalHeaders at h
  split at h
  · cases h
  · split at h
    · split at h <;> cases h
    · rename_i s hs
      have := Sum.inl.inj (Outcome.ok.inj h)
      subst this
      exact toolCanonicalLoop_failed _ _ _ hs
    · rename_i e _
      cases e
    · cases h

theorem fillBatch_workers (farm : Farm) (M : Nat) (config : ChainConfig) (n : Nat) (txs : List Transaction) :
    fillBatch { farm with maxWorkers := M } config n txs = fillBatch farm config n txs := by
  induction txs with
  | nil => rfl
  | cons t ts ih =>
    unfold fillBatch
    rw [ih]

theorem workLoop_workers (farm : Farm) (M : Nat) (ps : List Package) (n : Nat) (acc : Bytes) (room : Nat) :
    workLoop { farm with maxWorkers := M } ps n acc room = workLoop farm ps n acc room := by
  induction ps generalizing n acc room with
  | nil => rfl
  | cons p ps ih =>
    unfold workLoop
    dsimp only
    simp only [ih]

theorem workAll_workers (farm : Farm) (M : Nat) (bs : List (List Package)) (i : Nat) :
    workAll { farm with maxWorkers := M } bs i = workAll farm bs i := by
  induction bs generalizing i with
  | nil => rfl
  | cons b bs ih =>
    unfold workAll
    rw [ih]
    cases b with
    | nil => rfl
    | cons p ps =>
      unfold workBatch
      dsimp only
      rw [workLoop_workers]

theorem toolDispatch_ok (farm : Farm) (M : Nat) (sent : List (List Package)) (batch : List Package)
    (q : List (List Package) × List Package) (h : toolDispatch farm sent batch = some q) (hM : sent.length < M) :
    dispatchBatch { farm with maxWorkers := M } sent batch = .ok q ∧ q.1.length ≤ sent.length + 1 := by
  unfold toolDispatch at h
  unfold dispatchBatch
  split at h
  · rename_i h1
    rw [if_pos h1, ← Option.some.inj h]
    exact ⟨rfl, Nat.le_succ _⟩
  · rename_i h1
    rw [if_neg h1]
    split at h
    · rename_i h2
      rw [if_pos ⟨h2, .inr (Nat.ne_of_lt hM)⟩, ← Option.some.inj h]
      exact ⟨rfl, by rw [List.length_append, List.length_singleton]⟩
    · cases h

theorem toolBlock_ok (farm : Farm) (M : Nat) (config : ChainConfig) (n : Nat) (txs : List Transaction) (sent : List (List Package))
    (batch : List Package) (s : List (List Package)) (b : List Package)
    (h : toolBlock farm config n txs sent batch = .ok (.filled s b)) (hM : sent.length < M) :
    ((txs = [] ∧ s = sent ∧ b = batch) ∨
      (txs ≠ [] ∧ farm.maxBatch < batch.length + txs.length ∧ ∃ q ps, dispatchBatch { farm with maxWorkers := M } sent batch = .ok q ∧
        fillBatch { farm with maxWorkers := M } config n txs = .ok ps ∧ s = q.1 ∧ b = q.2 ++ ps) ∨
      (txs ≠ [] ∧ ¬ farm.maxBatch < batch.length + txs.length ∧ ∃ ps,
        fillBatch { farm with maxWorkers := M } config n txs = .ok ps ∧ s = sent ∧ b = batch ++ ps)) ∧ s.length ≤ sent.length + 1 := by
  unfold toolBlock at h
  split at h
  · rename_i h1
    obtain ⟨h2, h3⟩ := BodiesEnd.filled.inj (Outcome.ok.inj h)
    exact ⟨.inl ⟨h1, h2.symm, h3.symm⟩, by rw [← h2]; exact Nat.le_succ _⟩
  · rename_i h1
    rw [fillBatch_workers]
    by_cases h2 : farm.maxBatch < batch.length + txs.length
    · rw [if_pos h2] at h
      cases hq : toolDispatch farm sent batch with
      | none => rw [hq] at h; cases h
      | some q =>
        rw [hq] at h
        dsimp only at h
        obtain ⟨k1, k2⟩ := toolDispatch_ok farm M sent batch q hq hM
        split at h
        · rename_i ps hps
          obtain ⟨h3, h4⟩ := BodiesEnd.filled.inj (Outcome.ok.inj h)
          exact ⟨.inr (.inl ⟨h1, h2, q, ps, k1, hps, h3.symm, h4.symm⟩), by rw [← h3]; exact k2⟩
        · cases h
        · cases h
    · rw [if_neg h2] at h
      dsimp only at h
      split at h
      · rename_i ps hps
        obtain ⟨h3, h4⟩ := BodiesEnd.filled.inj (Outcome.ok.inj h)
        exact ⟨.inr (.inr ⟨h1, h2, ps, hps, h3.symm, h4.symm⟩), by rw [← h3]; exact Nat.le_succ _⟩
      · cases h
      · cases h

theorem toolBodies_ok (farm : Farm) (M : Nat) (config : ChainConfig) (ethTx t : Table) (hs : List Bytes) (n : Nat)
    (sent : List (List Package)) (batch : List Package) (s : List (List Package)) (b : List Package)
    (h : toolBodies farm config ethTx t hs n sent batch = .ok (.filled s b)) (hM : sent.length + t.length < M) :
    bodiesLoop { farm with maxWorkers := M } config ethTx t hs n sent batch = .ok (some (s, b)) ∧ s.length ≤ sent.length + t.length := by
  induction t generalizing hs n sent batch with
  | nil =>
    obtain ⟨h2, h3⟩ := BodiesEnd.filled.inj (Outcome.ok.inj h)
    rw [h2, h3]
    exact ⟨rfl, Nat.le_refl _⟩
  | cons e t ih =>
    rw [List.length_cons] at hM ⊢
    unfold toolBodies at h
    unfold bodiesLoop
    split at h
    · cases h
    · cases h
    · rename_i m hm
      rw [hm]
      simp only [Outcome.ok_bind]
      split at h
      · rename_i h1
        rw [if_pos h1]
        obtain ⟨i1, i2⟩ := ih hs n sent batch h (by omega)
        exact ⟨i1, by omega⟩
      · rename_i h1
        rw [if_neg h1]
        split at h
        · cases h
        · rename_i h2
          rw [if_neg h2]
          split at h
          · cases h
          · rename_i h3
            rw [if_neg h3]
            cases hs with
            | nil => cases h
            | cons c hs =>
              dsimp only at h ⊢
              split at h
              · rename_i h4
                rw [if_pos h4]
                obtain ⟨i1, i2⟩ := ih (c :: hs) n sent batch h (by omega)
                exact ⟨i1, by omega⟩
              · rename_i h4
                rw [if_neg h4]
                split at h
                · cases h
                · cases h
                · rename_i body rest hd
                  rw [hd]
                  simp only [hang, Outcome.ok_bind]
                  split at h
                  · cases h
                  · cases h
                  · rename_i txs ht
                    rw [ht]
                    simp only [Outcome.ok_bind]
                    split at h
                    · rename_i s1 b1 hb
                      obtain ⟨k1, k2⟩ := toolBlock_ok farm M config m txs sent batch s1 b1 hb (by omega)
                      have fin : (match hs with
                          | [] => (.ok (some (s1, b1)) : Outcome StageError (Option (List (List Package) × List Package)))
                          | h :: hs => bodiesLoop { farm with maxWorkers := M } config ethTx t (h :: hs) (n + 1) s1 b1) = .ok (some (s, b)) ∧
                          s.length ≤ sent.length + (t.length + 1) := by
                        cases hs with
                        | nil =>
                          obtain ⟨h5, h6⟩ := BodiesEnd.filled.inj (Outcome.ok.inj h)
                          rw [← h5, ← h6]
                          exact ⟨rfl, by omega⟩
                        | cons c' hs =>
                          dsimp only at h ⊢
                          obtain ⟨i1, i2⟩ := ih (c' :: hs) (n + 1) s1 b1 h (by omega)
                          exact ⟨i1, by omega⟩
                      rcases k1 with ⟨h5, rfl, rfl⟩ | ⟨h5, h6, q, ps, h7, h8, rfl, rfl⟩ | ⟨h5, h6, ps, h8, rfl, rfl⟩
                      · rw [if_pos h5]
                        exact fin
                      · rw [if_neg h5, if_pos h6, h7]
                        simp only [Outcome.ok_bind]
                        rw [h8]
                        exact fin
                      · rw [if_neg h5, if_neg h6, h8]
                        exact fin
                    · rename_i hr
                      exact absurd h (hr s b)

/-! ## Sizes -/

theorem workLoop_size (farm : Farm) (hk : ∀ b, (farm.keccak b).length = 32) (ps : List Package) (n : Nat) (acc : Bytes) (room : Nat)
    (rs : List (Nat × Bytes)) (h : workLoop farm ps n acc room = .ok (some rs)) : ∀ r ∈ rs, r.2.length ≤ acc.length + 20 * room := by
  induction ps generalizing n acc room rs with
  | nil =>
    have := Option.some.inj (Outcome.ok.inj h)
    rw [← this]
    intro r hr
    split at hr
    · cases hr
    · rw [List.mem_singleton.mp hr]
      exact Nat.le_add_right _ _
  | cons p ps ih =>
    unfold workLoop at h
    split at h
    · cases h
    · cases h
    · rename_i b key _
      have h20 : ((farm.keccak key).drop 12).length = 20 := by rw [List.length_drop, hk]
      split at h
      · cases h
      · split at h
        · cases h
        · dsimp only at h
          split at h
          · obtain ⟨q, h1, h2⟩ := Outcome.bind_eq_ok.mp h
            cases q with
            | none => cases Outcome.ok.inj h2
            | some q =>
              have := Option.some.inj (Outcome.ok.inj h2)
              rw [← this]
              intro r hr
              rcases List.mem_cons.mp hr with rfl | hr
              · exact Nat.le_add_right _ _
              · have := ih _ _ _ q h1 r hr
                omega
          · intro r hr
            have := ih _ _ _ rs h r hr
            rw [List.length_append] at this
            omega

theorem workAll_size (farm : Farm) (hk : ∀ b, (farm.keccak b).length = 32) (bs : List (List Package)) (i : Nat)
    (rs : List (Option (List (Nat × Bytes)))) (h : workAll farm bs i = .ok rs) :
    ∀ q, some q ∈ rs → ∀ r ∈ q, r.2.length ≤ 20 * farm.maxBatch := by
  induction bs generalizing i rs with
  | nil =>
    rw [← Outcome.ok.inj h]
    intro q hq
    cases hq
  | cons b bs ih =>
    unfold workAll at h
    split at h
    · cases h
    · obtain ⟨q, h1, h⟩ := Outcome.bind_eq_ok.mp h
      obtain ⟨qs, h2, h⟩ := Outcome.bind_eq_ok.mp h
      rw [← Outcome.ok.inj h]
      intro x hx r hr
      rcases List.mem_cons.mp hx with hx | hx
      · subst hx
        cases b with
        | nil => cases h1
        | cons p ps =>
          have := workLoop_size farm hk _ _ _ _ x h1 r hr
          rw [List.length_nil] at this
          omega
      · exact ih _ qs h2 x hx r hr

theorem resultEntries_mem (m : Nat) (rs : List (Nat × Bytes)) (hs : List Bytes) (q : List Entry × List Bytes)
    (h : resultEntries rs hs = .ok q) (hr : ∀ r ∈ rs, r.2.length ≤ m) (hh : ∀ b ∈ hs, b.length = 32) :
    (∀ e ∈ q.1, e.key.length = 40 ∧ e.value.length ≤ m) ∧ ∀ b ∈ q.2, b.length = 32 := by
  induction rs generalizing hs q with
  | nil =>
    rw [← Outcome.ok.inj h]
    exact ⟨fun e he => (by cases he), hh⟩
  | cons r rs ih =>
    cases hs with
    | nil => cases h
    | cons b hs =>
      unfold resultEntries at h
      obtain ⟨p, h1, h⟩ := Outcome.bind_eq_ok.mp h
      obtain ⟨i1, i2⟩ := ih hs p h1 (fun r hr' => hr r (List.mem_cons_of_mem _ hr')) fun b hb => hh b (List.mem_cons_of_mem _ hb)
      rw [← Outcome.ok.inj h]
      refine ⟨fun e he => ?_, i2⟩
      rcases List.mem_cons.mp he with rfl | he
      · refine ⟨?_, hr r List.mem_cons_self⟩
        unfold blockHashKey
        rw [List.length_append, beFixed_length, hh b List.mem_cons_self]
      · exact i1 e he

theorem bufferizeResults_mem (m : Nat) (rs : List (Option (List (Nat × Bytes)))) (hs : List Bytes) (es : List Entry)
    (h : bufferizeResults rs hs = .ok (some es)) (hr : ∀ q, some q ∈ rs → ∀ r ∈ q, r.2.length ≤ m) (hh : ∀ b ∈ hs, b.length = 32) :
    ∀ e ∈ es, e.key.length = 40 ∧ e.value.length ≤ m := by
  induction rs generalizing hs es with
  | nil =>
    rw [← Option.some.inj (Outcome.ok.inj h)]
    exact fun e he => (by cases he)
  | cons r rs ih =>
    cases r with
    | none => cases Outcome.ok.inj h
    | some r =>
      unfold bufferizeResults at h
      obtain ⟨p, h1, h⟩ := Outcome.bind_eq_ok.mp h
      obtain ⟨q, h2, h⟩ := Outcome.bind_eq_ok.mp h
      cases q with
      | none => cases Outcome.ok.inj h
      | some q =>
        rw [← Option.some.inj (Outcome.ok.inj h)]
        obtain ⟨i1, i2⟩ := resultEntries_mem m r hs p h1 (hr r List.mem_cons_self) hh
        intro e he
        rcases List.mem_append.mp he with he | he
        · exact i1 e he
        · exact ih p.2 q h2 (fun q hq => hr q (List.mem_cons_of_mem _ hq)) i2 e he

theorem putAppend_ne (t : Table) (k v : Bytes) : putAppend t k v ≠ [] := by
  unfold putAppend
  split
  · simp
  · rename_i e he
    have : t ≠ [] := by
      intro hh
      rw [hh] at he
      cases he
    split
    · simp
    · exact this

/-- Something is in the table after something was loaded. -/
theorem etlLoad_ne (d : Disk) (es : List Entry) (s t : Table) (hne : es ≠ []) (hfit : ∀ e ∈ es, Etl.Fits e) (hz : ∀ e ∈ es, e.size ≠ 0)
    (h : etlLoad d kFlushSize es (putEntry true) s = .ok t) : t ≠ [] := by
  rcases etlLoad_cases d kFlushSize es (putEntry true) s hfit hz with hbad | ⟨L, hperm, _, hload⟩
  · rw [hbad] at h; cases h
  · rw [hload, foldlM_putEntry] at h
    rw [← Outcome.ok.inj h]
    have hL : L ≠ [] := fun hh => hne (by rw [hh] at hperm; exact hperm.symm.eq_nil)
    clear h hload hperm
    have : ∀ (L : List Entry) (s : Table), s ≠ [] → L.foldl (fun t e => put true t e.key e.value) s ≠ [] := by
      intro L
      induction L with
      | nil => exact fun s hs => hs
      | cons e L ih => exact fun s _ => ih _ (putAppend_ne _ _ _)
    cases L with
    | nil => exact absurd rfl hL
    | cons e L => exact this L _ (putAppend_ne _ _ _)

/-! ## The whole -/

theorem toolLoad_ok (d : Disk) (db db' : Database) (w : Nat) (es : Option (List Entry))
    (hfit : ∀ x, es = some x → ∀ e ∈ x, e.key.length = 40 ∧ e.value.length < 2 ^ 32) (h : toolLoad d db es = .ok (.succeeded, db')) :
    loadSenders d db w es = .ok (.success, db') := by
  cases es with
  | none => rw [← (Prod.mk.inj (Outcome.ok.inj h)).2]; rfl
  | some es =>
    cases es with
    | nil => rw [← (Prod.mk.inj (Outcome.ok.inj h)).2]; rfl
    | cons e es =>
      have hfit := hfit _ rfl
      unfold toolLoad at h
      unfold loadSenders
      dsimp only at h ⊢
      split at h
      · cases h
      · rename_i x _
        have := (Prod.mk.inj (Outcome.ok.inj h)).1
        unfold caughtStatus at this
        split at this <;> cases this
      · rename_i t ht
        rw [ht]
        simp only [hang, Outcome.ok_bind]
        cases hl : t.getLast? with
        | none =>
          exfalso
          refine etlLoad_ne d _ db.senders t (by simp) (fun e he => ?_) (fun e he => ?_) ht (List.getLast?_eq_none_iff.mp hl)
          · obtain ⟨h1, h2⟩ := hfit e he
            exact ⟨by show e.key.length < _; omega, h2⟩
          · have := (hfit e he).1
            unfold Entry.size
            omega
        | some x =>
          rw [hl] at h
          dsimp only at h ⊢
          split at h
          · rename_i last hlast
            rw [hlast]
            simp only [Outcome.ok_bind]
            split at h
            · rename_i db1 hp
              rw [hp, ← (Prod.mk.inj (Outcome.ok.inj h)).2]
              rfl
            · have := (Prod.mk.inj (Outcome.ok.inj h)).1
              unfold caughtStatus at this
              split at this <;> cases this
            · cases h
          · cases h

/-- Whatever the tool recovers without force, the stage recovers with enough workers. -/
theorem toolRecoverFrom_ok (d : Disk) (farm : Farm) (readConfig : Database → Option ChainConfig) (config : ChainConfig) (db : Database)
    (first to_ done : Nat) (db' : Database) (hk : ∀ b, (farm.keccak b).length = 32) (hm : 20 * farm.maxBatch < 2 ^ 32)
    (hc : readConfig db = some config) (hp : getStageProgress db (ascii "Senders") = .ok done) (hd : done + 1 < 2 ^ 64)
    (h : toolRecoverFrom d farm config db (done + 1) to_ = .ok (.succeeded, db')) :
    recoverAll d { farm with maxWorkers := db.blockBodies.length + 1 } readConfig db first to_ = .ok (.success, db') := by
  unfold toolRecoverFrom at h
  unfold recoverAll
  rw [hc]
  dsimp only
  rw [hp]
  simp only [liftDb, Outcome.ok_bind]
  rw [Nat.mod_eq_of_lt hd]
  have hfrom : (if (if done + 1 < first then done + 1 else first) ≤ done then done + 1 else if done + 1 < first then done + 1 else first)
      = done + 1 := by
    split_ifs <;> omega
  rw [hfrom]
  have hbad : ∀ {e : StageError} {db1 : Database}, (.ok (caughtStatus e, db1) : Outcome Empty (SenderStatus × Database)) ≠ .ok (.succeeded, db') := by
    intro e db1 hh
    have := (Prod.mk.inj (Outcome.ok.inj hh)).1
    unfold caughtStatus at this
    split at this <;> cases this
  split at h
  · cases h
  · exact absurd h hbad
  · rename_i bodies hb
    rw [hb]
    simp only [Outcome.ok_bind]
    split at h
    · cases h
    · rename_i h1
      rw [if_neg h1]
      dsimp only at h ⊢
      generalize (if bodies < to_ then bodies else to_) = to' at h ⊢
      split at h
      · cases h
      · rename_i h2
        rw [if_neg h2]
        split at h
        · cases h
        · rename_i e _
          cases e
        · rename_i s hs
          have : s ≠ .succeeded := by
            rintro rfl
            exact toolCanonicalHeaders_failed db _ _ hs
          exact absurd (Prod.mk.inj (Outcome.ok.inj h)).1 this
        · rename_i hs hhs
          obtain ⟨k1, k2⟩ := toolCanonicalHeaders_ok db _ _ hs hhs
          rw [k1]
          simp only [Outcome.ok_bind]
          split at h
          · cases h
          · rename_i h3
            rw [if_neg h3]
            have hle : (fromKey db.blockBodies (blockHashKey (done + 1) (hs.headD []))).length ≤ db.blockBodies.length :=
              (List.dropWhile_sublist _).length_le
            generalize fromKey db.blockBodies (blockHashKey (done + 1) (hs.headD [])) = t at h hle ⊢
            cases t with
            | nil => cases h
            | cons e t =>
              dsimp only at h ⊢
              split at h
              · cases h
              · rename_i e _
                cases e
              · split at h <;> cases h
              · split at h
                · exact absurd h hbad
                · cases h
              · rename_i sent batch hbd
                obtain ⟨b1, b2⟩ := toolBodies_ok farm (db.blockBodies.length + 1) config db.ethTx (e :: t) hs (done + 1) [] [] sent batch hbd
                  (by rw [List.length_nil]; omega)
                rw [b1]
                simp only [Outcome.ok_bind]
                rw [List.length_nil] at b2
                cases hq : toolDispatch farm sent batch with
                | none =>
                  rw [hq] at h
                  dsimp only at h
                  split at h <;> cases h
                | some q =>
                  rw [hq] at h
                  dsimp only at h
                  rw [(toolDispatch_ok farm _ sent batch q hq (show sent.length < db.blockBodies.length + 1 by omega)).1]
                  simp only [Outcome.ok_bind]
                  rw [workAll_workers]
                  unfold toolWork at h
                  cases hw : workAll farm q.1 0 with
                  | ub => rw [hw] at h; cases h
                  | err e => rw [hw] at h; cases h
                  | ok rs =>
                    rw [hw] at h
                    simp only [Outcome.ok_bind]
                    dsimp only at h
                    split at h
                    · rename_i es hes
                      rw [hes]
                      simp only [Outcome.ok_bind]
                      refine toolLoad_ok d db db' _ es (fun x hx e he => ?_) h
                      subst hx
                      have := bufferizeResults_mem (20 * farm.maxBatch) _ hs x hes (fun q hq => workAll_size farm hk _ _ rs hw q
                        (List.mem_of_mem_take hq)) k2 e he
                      exact ⟨this.1, by omega⟩
                    · cases h

/-- What success needs. -/
theorem toolRecoverFrom_shape (d : Disk) (farm : Farm) (config : ChainConfig) (db : Database) (from_ to_ : Nat) (db' : Database)
    (h : toolRecoverFrom d farm config db from_ to_ = .ok (.succeeded, db')) :
    ∃ bodies hs q rs es, getStageProgress db (ascii "Bodies") = .ok bodies ∧
      toolCanonicalHeaders db from_ (if bodies < to_ then bodies else to_) = .ok (.inr hs) ∧
      ¬ (if bodies < to_ then bodies else to_) < from_ ∧ hs.length = (if bodies < to_ then bodies else to_) - from_ + 1 ∧
      workAll farm q 0 = .ok rs ∧ bufferizeResults (rs.take farm.seen) hs = .ok es ∧ toolLoad d db es = .ok (.succeeded, db') := by
  have hbad : ∀ {e : StageError} {db1 : Database}, (.ok (caughtStatus e, db1) : Outcome Empty (SenderStatus × Database)) ≠ .ok (.succeeded, db') := by
    intro e db1 hh
    have := (Prod.mk.inj (Outcome.ok.inj hh)).1
    unfold caughtStatus at this
    split at this <;> cases this
  unfold toolRecoverFrom at h
  split at h
  · cases h
  · exact absurd h hbad
  · rename_i bodies hb
    refine ⟨bodies, ?_⟩
    split at h
    · cases h
    · dsimp only at h
      generalize (if bodies < to_ then bodies else to_) = to' at h ⊢
      split at h
      · cases h
      · rename_i h2
        split at h
        · cases h
        · rename_i e _
          cases e
        · rename_i s hs
          have : s ≠ .succeeded := by
            rintro rfl
            exact toolCanonicalHeaders_failed db _ _ hs
          exact absurd (Prod.mk.inj (Outcome.ok.inj h)).1 this
        · rename_i hs hhs
          split at h
          · cases h
          · rename_i h3
            split at h
            · cases h
            · split at h
              · cases h
              · rename_i e _
                cases e
              · split at h <;> cases h
              · split at h
                · exact absurd h hbad
                · cases h
              · split at h
                · split at h <;> cases h
                · rename_i q _
                  unfold toolWork at h
                  split at h
                  · rename_i rs hrs
                    have hw : workAll farm q.1 0 = .ok rs := by
                      split at hrs
                      · rename_i hw
                        rw [hw, Outcome.ok.inj hrs]
                      · cases hrs
                    split at h
                    · rename_i es hes
                      exact ⟨hs, q.1, rs, es, hb, hhs, h2, not_not.mp h3, hw, hes, h⟩
                    · cases h
                  · cases h

theorem appendAll_prefix (L : List Entry) (t : Table) : ∃ new, L.foldl (fun t e => put true t e.key e.value) t = t ++ new := by
  induction L generalizing t with
  | nil => exact ⟨[], (List.append_nil _).symm⟩
  | cons e L ih =>
    obtain ⟨new, hn⟩ := ih (put true t e.key e.value)
    have : ∃ x, put true t e.key e.value = t ++ x := by
      show ∃ x, putAppend t e.key e.value = t ++ x
      unfold putAppend
      split
      · rename_i hl
        rw [List.getLast?_eq_none_iff.mp hl]
        exact ⟨_, rfl⟩
      · split
        · exact ⟨_, rfl⟩
        · exact ⟨[], (List.append_nil _).symm⟩
    obtain ⟨x, hx⟩ := this
    refine ⟨x ++ new, ?_⟩
    rw [List.foldl_cons, hn, hx, List.append_assoc]

/-- Loading only appends, and changes nothing else but the progress. -/
theorem toolLoad_keeps (d : Disk) (db db' : Database) (es : Option (List Entry))
    (hfit : ∀ x, es = some x → ∀ e ∈ x, e.key.length = 40 ∧ e.value.length < 2 ^ 32) (h : toolLoad d db es = .ok (.succeeded, db')) :
    ∃ new p, db' = { db with senders := db.senders ++ new, stageProgress := p } := by
  have hsame : db = { db with senders := db.senders ++ [], stageProgress := db.stageProgress } := by rw [List.append_nil]
  cases es with
  | none => rw [← (Prod.mk.inj (Outcome.ok.inj h)).2]; exact ⟨[], _, hsame⟩
  | some es =>
    cases es with
    | nil => rw [← (Prod.mk.inj (Outcome.ok.inj h)).2]; exact ⟨[], _, hsame⟩
    | cons e es =>
      have hfit := hfit _ rfl
      unfold toolLoad at h
      dsimp only at h
      split at h
      · cases h
      · rename_i x _
        have := (Prod.mk.inj (Outcome.ok.inj h)).1
        unfold caughtStatus at this
        split at this <;> cases this
      · rename_i t ht
        have hp : ∃ new, t = db.senders ++ new := by
          rcases etlLoad_cases d kFlushSize (e :: es) (putEntry true) db.senders (fun e he => by
            obtain ⟨h1, h2⟩ := hfit e he
            exact ⟨by show e.key.length < _; omega, h2⟩) (fun e he => by
            have := (hfit e he).1
            unfold Entry.size
            omega) with hbad | ⟨L, _, _, hload⟩
          · rw [hbad] at ht; cases ht
          · rw [hload, foldlM_putEntry] at ht
            rw [← Outcome.ok.inj ht]
            exact appendAll_prefix L _
        obtain ⟨new, rfl⟩ := hp
        split at h
        · rw [← (Prod.mk.inj (Outcome.ok.inj h)).2]
          exact ⟨new, _, rfl⟩
        · split at h
          · rw [setStageProgress_known _ (by decide)] at h
            rw [← (Prod.mk.inj (Outcome.ok.inj h)).2]
            exact ⟨new, _, rfl⟩
          · cases h

theorem toolRecoverFrom_keeps (d : Disk) (farm : Farm) (config : ChainConfig) (db : Database) (from_ to_ : Nat) (db' : Database)
    (hk : ∀ b, (farm.keccak b).length = 32) (hm : 20 * farm.maxBatch < 2 ^ 32)
    (h : toolRecoverFrom d farm config db from_ to_ = .ok (.succeeded, db')) :
    ∃ new p, db' = { db with senders := db.senders ++ new, stageProgress := p } := by
  obtain ⟨bodies, hs, q, rs, es, _, h2, _, _, h3, h4, h5⟩ := toolRecoverFrom_shape d farm config db from_ to_ db' h
  refine toolLoad_keeps d db db' es (fun x hx e he => ?_) h5
  subst hx
  have := bufferizeResults_mem (20 * farm.maxBatch) _ hs x h4 (fun q hq => workAll_size farm hk _ _ rs h3 q (List.mem_of_mem_take hq))
    (toolCanonicalHeaders_ok db _ _ hs h2).2 e he
  exact ⟨this.1, by omega⟩

theorem toolRecover_unforced (d : Disk) (farm : Farm) (readConfig : Database → Option ChainConfig) (db : Database) (from_ to_ done : Nat)
    (r : SenderStatus × Database) (hp : getStageProgress db (ascii "Senders") = .ok done) (hd : done + 1 < 2 ^ 64)
    (h : toolRecover d farm readConfig db from_ to_ false = .ok r) :
    (readConfig db = none ∧ r = (.invalidChainConfig, db)) ∨
      ∃ config, readConfig db = some config ∧ toolRecoverFrom d farm config db (done + 1) to_ = .ok r := by
  unfold toolRecover at h
  split at h
  · rename_i hc
    exact .inl ⟨hc, (Outcome.ok.inj h).symm⟩
  · rename_i config hc
    refine .inr ⟨config, hc, ?_⟩
    rw [hp] at h
    dsimp only at h
    rw [Nat.mod_eq_of_lt hd] at h
    by_cases hle : (if done + 1 < from_ then done + 1 else from_) ≤ done
    · rw [if_pos hle, if_neg (show ¬ false = true by decide)] at h
      exact h
    · rw [if_neg hle] at h
      rw [show (if done + 1 < from_ then done + 1 else from_) = done + 1 by split <;> split at hle <;> omega] at h
      exact h

/-! ## Unwinding -/

theorem takeWhile_filter {α : Type} {R : α → α → Prop} (p : α → Bool) (l : List α) (h : l.Pairwise R)
    (hm : ∀ a b, a ∈ l → b ∈ l → R a b → p b = true → p a = true) : l.takeWhile p = l.filter p := by
  induction l with
  | nil => rfl
  | cons a l ih =>
    obtain ⟨h1, h2⟩ := List.pairwise_cons.mp h
    have ih := ih h2 fun x y hx hy => hm x y (List.mem_cons_of_mem _ hx) (List.mem_cons_of_mem _ hy)
    by_cases hp : p a = true
    · rw [List.takeWhile_cons_of_pos hp, List.filter_cons_of_pos hp, ih]
    · rw [List.takeWhile_cons_of_neg hp, List.filter_cons_of_neg hp]
      refine (List.filter_eq_nil_iff.mpr fun b hb hpb => hp ?_).symm
      exact hm a b List.mem_cons_self (List.mem_cons_of_mem _ hb) (h1 b hb) hpb

theorem below_iff (e : Bytes × Bytes) (he : e.1.length = 40) (n : Nat) (hn : n + 1 < 2 ^ 64) :
    lexLt e.1 (blockHashKey (n + 1) (List.replicate 32 0)) = true ↔ Spec.recordBlock e ≤ n := by
  have h256 : (256 : Nat) ^ 8 = 2 ^ 64 := by decide
  have hz : beToNat (List.replicate 32 0) = 0 := by decide
  unfold blockHashKey Spec.recordBlock
  conv_lhs => rw [← List.take_append_drop 8 e.1]
  rw [Db.lexLt_append (by rw [List.length_take, he, beFixed_length]; rfl),
    lexLt_iff_toNat (by rw [List.length_take, he, beFixed_length]; rfl), beToNat_beFixed (by omega),
    lexLt_iff_toNat (by rw [List.length_drop, he, List.length_replicate]), hz]
  constructor
  · rintro (h | ⟨_, h⟩)
    · omega
    · exact absurd h (Nat.not_lt_zero _)
  · intro h
    exact .inl (by omega)

theorem toolUnwind_known (db : Database) (height : Nat) : toolUnwind db height = .ok (.succeeded, { db with
    senders := if db.senders = [] then []
      else if height ≤ 1 then []
      else db.senders.takeWhile fun e => lexLt e.1 (blockHashKey ((height + 1) % 2 ^ 64) (List.replicate 32 0))
    stageProgress := db.stageProgress.upsert (ascii "Senders") (beFixed 8 height) }) := by
  unfold toolUnwind
  dsimp only
  rw [setStageProgress_known _ (by decide)]

theorem toolUnwind_from_two (db : Database) (height : Nat) (ho : Spec.Ordered db.senders) (h40 : ∀ e ∈ db.senders, e.1.length = 40)
    (h2 : 2 ≤ height) (hh : height + 1 < 2 ^ 64) : toolUnwind db height = .ok (.succeeded, { db with
      senders := db.senders.filter fun e => decide (Spec.recordBlock e ≤ height)
      stageProgress := db.stageProgress.upsert (ascii "Senders") (beFixed 8 height) }) := by
  rw [toolUnwind_known]
  congr 3
  split
  · rename_i hn
    rw [hn]
    rfl
  · rw [if_neg (by omega), Nat.mod_eq_of_lt hh, takeWhile_filter _ _ ho]
    · refine List.filter_congr fun e he => ?_
      rw [Bool.eq_iff_iff, below_iff e (h40 e he) height hh, decide_eq_true_eq]
    · intro a b ha hb hab hp
      rw [Etl.lexLt_iff] at hp ⊢
      exact List.lt_trans hab hp

/-! ## A batch that is too large -/

theorem workLoop_overflow (farm : Farm) (ps : List Package) (n : Nat) (acc : Bytes) (room : Nat) (hl : room < ps.length)
    (hr : ∀ p ∈ ps, ∃ key, farm.recover p.hash p.signature p.odd = some (4 :: key)) : workLoop farm ps n acc room = .ub := by
  induction ps generalizing n acc room with
  | nil => cases hl
  | cons p ps ih =>
    obtain ⟨key, hk⟩ := hr p List.mem_cons_self
    unfold workLoop
    rw [hk]
    dsimp only
    rw [if_neg (by decide)]
    split
    · rfl
    · rename_i h0
      have ih := fun n acc => ih n acc (room - 1) (by rw [List.length_cons] at hl; omega) fun p hp => hr p (List.mem_cons_of_mem _ hp)
      split
      · rw [ih]
        rfl
      · rw [ih]

end Silkworm.Tools
