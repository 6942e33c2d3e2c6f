import Verif.Stages.Execution
import Verif.Stages.Lemmas
import Verif.Spec.ExecuteBlocks
import Verif.Db.BufferInvariant

/-!
# Lemmas about the loop that executes blocks
-/

namespace Silkworm.Stages

open Silkworm.Db Silkworm.State Silkworm.Spec

variable {exec : BlockExecutor} {wr : Bool} {db : Database}

theorem _root_.Silkworm.Spec.Executes.le {n m : Nat} {b b' : Db.Buffer} (h : Executes exec wr db n m b b') : n ≤ m := by
  induction h with
  | none => exact Nat.le_refl _
  | block _ _ _ _ ih => omega

theorem _root_.Silkworm.Spec.Executes.unique {n m : Nat} {b b1 b2 : Db.Buffer} (h1 : Executes exec wr db n m b b1)
    (h2 : Executes exec wr db n m b b2) : b1 = b2 := by
  induction h1 with
  | none n b =>
    cases h2 with
    | none => rfl
    | block _ _ _ r => exact absurd r.le (by omega)
  | block r v c rest ih =>
    cases h2 with
    | none => exact absurd rest.le (by omega)
    | block r' v' c' rest' =>
      rw [r] at r'
      have hb := (Prod.mk.inj (Option.some.inj (Outcome.ok.inj r'))).1
      subst hb
      rw [v] at v'
      have h3 := Prod.mk.inj (Outcome.ok.inj v')
      have h4 := (Prod.mk.inj h3.2).2
      obtain ⟨rfl, _⟩ := h3
      subst h4
      rw [c] at c'
      have := Outcome.ok.inj c'
      subst this
      exact ih rest'

/-- Every block that is executed has been read. -/
theorem _root_.Silkworm.Spec.Executes.read {n m : Nat} {b b' : Db.Buffer} (h : Executes exec wr db n m b b') (k : Nat)
    (h1 : n ≤ k) (h2 : k < m) : ∃ bh, readBlock db k true = .ok (some bh) := by
  induction h with
  | none => omega
  | @block n m b b1 b' block hash receipts calls hr hx hb rest ih =>
    by_cases hn : n = k
    · subst hn; exact ⟨_, hr⟩
    · exact ih (by omega) h2

theorem _root_.Silkworm.Spec.Rounds.le {n m : Nat} {db db' : Database} (h : Rounds exec wr db n m db') : n ≤ m := by
  induction h with
  | none => exact Nat.le_refl _
  | round some batch stored rest ih => omega

/-- What holds at the end of the loop after `k` of `count` blocks from `n` on. -/
def EndsAt (exec : BlockExecutor) (db : Database) (limit count n k : Nat) (b : Db.Buffer) : LoopEnd → Prop
  | .finished => k = count ∧ (0 < k → b.batchSize < limit)
  | .full => 0 < k ∧ limit ≤ b.batchSize
  | .notFound => k < count ∧ readBlock db (n + k) true = .ok none ∧ (0 < k → b.batchSize < limit)
  | .invalid v => k < count ∧ (0 < k → b.batchSize < limit) ∧ ∃ bh rs cs, readBlock db (n + k) true = .ok (some bh) ∧
      exec db b bh.1 = .ok (rs, some v, cs)
  | .thrown e => k < count ∧ readBlock db (n + k) true = .err e ∧ (0 < k → b.batchSize < limit)

theorem executeLoop_spec (limit : Nat) (count : Nat) : ∀ (n : Nat) (b : Db.Buffer) (e : LoopEnd) (trace : List Nat) (b' : Db.Buffer),
    executeLoop exec limit wr db count n b = .ok (e, trace, b') →
    ∃ k, trace = List.range' n k ∧ k ≤ count ∧ Executes exec wr db n (n + k) b b' ∧
      (∀ j, 0 < j → j < k → ∀ bj, Executes exec wr db n (n + j) b bj → bj.batchSize < limit) ∧
      EndsAt exec db limit count n k b' e := by
  induction count with
  | zero =>
    intro n b e trace b' h
    obtain ⟨rfl, h2⟩ := Prod.mk.inj (Outcome.ok.inj h)
    obtain ⟨rfl, rfl⟩ := Prod.mk.inj h2
    exact ⟨0, rfl, Nat.le_refl _, .none _ _, fun j h1 h2 => absurd h2 (by omega), rfl, fun h => absurd h (by omega)⟩
  | succ count ih =>
    intro n b e trace b' h
    unfold executeLoop at h
    cases hr : readBlock db n true with
    | ub => rw [hr] at h; cases h
    | err x =>
      rw [hr] at h
      obtain ⟨rfl, h2⟩ := Prod.mk.inj (Outcome.ok.inj h)
      obtain ⟨rfl, rfl⟩ := Prod.mk.inj h2
      exact ⟨0, rfl, by omega, .none _ _, fun j h1 h2 => absurd h2 (by omega), by omega, hr, fun h => absurd h (by omega)⟩
    | ok o =>
      rw [hr] at h
      cases o with
      | none =>
        obtain ⟨rfl, h2⟩ := Prod.mk.inj (Outcome.ok.inj h)
        obtain ⟨rfl, rfl⟩ := Prod.mk.inj h2
        exact ⟨0, rfl, by omega, .none _ _, fun j h1 h2 => absurd h2 (by omega), by omega, hr, fun h => absurd h (by omega)⟩
      | some bh =>
        obtain ⟨block, hash⟩ := bh
        dsimp only at h
        cases hx : exec db b block with
        | ub => rw [hx] at h; cases h
        | err x => rw [hx] at h; cases h
        | ok r =>
          obtain ⟨receipts, v, calls⟩ := r
          rw [hx] at h
          cases v with
          | some v =>
            obtain ⟨rfl, h2⟩ := Prod.mk.inj (Outcome.ok.inj h)
            obtain ⟨rfl, rfl⟩ := Prod.mk.inj h2
            exact ⟨0, rfl, by omega, .none _ _, fun j h1 h2 => absurd h2 (by omega), by omega, fun h => absurd h (by omega),
              _, _, _, hr, hx⟩
          | none =>
            obtain ⟨b1, hb1, _⟩ := Db.Buffer.applyAll_spec calls b
            simp only [hb1] at h
            generalize hb2 : (if wr then b1.insertReceipts n receipts else b1) = b2 at h
            by_cases hl : limit ≤ b2.batchSize
            · rw [if_pos hl] at h
              obtain ⟨rfl, h2⟩ := Prod.mk.inj (Outcome.ok.inj h)
              obtain ⟨rfl, rfl⟩ := Prod.mk.inj h2
              refine ⟨1, rfl, by omega, .block hr hx hb1 (by rw [hb2]; exact .none _ _), fun j h1 h2 => absurd h2 (by omega),
                by omega, hl⟩
            · rw [if_neg hl] at h
              cases hrec : executeLoop exec limit wr db count (n + 1) b2 with
              | ub => rw [hrec] at h; cases h
              | err x => exact x.elim
              | ok q =>
                obtain ⟨e', trace', b3⟩ := q
                rw [hrec] at h
                obtain ⟨rfl, h2⟩ := Prod.mk.inj (Outcome.ok.inj h)
                obtain ⟨rfl, rfl⟩ := Prod.mk.inj h2
                obtain ⟨k, k1, k2, k3, k4, k5⟩ := ih _ _ _ _ _ hrec
                have hfirst : Executes exec wr db n (n + 1) b b2 := .block hr hx hb1 (by rw [hb2]; exact .none _ _)
                refine ⟨k + 1, by rw [List.range'_succ, ← k1], by omega, .block hr hx hb1 ?_, ?_, ?_⟩
                · rw [hb2, show n + (k + 1) = n + 1 + k by omega]
                  exact k3
                · intro j h1 h2 bj hj
                  by_cases h3 : j = 1
                  · subst h3
                    rw [hj.unique hfirst]
                    omega
                  · generalize hm : n + j = m at hj
                    cases hj with
                    | none => omega
                    | block r' v' c' rest' =>
                      rw [hr] at r'
                      have hb := (Prod.mk.inj (Option.some.inj (Outcome.ok.inj r'))).1
                      subst hb
                      rw [hx] at v'
                      have h3 := Prod.mk.inj (Outcome.ok.inj v')
                      have h4 := (Prod.mk.inj h3.2).2
                      obtain ⟨rfl, _⟩ := h3
                      subst h4
                      rw [hb1] at c'
                      have := Outcome.ok.inj c'
                      subst this
                      rw [hb2] at rest'
                      refine k4 (j - 1) (by omega) (by omega) bj ?_
                      rw [show n + 1 + (j - 1) = n + j by omega, hm]
                      exact rest'
                · have hk : 0 < k ∨ (k = 0 ∧ b3 = b2) := by
                    by_cases h0 : 0 < k
                    · exact .inl h0
                    · have : k = 0 := by omega
                      subst this
                      exact .inr ⟨rfl, k3.unique (.none _ _)⟩
                  have hlt : (0 < k → b3.batchSize < limit) → b3.batchSize < limit := by
                    intro hh
                    rcases hk with h0 | ⟨_, rfl⟩
                    · exact hh h0
                    · omega
                  have hn : n + 1 + k = n + (k + 1) := by omega
                  cases e' with
                  | finished => exact ⟨by rw [k5.1], fun _ => hlt k5.2⟩
                  | full => exact ⟨by omega, k5.2⟩
                  | notFound => exact ⟨by have := k5.1; omega, hn ▸ k5.2.1, fun _ => hlt k5.2.2⟩
                  | invalid v => exact ⟨by have := k5.1; omega, fun _ => hlt k5.2.1, hn ▸ k5.2.2⟩
                  | thrown x => exact ⟨by have := k5.1; omega, hn ▸ k5.2.1, fun _ => hlt k5.2.2⟩

/-- As long as the batch does not fill, the loop goes on after the blocks that have been executed. -/
theorem executeLoop_executes {limit n m : Nat} {b b' : Db.Buffer} (h : Executes exec wr db n m b b')
    (hl : ∀ j, n < j → j ≤ m → ∀ bj, Executes exec wr db n j b bj → bj.batchSize < limit) (c : Nat) :
    executeLoop exec limit wr db (c + (m - n)) n b =
      match executeLoop exec limit wr db c m b' with
      | .ub => .ub
      | .err e => e.elim
      | .ok r => .ok (r.1, List.range' n (m - n) ++ r.2.1, r.2.2) := by
  induction h with
  | none n b =>
    rw [Nat.sub_self, Nat.add_zero]
    cases executeLoop exec limit wr db c n b with
    | ub => rfl
    | err e => exact e.elim
    | ok r => rfl
  | @block n m b b1 b' block hash receipts calls hr hx hb rest ih =>
    have hle := rest.le
    have h1 : (if wr then b1.insertReceipts n receipts else b1).batchSize < limit :=
      hl (n + 1) (by omega) hle _ (.block hr hx hb (.none _ _))
    have ih := ih fun j h2 h3 bj hj => hl j (by omega) h3 bj (.block hr hx hb hj)
    rw [show c + (m - n) = (c + (m - (n + 1))) + 1 by omega, show m - n = (m - (n + 1)) + 1 by omega]
    conv => lhs; unfold executeLoop
    simp only [hr, hx, hb]
    rw [if_neg (by omega), ih]
    cases executeLoop exec limit wr db c m b' with
    | ub => rfl
    | err e => exact e.elim
    | ok r => rfl

/-- The batch is full after the last of these blocks. -/
theorem executeLoop_full {limit n m : Nat} {b b' : Db.Buffer} (h : Executes exec wr db n (m + 1) b b') (hnm : n ≤ m)
    (hl : ∀ j, n < j → j ≤ m → ∀ bj, Executes exec wr db n j b bj → bj.batchSize < limit) (hf : limit ≤ b'.batchSize) (c : Nat) :
    executeLoop exec limit wr db (c + (m + 1 - n)) n b = .ok (.full, List.range' n (m + 1 - n), b') := by
  generalize hm : m + 1 = m1 at h
  induction h with
  | none => omega
  | @block n m' b b1 b' block hash receipts calls hr hx hb rest ih =>
    subst hm
    rw [show c + (m + 1 - n) = (c + (m - n)) + 1 by omega, show m + 1 - n = (m - n) + 1 by omega]
    conv => lhs; unfold executeLoop
    simp only [hr, hx, hb]
    by_cases hn : n = m
    · subst hn
      have := rest.unique (.none _ _)
      rw [← this, if_pos hf, Nat.sub_self]
      rfl
    · have h1 : (if wr then b1.insertReceipts n receipts else b1).batchSize < limit :=
        hl (n + 1) (by omega) (by omega) _ (.block hr hx hb (.none _ _))
      rw [if_neg (by omega)]
      have := ih (by omega) (fun j h2 h3 bj hj => hl j (by omega) h3 bj (.block hr hx hb hj)) hf rfl
      rw [show c + (m - n) = c + (m + 1 - (n + 1)) by omega, this, show m + 1 - (n + 1) = m - n by omega]
      rfl

/-- Blocks are read from tables that `write_to_db` leaves alone. -/
theorem readBlock_writeToDb (b : Db.Buffer) (db : Database) (n : Nat) (s : Bool) :
    readBlock (b.writeToDb db) n s = readBlock db n s := rfl

theorem writeToDb_nothing {b : Db.Buffer} (h : nothingToWrite b = true) (db : Database) : b.writeToDb db = db := by
  unfold nothingToWrite at h
  simp only [Bool.and_eq_true, List.isEmpty_iff] at h
  obtain ⟨⟨⟨⟨⟨⟨⟨⟨h1, h2⟩, h3⟩, h4⟩, h5⟩, h6⟩, h7⟩, h8⟩, h9⟩ := h
  unfold Db.Buffer.writeToDb
  rw [h3, h4, h5, h6, h7, h8, h9]
  unfold Db.Buffer.writeToStateTable
  rw [h1, h2]
  rfl

end Silkworm.Stages
