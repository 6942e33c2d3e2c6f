import Verif.Tools.ScanTxs
import Verif.Properties.Checks
import Mathlib.Algebra.BigOperators.Intervals

/-!
# C150: counting failed transactions
-/

namespace Silkworm.Properties

open Silkworm.Db Silkworm.Stages Silkworm.Tools Silkworm.Spec Silkworm.Rlp
open scoped BigOperators

/-- Block `n` is there and is executed without a validation error, with these receipts. -/
def ScannedBlock (exec : Nat → BlockExecutor) (dbs : Nat → Database) (n : Nat) (receipts : List Receipt) : Prop :=
  ∃ bh calls b, readBlock (dbs n) n true = .ok (some bh) ∧ exec n (dbs n) {} bh.1 = .ok (receipts, none, calls) ∧
    ({} : Db.Buffer).applyAll calls = .ok b ∧ bh.1.transactions.length = receipts.length

/-- The failed ones. -/
def failedReceipts (rs : List Receipt) : Nat := (rs.filter (fun r => !r.success)).length

/-- The lines for blocks `first` to `stop - 1`: for each multiple of 50000 what the last 50000 of these blocks contain. -/
def scanLines (receipts : Nat → List Receipt) (first stop : Nat) : List (Nat × Nat × Nat) :=
  ((List.range' first (stop - first)).filter (fun m => m % 50000 = 0)).map (fun m =>
    (m, ∑ n ∈ Finset.Ico (max first (m - 49999)) (m + 1), (receipts n).length,
      ∑ n ∈ Finset.Ico (max first (m - 49999)) (m + 1), failedReceipts (receipts n)))

/-- What was counted and not printed before block `n`. -/
def scanCarry (f : Nat → Nat) (first n : Nat) : Nat := ∑ k ∈ Finset.Ico (max first ((n - 1) / 50000 * 50000 + 1)) n, f k

theorem carry_line (f : Nat → Nat) {first n : Nat} (h : first ≤ n) (hm : n % 50000 = 0) :
    scanCarry f first n + f n = ∑ k ∈ Finset.Ico (max first (n - 49999)) (n + 1), f k := by
  unfold scanCarry
  rcases Nat.eq_zero_or_pos n with rfl | hp
  · have : first = 0 := by omega
    subst this
    simp
  · have e : (n - 1) / 50000 * 50000 + 1 = n - 49999 := by omega
    rw [e, Finset.sum_Ico_succ_top (by omega)]

theorem carry_next (f : Nat → Nat) {first n : Nat} (h : first ≤ n) (hm : n % 50000 ≠ 0) :
    scanCarry f first (n + 1) = scanCarry f first n + f n := by
  unfold scanCarry
  have e : (n + 1 - 1) / 50000 * 50000 + 1 = (n - 1) / 50000 * 50000 + 1 := by omega
  rw [e, Finset.sum_Ico_succ_top (by omega)]

theorem carry_reset (f : Nat → Nat) {first n : Nat} (h : first ≤ n) (hm : n % 50000 = 0) : scanCarry f first (n + 1) = 0 := by
  unfold scanCarry
  have e : (n + 1 - 1) / 50000 * 50000 + 1 = n + 1 := by omega
  rw [e, Nat.max_eq_right (by omega), Finset.Ico_self, Finset.sum_empty]

theorem carry_first (f : Nat → Nat) (first : Nat) : scanCarry f first first = 0 := by
  unfold scanCarry
  rw [Finset.Ico_eq_empty (by omega), Finset.sum_empty]

theorem scanTxsLoop_lines (ndebug : Bool) (exec : Nat → BlockExecutor) (dbs : Nat → Database) (receipts : Nat → List Receipt) (first : Nat) :
    ∀ k n count, first ≤ n → k ≤ count → (∀ m, n ≤ m → m < n + k → ScannedBlock exec dbs m (receipts m)) →
      (k = count ∨ readBlock (dbs (n + k)) (n + k) true = .ok none) →
      scanTxsLoop ndebug exec dbs count n (scanCarry (fun n => (receipts n).length) first n)
          (scanCarry (fun n => failedReceipts (receipts n)) first n) =
        .ok { lines := ((List.range' n k).filter (fun m => m % 50000 = 0)).map (fun m =>
          (m, ∑ n ∈ Finset.Ico (max first (m - 49999)) (m + 1), (receipts n).length,
            ∑ n ∈ Finset.Ico (max first (m - 49999)) (m + 1), failedReceipts (receipts n))) }
  | 0, n, 0, _, _, _, _ => rfl
  | 0, n, count + 1, _, _, _, hend => by
    have h : readBlock (dbs n) n true = .ok none := hend.resolve_left (by omega)
    unfold scanTxsLoop
    rw [h]
    rfl
  | k + 1, n, 0, _, hk, _, _ => absurd hk (by omega)
  | k + 1, n, count + 1, hn, hk, hb, hend => by
    obtain ⟨bh, calls, b, h1, h2, h3, h4⟩ := hb n (Nat.le_refl _) (by omega)
    have ih := scanTxsLoop_lines ndebug exec dbs receipts first k (n + 1) count (by omega) (by omega)
      (fun m a b => hb m (by omega) (by omega)) (by
        rcases hend with h | h
        · left; omega
        · right; rw [Nat.add_right_comm, Nat.add_assoc]; exact h)
    unfold scanTxsLoop
    rw [h1]
    dsimp only
    rw [h2]
    dsimp only
    rw [if_neg (by decide), h3]
    dsimp only
    rw [h4, if_neg (by simp)]
    unfold scanLine
    by_cases hm : n % 50000 = 0
    · rw [if_pos hm]
      dsimp only
      rw [carry_reset _ hn hm, carry_reset _ hn hm] at ih
      rw [ih]
      dsimp only
      have e2 := carry_line (fun n => failedReceipts (receipts n)) hn hm
      have e2 : scanCarry (fun n => failedReceipts (receipts n)) first n + (List.filter (fun r => !r.success) (receipts n)).length = _ := e2
      rw [carry_line (fun n => (receipts n).length) hn hm, e2, List.range'_succ, List.filter_cons_of_pos (by simpa using hm), List.map_cons]
      rfl
    · rw [if_neg hm]
      dsimp only
      rw [carry_next _ hn hm, carry_next _ hn hm] at ih
      have ih := ih
      unfold failedReceipts at ih ⊢
      rw [ih]
      dsimp only
      rw [List.range'_succ, List.filter_cons_of_neg (by simpa using hm)]
      rfl

/-- C150, the lines: if the blocks from `first` on are there and valid up to `stop`, where the range or the chain ends, one line is
printed for each multiple of 50000, and the exit status is 0. The database may change between any two blocks. -/
theorem c150_lines (ndebug : Bool) (exec : Nat → BlockExecutor) (dbs : Nat → Database) (receipts : Nat → List Receipt)
    (first stop upTo : Nat) (h1 : first ≤ stop) (h2 : stop ≤ upTo)
    (hb : ∀ m, first ≤ m → m < stop → ScannedBlock exec dbs m (receipts m))
    (hend : stop = upTo ∨ readBlock (dbs stop) stop true = .ok none) :
    scanTxs ndebug true exec dbs first upTo = .ok ({ lines := scanLines receipts first stop }, some 0) := by
  have h := scanTxsLoop_lines ndebug exec dbs receipts first (stop - first) first (upTo - first) (Nat.le_refl _) (by omega)
    (fun m a b => hb m a (by omega)) (by
      rcases hend with h | h
      · left; omega
      · right; rw [show first + (stop - first) = stop by omega]; exact h)
  rw [carry_first, carry_first] at h
  unfold scanTxs
  rw [if_neg (by omega), if_neg (by decide), h]
  rfl

theorem lines_sum (receipts : Nat → List Receipt) (first : Nat) : ∀ k,
    ((scanLines receipts first (first + k)).map (fun l => l.2.1)).sum + scanCarry (fun n => (receipts n).length) first (first + k) =
      ∑ n ∈ Finset.Ico first (first + k), (receipts n).length
  | 0 => by rw [Nat.add_zero, carry_first]; simp [scanLines]
  | k + 1 => by
    have ih := lines_sum receipts first k
    unfold scanLines at ih ⊢
    rw [Nat.add_sub_cancel_left] at ih ⊢
    rw [← Nat.add_assoc, Finset.sum_Ico_succ_top (Nat.le_add_right _ _), ← ih, List.range'_concat, Nat.one_mul, List.filter_append,
      List.map_append, List.map_append, List.sum_append]
    by_cases hm : (first + k) % 50000 = 0
    · rw [carry_reset _ (Nat.le_add_right _ _) hm, List.filter_cons_of_pos (by simpa using hm)]
      simp only [List.filter_nil, List.map_cons, List.map_nil, List.sum_cons, List.sum_nil]
      rw [← carry_line (fun n => (receipts n).length) (Nat.le_add_right _ _) hm]
      omega
    · rw [carry_next _ (Nat.le_add_right _ _) hm, List.filter_cons_of_neg (by simpa using hm)]
      simp only [List.filter_nil, List.map_nil, List.sum_nil]
      omega

/-- C150, in full: the lines account for all transactions of the blocks. -/
def C150 : Prop := ∀ (ndebug : Bool) (exec : Nat → BlockExecutor) (dbs : Nat → Database) (receipts : Nat → List Receipt) (first stop : Nat),
  first ≤ stop → (∀ m, first ≤ m → m < stop → ScannedBlock exec dbs m (receipts m)) →
  ∃ r, scanTxs ndebug true exec dbs first stop = .ok (r, some 0) ∧
    (r.lines.map (fun l => l.2.1)).sum = ∑ n ∈ Finset.Ico first stop, (receipts n).length

/-- C150: the lines account for the transactions of all blocks but those after the last multiple of 50000. -/
theorem c150_sum_partial (ndebug : Bool) (exec : Nat → BlockExecutor) (dbs : Nat → Database) (receipts : Nat → List Receipt)
    (first stop : Nat) (h1 : first ≤ stop) (hb : ∀ m, first ≤ m → m < stop → ScannedBlock exec dbs m (receipts m)) :
    ∃ r, scanTxs ndebug true exec dbs first stop = .ok (r, some 0) ∧
      (r.lines.map (fun l => l.2.1)).sum + ∑ n ∈ Finset.Ico (max first ((stop - 1) / 50000 * 50000 + 1)) stop, (receipts n).length =
        ∑ n ∈ Finset.Ico first stop, (receipts n).length := by
  refine ⟨_, c150_lines ndebug exec dbs receipts first stop stop h1 (Nat.le_refl _) hb (.inl rfl), ?_⟩
  have := lines_sum receipts first (stop - first)
  rw [show first + (stop - first) = stop by omega] at this
  exact this

/-- C150: without a chain configuration, or with `--from` above `--to`, the exit status is -1 and nothing is printed. -/
theorem c150_refused (ndebug : Bool) (exec : Nat → BlockExecutor) (dbs : Nat → Database) (first upTo : Nat) :
    (first > upTo → ∀ configured, scanTxs ndebug configured exec dbs first upTo = .ok ({}, some (-1))) ∧
    (first ≤ upTo → scanTxs ndebug false exec dbs first upTo = .ok ({ ending := .thrown }, some (-1))) := by
  refine ⟨fun h c => ?_, fun h => ?_⟩
  · unfold scanTxs; rw [if_pos h]
  · unfold scanTxs; rw [if_neg (by omega), if_pos (by decide)]

/-- A database in which only block `n` can be read, with two transactions. -/
def exScanDb (n : Nat) : Database :=
  { exBlockDb with
    canonicalHashes := [(beFixed 8 n, List.replicate 32 0xaa)]
    headers := [(beFixed 8 n ++ List.replicate 32 0xaa, encodeBlockHeader exHeader false)]
    blockBodies := [(beFixed 8 n ++ List.replicate 32 0xaa, (⟨7, 2, [exHeader]⟩ : BlockBodyForStorage).encode)]
    senders := [(beFixed 8 n ++ List.replicate 32 0xaa, List.replicate 20 1 ++ List.replicate 20 2)] }

/-- Of the two transactions, one fails. -/
def exScanReceipts : List Receipt := [{ success := true, bloom := [], logs := [] }, { success := false, bloom := [], logs := [] }]

def exScanExec : Nat → BlockExecutor := fun _ _ _ _ => .ok (exScanReceipts, none, [])

example : scanTxs false true exScanExec exScanDb 49999 50002 = .ok ({ lines := [(50000, 4, 2)] }, some 0) := by decide +kernel
example : scanTxs false true exScanExec exScanDb 0 2 = .ok ({ lines := [(0, 2, 1)] }, some 0) := by decide +kernel
example : scanLines (fun _ => exScanReceipts) 49999 50002 = [(50000, 4, 2)] := by decide +kernel
-- The chain ends before the range does
example : scanTxs false true exScanExec (fun _ => exScanDb 50000) 50000 70000 = .ok ({ lines := [(50000, 2, 1)] }, some 0) := by
  decide +kernel

theorem exScan_blocks (m : Nat) (h : m = 5 ∨ m = 6) : ScannedBlock exScanExec exScanDb m exScanReceipts := by
  rcases h with rfl | rfl
  · refine ⟨(withSenders exBlockStored [List.replicate 20 1, List.replicate 20 2], List.replicate 32 0xaa), [], {}, ?_, rfl, rfl, by decide⟩
    decide +kernel
  · refine ⟨(withSenders exBlockStored [List.replicate 20 1, List.replicate 20 2], List.replicate 32 0xaa), [], {}, ?_, rfl, rfl, by decide⟩
    decide +kernel

/-- C150 is violated: what was counted since the last multiple of 50000 is never printed. Of a range without such a multiple, nothing
is printed at all. -/
theorem c150_violated :
    (∀ ndebug exec dbs (receipts : Nat → List Receipt) first stop, first ≤ stop →
      (∀ m, first ≤ m → m < stop → ScannedBlock exec dbs m (receipts m)) → (∀ m, first ≤ m → m < stop → m % 50000 ≠ 0) →
      scanTxs ndebug true exec dbs first stop = .ok ({}, some 0)) ∧
    scanTxs false true exScanExec exScanDb 5 7 = .ok ({}, some 0) ∧ ¬ C150 := by
  have key : ∀ ndebug exec dbs (receipts : Nat → List Receipt) first stop, first ≤ stop →
      (∀ m, first ≤ m → m < stop → ScannedBlock exec dbs m (receipts m)) → (∀ m, first ≤ m → m < stop → m % 50000 ≠ 0) →
      scanTxs ndebug true exec dbs first stop = .ok ({}, some 0) := by
    intro ndebug exec dbs receipts first stop h1 h2 h3
    rw [c150_lines ndebug exec dbs receipts first stop stop h1 (Nat.le_refl _) h2 (.inl rfl)]
    have : scanLines receipts first stop = [] := by
      unfold scanLines
      rw [List.map_eq_nil_iff, List.filter_eq_nil_iff]
      intro m hm
      obtain ⟨a, b⟩ := List.mem_range'_1.mp hm
      simpa using h3 m a (by omega)
    rw [this]
  have hb : ∀ m, 5 ≤ m → m < 7 → ScannedBlock exScanExec exScanDb m exScanReceipts := fun m a b => exScan_blocks m (by omega)
  have h57 := key false exScanExec exScanDb (fun _ => exScanReceipts) 5 7 (by decide) hb (by omega)
  refine ⟨key, h57, fun h => ?_⟩
  obtain ⟨r, e1, e2⟩ := h false exScanExec exScanDb (fun _ => exScanReceipts) 5 7 (by decide) hb
  rw [h57] at e1
  rw [← (Prod.mk.inj (Outcome.ok.inj e1)).1] at e2
  exact absurd e2 (by decide +kernel)

/-- An executor that finds every block invalid, after one transaction. -/
def exScanInvalid : Nat → BlockExecutor := fun _ _ _ _ => .ok (exScanReceipts.take 1, some .wrongNonce, [])

/-- C150 is violated by blocks that are not valid: without assertions the command goes on, counts the transactions before the error and
reports success; with them it is aborted. -/
theorem c150_invalid_violated :
    scanTxs true true exScanInvalid exScanDb 49999 50001 = .ok ({ lines := [(50000, 2, 0)], invalid := [49999, 50000] }, some 0) ∧
    scanTxs false true exScanInvalid exScanDb 49999 50001 = .ok ({ invalid := [49999], ending := .aborted }, none) := by
  decide +kernel

end Silkworm.Properties
