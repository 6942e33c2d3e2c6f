import Verif.Execution.Fresh

/-!
# Property C38: the status of storage writes and the refund counter
-/

namespace Silkworm.Properties

open Evm
open Spec.Execution
open IntraBlockState (view)

/-- C38: for every original, current and new value the status reported to the interpreter makes it charge what the rules of
the revision say, and the refund counter, a 64-bit number, changes by what they say. -/
theorem c38_status (env : Env) (s : IntraBlockState) (hr : s.refund < 2 ^ 64) (a k v : Bytes) :
    statusCharge (schedule env.revision).net (setStorage env s a k v).1 =
      sstoreCharge (schedule env.revision) (originalSlot env.db s a k) (slot env.db s a k) v ∧
    ((setStorage env s a k v).2.refund : Int) =
      (s.refund + sstoreRefund (schedule env.revision) (originalSlot env.db s a k) (slot env.db s a k) v) % 2 ^ 64 := by
  obtain ⟨h1, h2⟩ := setStorage_eq (env := env) s hr a k v
  refine ⟨h1, ?_⟩
  rw [show (setStorage env s a k v).2.refund = _ from congrArg IntraBlockState.View.refund h2]
  exact wrapped_cast _ _

/-- C38: over any sequence of writes in one transaction, with scopes of which some are reverted, the slots have the values
that were written last, their original values do not change, the refund counter equals the total of the specification, and
this total is not negative. With net metering the counter has at least the refund for clearing of every slot that
is now cleared, so the subtraction of this refund does not wrap. -/
theorem c38_session (env : Env) (s : IntraBlockState) (w : Writes) (h0 : s.refund = 0)
    (hs : ∀ a k, slot env.db s a k = originalSlot env.db s a k) (hl : ∀ a ∈ w.accounts, live env.db s a = true) :
    (∀ a k, slot env.db (runWrites env w s) a k =
      (w.meter (schedule env.revision) (originalSlot env.db s) ⟨slot env.db s, 0⟩).current a k) ∧
    (∀ a k, originalSlot env.db (runWrites env w s) a k = originalSlot env.db s a k) ∧
    ((runWrites env w s).refund : Int) =
      (w.meter (schedule env.revision) (originalSlot env.db s) ⟨slot env.db s, 0⟩).counter % 2 ^ 64 ∧
    0 ≤ (w.meter (schedule env.revision) (originalSlot env.db s) ⟨slot env.db s, 0⟩).counter ∧
    ((schedule env.revision).net = true → ∀ a k, originalSlot env.db s a k ≠ zero32 →
      slot env.db (runWrites env w s) a k = zero32 →
      (schedule env.revision).clears ≤
        (w.meter (schedule env.revision) (originalSlot env.db s) ⟨slot env.db s, 0⟩).counter) := by
  have hm : Metered env (originalSlot env.db s) s ⟨slot env.db s, 0⟩ :=
    ⟨fun _ _ => rfl, fun _ _ => rfl, by rw [h0]; decide, by rw [h0]; rfl⟩
  have h := hm.writes w hl (fun g => Steps.alive g)
  refine ⟨h.current, h.original, h.counter, ?_, ?_⟩
  · by_cases hn : (schedule env.revision).net = true
    · have hc : Covered (schedule env.revision) (originalSlot env.db s) ⟨slot env.db s, 0⟩ := by
        intro l _ hp
        cases l with
        | nil => exact Int.le_of_eq (Int.mul_zero _)
        | cons p l =>
          obtain ⟨h1, h2⟩ := hp p (List.mem_cons_self ..)
          exact absurd ((hs p.1 p.2).symm.trans h2) h1
      have := hc.writes_net env.revision hn w [] List.nodup_nil (fun _ hp => nomatch hp)
      rwa [List.length_nil, Int.natCast_zero, Int.mul_zero] at this
    · exact counter_gross env.revision (by simpa using hn) (originalSlot env.db s) w ⟨slot env.db s, 0⟩
  · intro hn a k ho hz
    have hc : Covered (schedule env.revision) (originalSlot env.db s) ⟨slot env.db s, 0⟩ := by
      intro l _ hp
      cases l with
      | nil => exact Int.le_of_eq (Int.mul_zero _)
      | cons p l =>
        obtain ⟨h1, h2⟩ := hp p (List.mem_cons_self ..)
        exact absurd ((hs p.1 p.2).symm.trans h2) h1
    have := hc.writes_net env.revision hn w [(a, k)] (List.nodup_cons.mpr ⟨List.not_mem_nil, List.nodup_nil⟩) (by
      intro p hp
      rw [List.mem_singleton] at hp
      subst hp
      exact ⟨ho, by rw [← h.current]; exact hz⟩)
    rwa [List.length_singleton, Int.natCast_one, Int.mul_one] at this

/-- C38: every transaction starts as `c38_session` requires: with a counter of zero, and with slots whose original values are
the present ones; after any number of transactions, or in a new state. -/
theorem c38_fresh (env : Env) (txn : Transaction) (sender : Bytes) (price : Nat) (before : Option IntraBlockState) :
    (beginTransaction env txn sender price ((before.map (endTransaction env)).getD {})).refund = 0 ∧
    ∀ a k, slot env.db (beginTransaction env txn sender price ((before.map (endTransaction env)).getD {})) a k =
      originalSlot env.db (beginTransaction env txn sender price ((before.map (endTransaction env)).getD {})) a k := by
  have h : Settled env.db ((before.map (endTransaction env)).getD {}) := by
    cases before with
    | none => exact settled_empty
    | some s => exact settled_end s
  exact ⟨(beginTransaction_frame txn sender price _).refund, settled_slot (h.begin txn sender price)⟩

/-! ## Examples -/

/-- A contract with two slots. -/
def exMeterDb : StateReader where
  readAccount a := if a = List.replicate 20 7 then some { nonce := 1, codeHash := beFixed 32 5, incarnation := 1 } else none
  readCode _ := [0]
  readStorage a _ k := if a = List.replicate 20 7 ∧ k = beFixed 32 1 then beFixed 32 11 else zero32
  previousIncarnation _ := 0

/-- Primitives for examples. -/
def exMeterCrypto : Precompiled.Crypto where
  keccak b := beFixed 32 b.length
  sha256 b := b
  ripemd160 b := b
  recover _ _ _ := none
  bnAdd _ := none
  bnMul _ := none
  pairing _ := none
  blake2Compress h _ _ _ _ := h

/-- An environment in which the given fork is the last. -/
def exMeterEnv (rev : Nat) : Env where
  crypto := exMeterCrypto
  db := exMeterDb
  readHeader _ _ := none
  config := { chainId := 1, forkBlocks := List.replicate rev (some 0) ++ List.replicate (10 - rev) none }
  block := { header := { number := 5 }, transactions := [], ommers := [] }
  interpreter _ msg _ := .done { status := .success, gasLeft := msg.gas }

/-- Clear slot 1, set it to something else and back, in a scope that is reverted or not; set slot 2 and clear it. -/
def exMeterWrites (reverted : Bool) : Writes :=
  .write (List.replicate 20 7) (beFixed 32 1) zero32
    (.scope (.write (List.replicate 20 7) (beFixed 32 1) (beFixed 32 12)
      (.write (List.replicate 20 7) (beFixed 32 1) (beFixed 32 11) .done)) reverted
      (.write (List.replicate 20 7) (beFixed 32 2) (beFixed 32 3)
        (.write (List.replicate 20 7) (beFixed 32 2) zero32 .done)))

/-- A write of the example. -/
def exMeterStatus (rev : Nat) (k v : Nat) : StorageStatus :=
  (setStorage (exMeterEnv rev) {} (List.replicate 20 7) (beFixed 32 k) (beFixed 32 v)).1

example : exMeterStatus 7 1 0 = .modified ∧ exMeterStatus 7 1 5 = .modified ∧ exMeterStatus 7 1 11 = .unchanged ∧
    exMeterStatus 7 2 1 = .added ∧ exMeterStatus 6 2 0 = .unchanged ∧ exMeterStatus 6 1 0 = .deleted ∧
    sstoreCharge (schedule 7) (beFixed 32 11) zero32 (beFixed 32 1) = .noop ∧
    sstoreRefund (schedule 7) (beFixed 32 11) zero32 (beFixed 32 1) = -15000 ∧
    sstoreRefund (schedule 8) (beFixed 32 11) zero32 (beFixed 32 11) = -15000 + 2800 := by decide +kernel

example : (exMeterWrites true).accounts.all (live exMeterDb {}) = true ∧
    (runWrites (exMeterEnv 7) (exMeterWrites true) {}).refund = 15000 + 19200 ∧
    (runWrites (exMeterEnv 7) (exMeterWrites false) {}).refund = 4200 + 19200 ∧
    (runWrites (exMeterEnv 9) (exMeterWrites true) {}).refund = 4800 + 19900 ∧
    (runWrites (exMeterEnv 6) (exMeterWrites false) {}).refund = 30000 ∧
    slot exMeterDb (runWrites (exMeterEnv 7) (exMeterWrites true) {}) (List.replicate 20 7) (beFixed 32 1) = zero32 ∧
    slot exMeterDb (runWrites (exMeterEnv 7) (exMeterWrites false) {}) (List.replicate 20 7) (beFixed 32 1) =
      beFixed 32 11 := by decide +kernel

/-- The second transaction sees what the first has written as the original value. -/
example : originalSlot exMeterDb (beginTransaction (exMeterEnv 7) { «to» := none } (List.replicate 20 9) 0
      (endTransaction (exMeterEnv 7) (runWrites (exMeterEnv 7) (exMeterWrites true) {}))) (List.replicate 20 7) (beFixed 32 1) =
    zero32 := by decide +kernel

end Silkworm.Properties
