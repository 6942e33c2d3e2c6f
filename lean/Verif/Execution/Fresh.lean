import Verif.Execution.Totals
import Verif.Execution.BlockLemmas

/-!
# The state at the beginning and at the end of a transaction

Helper lemmas.
-/

namespace Silkworm.Evm

open IntraBlockState
open Spec.Execution

variable {env : Env}

/-- Everything but balances, nonces and what has been accessed. -/
structure Frame (db : StateReader) (s t : IntraBlockState) : Prop where
  orig : (view db t).orig = (view db s).orig
  curv : (view db t).curv = (view db s).curv
  refund : t.refund = s.refund
  selfDestructs : t.selfDestructs = s.selfDestructs
  logs : t.logs = s.logs

theorem Frame.trans {db : StateReader} {s t u : IntraBlockState} (h : Frame db s t) (g : Frame db t u) : Frame db s u :=
  ⟨g.orig.trans h.orig, g.curv.trans h.curv, g.refund.trans h.refund, g.selfDestructs.trans h.selfDestructs,
    g.logs.trans h.logs⟩

theorem Frame.refl (db : StateReader) (s : IntraBlockState) : Frame db s s := ⟨rfl, rfl, rfl, rfl, rfl⟩

/-- Frames from views. -/
theorem Frame.of {db : StateReader} {s t : IntraBlockState} {v : View} (h : view db t = v)
    (h1 : v.orig = (view db s).orig ∧ v.curv = (view db s).curv ∧ v.refund = (view db s).refund ∧
      v.selfDestructs = (view db s).selfDestructs ∧ v.logs = (view db s).logs) : Frame db s t := by
  subst h
  exact ⟨h1.1, h1.2.1, h1.2.2.1, h1.2.2.2.1, h1.2.2.2.2⟩

theorem touch_frame (v w : View) (a : Bytes)
    (h : v.orig = w.orig ∧ v.curv = w.curv ∧ v.refund = w.refund ∧ v.selfDestructs = w.selfDestructs ∧ v.logs = w.logs) :
    (v.touch a).orig = w.orig ∧ (v.touch a).curv = w.curv ∧ (v.touch a).refund = w.refund ∧
      (v.touch a).selfDestructs = w.selfDestructs ∧ (v.touch a).logs = w.logs := by
  unfold View.touch
  split <;> exact h

theorem addToBalance_frame (db : StateReader) (s : IntraBlockState) (a : Bytes) (x : Nat) : Frame db s (addToBalance db s a x) :=
  .of (addToBalance_view s a x) (touch_frame _ _ _ ⟨rfl, rfl, rfl, rfl, rfl⟩)

theorem subtractFromBalance_frame (db : StateReader) (s : IntraBlockState) (a : Bytes) (x : Nat) :
    Frame db s (subtractFromBalance db s a x) :=
  .of (subtractFromBalance_view s a x) (touch_frame _ _ _ ⟨rfl, rfl, rfl, rfl, rfl⟩)

theorem setNonce_frame (db : StateReader) (s : IntraBlockState) (a : Bytes) (x : Nat) : Frame db s (setNonce db s a x) :=
  .of (setNonce_view s a x) ⟨rfl, rfl, rfl, rfl, rfl⟩

theorem accessAccount_frame (db : StateReader) (s : IntraBlockState) (a : Bytes) : Frame db s (s.accessAccount a).2 :=
  .of (accessAccount_view s a) ⟨rfl, rfl, rfl, rfl, rfl⟩

theorem accessStorage_frame (db : StateReader) (s : IntraBlockState) (a k : Bytes) : Frame db s (s.accessStorage a k).2 :=
  .of (accessStorage_view s a k) ⟨rfl, rfl, rfl, rfl, rfl⟩

theorem warmAccessList_frame (db : StateReader) (s : IntraBlockState) (l : List AccessListEntry) :
    Frame db s (warmAccessList s l) := by
  unfold warmAccessList
  induction l generalizing s with
  | nil => exact .refl _ _
  | cons e l ih =>
    rw [List.foldl_cons]
    have inner : ∀ (ks : List Bytes) (s : IntraBlockState),
        Frame db s (ks.foldl (fun s k => (s.accessStorage e.account k).2) s) := by
      intro ks
      induction ks with
      | nil => intro s; exact .refl _ _
      | cons k ks ih => intro s; exact (accessStorage_frame db s e.account k).trans (ih _)
    exact ((accessAccount_frame db s e.account).trans (inner _ _)).trans (ih _)

theorem beginTransaction_frame (txn : Transaction) (sender : Bytes) (price : Nat) (s : IntraBlockState) :
    Frame env.db s.clearJournalAndSubstate (beginTransaction env txn sender price s) := by
  unfold beginTransaction
  dsimp only
  refine Frame.trans ?_ (warmAccessList_frame _ _ _)
  have h := (accessAccount_frame env.db s.clearJournalAndSubstate sender).trans
    (subtractFromBalance_frame env.db _ sender (mul256 txn.gasLimit price))
  cases txn.to with
  | none => exact h
  | some b => exact (h.trans (accessAccount_frame env.db _ b)).trans (setNonce_frame env.db _ _ _)

/-- Nothing has been written since the beginning of the transaction. -/
def Settled (db : StateReader) (s : IntraBlockState) : Prop := (view db s).orig = (view db s).curv

theorem Settled.begin {s : IntraBlockState} (h : Settled env.db s) (txn : Transaction) (sender : Bytes) (price : Nat) :
    Settled env.db (beginTransaction env txn sender price s) := by
  have f := beginTransaction_frame (env := env) txn sender price s
  unfold Settled
  rw [f.orig, f.curv]
  exact h

theorem settled_end (s : IntraBlockState) : Settled env.db (endTransaction env s) := by
  unfold endTransaction Settled
  dsimp only
  rw [finalize_view]
  rfl

theorem settled_empty : Settled env.db {} := rfl

theorem settled_slot {s : IntraBlockState} (h : Settled env.db s) (a k : Bytes) :
    slot env.db s a k = originalSlot env.db s a k := by
  rw [slot_view, originalSlot_view, show (view env.db s).orig = (view env.db s).curv from h]

end Silkworm.Evm
