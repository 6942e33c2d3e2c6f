import Verif.Spec.Execution
import Verif.State.Shape

/-!
# Accounts and balances in the cache-free view

Helper lemmas.
-/

namespace Silkworm.IntraBlockState

open State

/-- Balance in a view. -/
def View.bal (v : View) (a : Bytes) : Nat := ((v.cur a).map (·.balance)).getD 0

/-- Nonce in a view. -/
def View.nonce (v : View) (a : Bytes) : Nat := ((v.cur a).map (·.nonce)).getD 0

/-- Code hash in a view. -/
def View.hash (v : View) (a : Bytes) : Bytes := ((v.cur a).map (·.codeHash)).getD kEmptyHash

theorem View.cur_modify (v : View) (a : Bytes) (f : Account → Account) (b : Bytes) :
    (v.modify a f).cur b = if b = a then some (f ((v.cur a).getD {})) else v.cur b := by
  unfold View.modify View.cur upd
  dsimp only
  by_cases h : b = a
  · rw [if_pos h, if_pos h]; rfl
  · rw [if_neg h, if_neg h]

@[simp] theorem View.cur_touch (v : View) (a b : Bytes) : (v.touch a).cur b = v.cur b := by
  unfold View.touch
  split <;> rfl

theorem View.bal_getD (v : View) (a : Bytes) : v.bal a = ((v.cur a).getD {}).balance := by
  unfold View.bal
  cases v.cur a <;> rfl

theorem View.nonce_getD (v : View) (a : Bytes) : v.nonce a = ((v.cur a).getD {}).nonce := by
  unfold View.nonce
  cases v.cur a <;> rfl

theorem View.hash_getD (v : View) (a : Bytes) : v.hash a = ((v.cur a).getD {}).codeHash := by
  unfold View.hash
  cases v.cur a <;> rfl

theorem View.bal_modify (v : View) (a : Bytes) (f : Account → Account) (b : Bytes) :
    (v.modify a f).bal b = if b = a then (f ((v.cur a).getD {})).balance else v.bal b := by
  unfold View.bal
  rw [View.cur_modify]
  split <;> rfl

theorem View.nonce_modify (v : View) (a : Bytes) (f : Account → Account) (b : Bytes) :
    (v.modify a f).nonce b = if b = a then (f ((v.cur a).getD {})).nonce else v.nonce b := by
  unfold View.nonce
  rw [View.cur_modify]
  split <;> rfl

theorem View.hash_modify (v : View) (a : Bytes) (f : Account → Account) (b : Bytes) :
    (v.modify a f).hash b = if b = a then (f ((v.cur a).getD {})).codeHash else v.hash b := by
  unfold View.hash
  rw [View.cur_modify]
  split <;> rfl

@[simp] theorem View.bal_touch (v : View) (a b : Bytes) : (v.touch a).bal b = v.bal b := by
  unfold View.bal; rw [View.cur_touch]

@[simp] theorem View.nonce_touch (v : View) (a b : Bytes) : (v.touch a).nonce b = v.nonce b := by
  unfold View.nonce; rw [View.cur_touch]

@[simp] theorem View.hash_touch (v : View) (a b : Bytes) : (v.touch a).hash b = v.hash b := by
  unfold View.hash; rw [View.cur_touch]

variable {db : StateReader}

open Spec.Execution (balance nonce codeHash live slot originalSlot)

theorem balance_view (s : IntraBlockState) (a : Bytes) : balance db s a = (view db s).bal a := by
  obtain ⟨s', h, _⟩ := getBalance_eq (db := db) s a
  unfold balance
  rw [h]
  rfl

theorem nonce_view (s : IntraBlockState) (a : Bytes) : nonce db s a = (view db s).nonce a := by
  obtain ⟨s', h, _⟩ := getNonce_eq (db := db) s a
  unfold nonce
  rw [h]
  rfl

theorem codeHash_view (s : IntraBlockState) (a : Bytes) : codeHash db s a = (view db s).hash a := by
  obtain ⟨s', h, _⟩ := getCodeHash_eq (db := db) s a
  unfold codeHash
  rw [h]
  rfl

theorem live_view (s : IntraBlockState) (a : Bytes) : live db s a = ((view db s).cur a).isSome := by
  obtain ⟨s', h, _⟩ := exists?_eq (db := db) s a
  unfold live
  rw [h]
  rfl

theorem addToBalance_view (s : IntraBlockState) (a : Bytes) (x : Nat) :
    view db (addToBalance db s a x) =
      ((view db s).modify a (fun c => { c with balance := (c.balance + x) % 2 ^ 256 })).touch a := by
  unfold addToBalance
  rw [touch_view, modifyCurrent_view]
  exact fun _ => rfl

theorem subtractFromBalance_view (s : IntraBlockState) (a : Bytes) (x : Nat) :
    view db (subtractFromBalance db s a x) =
      ((view db s).modify a (fun c => { c with balance := (c.balance + (2 ^ 256 - x % 2 ^ 256)) % 2 ^ 256 })).touch a := by
  unfold subtractFromBalance
  rw [touch_view, modifyCurrent_view]
  exact fun _ => rfl

theorem setBalance_view (s : IntraBlockState) (a : Bytes) (x : Nat) :
    view db (setBalance db s a x) = ((view db s).modify a (fun c => { c with balance := x })).touch a := by
  unfold setBalance
  rw [touch_view, modifyCurrent_view]
  exact fun _ => rfl

theorem setNonce_view (s : IntraBlockState) (a : Bytes) (x : Nat) :
    view db (setNonce db s a x) = (view db s).modify a (fun c => { c with nonce := x }) := by
  unfold setNonce
  rw [modifyCurrent_view]
  exact fun _ => rfl

theorem bal_addToBalance (s : IntraBlockState) (a : Bytes) (x : Nat) (b : Bytes) :
    (view db (addToBalance db s a x)).bal b = if b = a then ((view db s).bal a + x) % 2 ^ 256 else (view db s).bal b := by
  rw [addToBalance_view, View.bal_touch, View.bal_modify, View.bal_getD (a := a)]

theorem bal_subtractFromBalance (s : IntraBlockState) (a : Bytes) (x : Nat) (b : Bytes) :
    (view db (subtractFromBalance db s a x)).bal b =
      if b = a then ((view db s).bal a + (2 ^ 256 - x % 2 ^ 256)) % 2 ^ 256 else (view db s).bal b := by
  rw [subtractFromBalance_view, View.bal_touch, View.bal_modify, View.bal_getD (a := a)]

theorem bal_setBalance (s : IntraBlockState) (a : Bytes) (x : Nat) (b : Bytes) :
    (view db (setBalance db s a x)).bal b = if b = a then x else (view db s).bal b := by
  rw [setBalance_view, View.bal_touch, View.bal_modify]

theorem bal_setNonce (s : IntraBlockState) (a : Bytes) (x : Nat) (b : Bytes) :
    (view db (setNonce db s a x)).bal b = (view db s).bal b := by
  rw [setNonce_view, View.bal_modify]
  split
  · next h => rw [View.bal_getD, h]
  · rfl

theorem nonce_addToBalance (s : IntraBlockState) (a : Bytes) (x : Nat) (b : Bytes) :
    (view db (addToBalance db s a x)).nonce b = (view db s).nonce b := by
  rw [addToBalance_view, View.nonce_touch, View.nonce_modify]
  split
  · next h => rw [View.nonce_getD, h]
  · rfl

theorem hash_addToBalance (s : IntraBlockState) (a : Bytes) (x : Nat) (b : Bytes) :
    (view db (addToBalance db s a x)).hash b = (view db s).hash b := by
  rw [addToBalance_view, View.hash_touch, View.hash_modify]
  split
  · next h => rw [View.hash_getD, h]
  · rfl

theorem nonce_subtractFromBalance (s : IntraBlockState) (a : Bytes) (x : Nat) (b : Bytes) :
    (view db (subtractFromBalance db s a x)).nonce b = (view db s).nonce b := by
  rw [subtractFromBalance_view, View.nonce_touch, View.nonce_modify]
  split
  · next h => rw [View.nonce_getD, h]
  · rfl

theorem hash_subtractFromBalance (s : IntraBlockState) (a : Bytes) (x : Nat) (b : Bytes) :
    (view db (subtractFromBalance db s a x)).hash b = (view db s).hash b := by
  rw [subtractFromBalance_view, View.hash_touch, View.hash_modify]
  split
  · next h => rw [View.hash_getD, h]
  · rfl

theorem nonce_setNonce (s : IntraBlockState) (a : Bytes) (x : Nat) (b : Bytes) :
    (view db (setNonce db s a x)).nonce b = if b = a then x else (view db s).nonce b := by
  rw [setNonce_view, View.nonce_modify]

theorem clear_view (s : IntraBlockState) :
    view db s.clearJournalAndSubstate =
      { view db s with selfDestructs := [], logs := [], touched := [], ripemd := false, refund := 0, accessedAddresses := [],
                       keys := keysOf s.clearJournalAndSubstate } := rfl

end Silkworm.IntraBlockState
