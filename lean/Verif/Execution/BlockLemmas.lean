import Verif.Execution.Balances
import Verif.Chain.Lemmas

/-!
# Validation of transactions, hashes of ancestors, rewards

Helper lemmas.
-/

namespace Silkworm.Evm

open IntraBlockState
open Spec.Execution (balance nonce codeHash live ancestor)

/-! ## Prices -/

theorem effectiveGasPrice_le {t : Transaction} {fee : Nat} (h : fee ≤ t.maxFeePerGas) (hm : t.maxFeePerGas < 2 ^ 256) :
    t.priorityFeePerGas fee = .ok (min t.maxPriorityFeePerGas (t.maxFeePerGas - fee)) ∧
    t.effectiveGasPrice fee = .ok (min t.maxPriorityFeePerGas (t.maxFeePerGas - fee) + fee) := by
  have h1 : t.priorityFeePerGas fee = .ok (min t.maxPriorityFeePerGas (t.maxFeePerGas - fee)) := by
    unfold Transaction.priorityFeePerGas
    rw [if_pos h]
  refine ⟨h1, ?_⟩
  unfold Transaction.effectiveGasPrice
  rw [h1]
  show Outcome.ok _ = _
  congr 1
  exact Nat.mod_eq_of_lt (by omega)

/-! ## Before the EVM runs -/

/-- Two views with the same accounts. -/
def SameAccounts (v w : View) : Prop := v.obj = w.obj

theorem warmAccessList_obj {db : StateReader} (s : IntraBlockState) (l : List AccessListEntry) :
    (view db (warmAccessList s l)).obj = (view db s).obj := by
  unfold warmAccessList
  induction l generalizing s with
  | nil => rfl
  | cons e l ih =>
    rw [List.foldl_cons, ih]
    have inner : ∀ (ks : List Bytes) (s : IntraBlockState),
        (view db (ks.foldl (fun s k => (s.accessStorage e.account k).2) s)).obj = (view db s).obj := by
      intro ks
      induction ks with
      | nil => intro s; rfl
      | cons k ks ih =>
        intro s
        rw [List.foldl_cons, ih]
        have h := accessStorage_view (db := db) s e.account k
        rw [h]
    rw [inner]
    have h := accessAccount_view (db := db) s e.account
    rw [h]

theorem bal_of_obj {v w : View} (h : v.obj = w.obj) (a : Bytes) : v.bal a = w.bal a := by
  unfold View.bal View.cur
  rw [h]

theorem nonce_of_obj {v w : View} (h : v.obj = w.obj) (a : Bytes) : v.nonce a = w.nonce a := by
  unfold View.nonce View.cur
  rw [h]

theorem accessAccount_obj {db : StateReader} (s : IntraBlockState) (a : Bytes) :
    (view db (s.accessAccount a).2).obj = (view db s).obj := by
  have h := accessAccount_view (db := db) s a
  rw [h]

theorem beginTransaction_bal (env : Env) (txn : Transaction) (sender : Bytes) (price : Nat) (s : IntraBlockState)
    (b : Bytes) :
    (view env.db (beginTransaction env txn sender price s)).bal b =
      if b = sender then ((view env.db s).bal sender + (2 ^ 256 - mul256 txn.gasLimit price % 2 ^ 256)) % 2 ^ 256
      else (view env.db s).bal b := by
  unfold beginTransaction
  dsimp only
  rw [bal_of_obj (warmAccessList_obj _ _)]
  have h0 : ∀ c, (view env.db (s.clearJournalAndSubstate.accessAccount sender).2).bal c = (view env.db s).bal c :=
    fun c => bal_of_obj (accessAccount_obj _ _) c
  have key : (view env.db (subtractFromBalance env.db (s.clearJournalAndSubstate.accessAccount sender).2 sender
      (mul256 txn.gasLimit price))).bal b =
      if b = sender then ((view env.db s).bal sender + (2 ^ 256 - mul256 txn.gasLimit price % 2 ^ 256)) % 2 ^ 256
      else (view env.db s).bal b := by
    rw [bal_subtractFromBalance, h0, h0]
  cases txn.to with
  | none => exact key
  | some rcp =>
    dsimp only
    rw [bal_setNonce, bal_of_obj (accessAccount_obj _ _)]
    exact key

theorem beginTransaction_nonce (env : Env) (txn : Transaction) (sender : Bytes) (price : Nat) (s : IntraBlockState)
    (b : Bytes) :
    (view env.db (beginTransaction env txn sender price s)).nonce b =
      if b = sender ∧ txn.to.isSome then (txn.nonce + 1) % 2 ^ 64 else (view env.db s).nonce b := by
  unfold beginTransaction
  dsimp only
  rw [nonce_of_obj (warmAccessList_obj _ _)]
  have h0 : ∀ c, (view env.db (s.clearJournalAndSubstate.accessAccount sender).2).nonce c = (view env.db s).nonce c :=
    fun c => nonce_of_obj (accessAccount_obj _ _) c
  cases txn.to with
  | none =>
    dsimp only
    rw [nonce_subtractFromBalance, h0, if_neg (by simp)]
  | some rcp =>
    dsimp only
    rw [nonce_setNonce, nonce_of_obj (accessAccount_obj _ _), nonce_subtractFromBalance, h0]
    by_cases h : b = sender
    · rw [if_pos h, if_pos ⟨h, rfl⟩]
    · rw [if_neg h, if_neg (fun x => h x.1)]

/-! ## Hashes of ancestors -/

/-- What is in the cache. -/
def CacheOk (env : Env) (cache : List Bytes) : Prop :=
  ∀ i < cache.length, cache.getD i zero32 = (ancestor env.readHeader env.block.header i).getD zero32

theorem ancestor_none {rh : Nat → Bytes → Option BlockHeader} {h : BlockHeader} {i j : Nat} (hi : ancestor rh h i = none)
    (hj : i ≤ j) : ancestor rh h j = none := by
  induction j with
  | zero => rw [show i = 0 by omega] at hi; exact hi
  | succ j ih =>
    by_cases e : i = j + 1
    · rw [← e]; exact hi
    · have := ih (by omega)
      unfold ancestor
      rw [this]

theorem getD_set_self {l : List Bytes} {i : Nat} (h : i < l.length) (x d : Bytes) : (l.set i x).getD i d = x := by
  simp [List.getD_eq_getElem?_getD, h]

theorem getD_set_ne {l : List Bytes} {i j : Nat} (h : j ≠ i) (x d : Bytes) : (l.set i x).getD j d = l.getD j d := by
  simp [List.getD_eq_getElem?_getD, List.getElem?_set, Ne.symm h]

theorem fillHashes_ok (env : Env) (hz : ∀ n, env.readHeader n zero32 = none) (hb : env.block.header.number < 2 ^ 64)
    (count i : Nat) (l : List Bytes) (hi : 1 ≤ i) (hl : l.length = i + count)
    (hn : i + count ≤ env.block.header.number)
    (h1 : ∀ j < i, l.getD j zero32 = (ancestor env.readHeader env.block.header j).getD zero32)
    (h2 : ∀ j, i ≤ j → l.getD j zero32 = zero32) :
    (fillHashes env.readHeader env.block.header.number count i l).length = i + count ∧
      CacheOk env (fillHashes env.readHeader env.block.header.number count i l) := by
  induction count generalizing i l with
  | zero =>
    unfold fillHashes
    refine ⟨hl, fun j hj => h1 j (by omega)⟩
  | succ count ih =>
    unfold fillHashes
    have hs : sub64 env.block.header.number i = env.block.header.number - i := by unfold sub64; omega
    rw [hs, h1 (i - 1) (by omega)]
    have hstep : ancestor env.readHeader env.block.header i =
        match ancestor env.readHeader env.block.header (i - 1) with
        | none => none
        | some x => (env.readHeader (env.block.header.number - i) x).map (·.parentHash) := by
      obtain ⟨j, rfl⟩ : ∃ j, i = j + 1 := ⟨i - 1, by omega⟩
      rfl
    cases ha : ancestor env.readHeader env.block.header (i - 1) with
    | none =>
      simp only [Option.getD_none, hz]
      rw [ha] at hstep
      refine ⟨by omega, fun j hj => ?_⟩
      by_cases hji : j < i
      · exact h1 j hji
      · rw [h2 j (by omega), ancestor_none hstep (by omega)]; rfl
    | some x =>
      rw [ha] at hstep
      dsimp only at hstep
      simp only [Option.getD_some]
      cases hr : env.readHeader (env.block.header.number - i) x with
      | none =>
        dsimp only
        rw [hr] at hstep
        have hstep : ancestor env.readHeader env.block.header i = none := hstep
        refine ⟨by omega, fun j hj => ?_⟩
        by_cases hji : j < i
        · exact h1 j hji
        · rw [h2 j (by omega), ancestor_none hstep (by omega)]; rfl
      | some header =>
        dsimp only
        rw [hr] at hstep
        have hstep : ancestor env.readHeader env.block.header i = some header.parentHash := hstep
        have := ih (i + 1) (l.set i header.parentHash) (by omega) (by rw [List.length_set]; omega) (by omega)
          (fun j hj => by
            by_cases e : j = i
            · subst e
              rw [getD_set_self (by omega), hstep]; rfl
            · rw [getD_set_ne e]
              exact h1 j (by omega))
          (fun j hj => by
            rw [getD_set_ne (by omega)]
            exact h2 j (by omega))
        exact ⟨by omega, this.2⟩

theorem getBlockHash_ok (env : Env) (hz : ∀ n, env.readHeader n zero32 = none) (hb : env.block.header.number < 2 ^ 64)
    (cache : List Bytes) (hc : CacheOk env cache) (k : Nat) (hk : k < 256) (hkn : k + 1 ≤ env.block.header.number) :
    ∃ cache', getBlockHash env cache ((env.block.header.number : Int) - (k + 1)) =
        .ok ((ancestor env.readHeader env.block.header k).getD zero32, cache') ∧ CacheOk env cache' := by
  have hsize : (((env.block.header.number : Int) - ((env.block.header.number : Int) - (k + 1))).emod (2 ^ 64)).toNat =
      k + 1 := by
    have : (env.block.header.number : Int) - ((env.block.header.number : Int) - (k + 1)) = ((k + 1 : Nat) : Int) := by
      push_cast; omega
    rw [this]
    have h2 : ((k + 1 : Nat) : Int).emod (2 ^ 64) = ((k + 1 : Nat) : Int) := Int.emod_eq_of_lt (by omega) (by omega)
    rw [h2]
    rfl
  unfold getBlockHash
  dsimp only
  rw [hsize, if_neg (by omega), if_neg (by omega)]
  have hh : ∃ hs : List Bytes, (if cache.isEmpty then [env.block.header.parentHash] else cache) = hs ∧ 1 ≤ hs.length ∧
      CacheOk env hs := by
    cases cache with
    | nil =>
      refine ⟨_, rfl, by simp, fun i hi => ?_⟩
      have : i = 0 := by simp at hi; exact hi
      subst this
      rfl
    | cons x l => exact ⟨_, rfl, by simp, hc⟩
  obtain ⟨hs, e, hlen, hok⟩ := hh
  rw [e]
  by_cases hlt : hs.length < k + 1
  · rw [if_pos hlt]
    have := fillHashes_ok env hz hb (k + 1 - hs.length) hs.length (hs ++ List.replicate (k + 1 - hs.length) zero32) hlen
      (by simp) (by omega)
      (fun j hj => by
        rw [← hok j hj]
        simp only [List.getD_eq_getElem?_getD, List.getElem?_append_left hj])
      (fun j hj => by
        simp only [List.getD_eq_getElem?_getD, List.getElem?_append_right hj, List.getElem?_replicate]
        split <;> rfl)
    exact ⟨_, by rw [this.2 (k + 1 - 1) (by omega)]; rfl, this.2⟩
  · rw [if_neg hlt, show k + 1 - hs.length = 0 by omega]
    unfold fillHashes
    exact ⟨_, by rw [hok (k + 1 - 1) (by omega)]; rfl, hok⟩

/-! ## Rewards -/

theorem blockReward_eq (c : ChainConfig) (hc : Spec.ConfigWF c) (n : Nat) :
    blockReward (c.revision n) = Spec.Execution.staticReward c n := by
  unfold blockReward Spec.Execution.staticReward
  have h5 : c.revision n ≥ Revision.constantinople ↔ Spec.forkActive c 5 n := le_revision c hc n (x := 5) (by omega)
  have h4 : c.revision n ≥ Revision.byzantium ↔ Spec.forkActive c 4 n := le_revision c hc n (x := 4) (by omega)
  by_cases x : c.revision n ≥ Revision.constantinople
  · rw [if_pos x, if_pos (h5.mp x)]
  · rw [if_neg x, if_neg (fun y => x (h5.mpr y))]
    by_cases z : c.revision n ≥ Revision.byzantium
    · rw [if_pos z, if_pos (h4.mp z)]
    · rw [if_neg z, if_neg (fun y => z (h4.mpr y))]

theorem ommerReward_eq {reward bn on : Nat} (h8 : 8 ∣ reward) (hr : reward < 2 ^ 64) (hb : bn < 2 ^ 64) (ho : on < bn)
    (hd : bn ≤ on + 8) : ommerReward reward bn on = (8 - (bn - on)) * (reward / 8) := by
  unfold ommerReward mul256
  have h1 : sub64 ((8 + on) % 2 ^ 64) bn = 8 - (bn - on) := by unfold sub64; omega
  rw [h1]
  generalize hk : 8 - (bn - on) = k
  have hk8 : k ≤ 8 := by omega
  obtain ⟨q, rfl⟩ := h8
  have : k * (8 * q) < 2 ^ 256 := by
    have : k * (8 * q) ≤ 8 * (8 * q) := Nat.mul_le_mul_right _ hk8
    omega
  rw [Nat.mod_eq_of_lt this]
  rw [show k * (8 * q) = 8 * (k * q) by rw [Nat.mul_left_comm], Nat.mul_div_cancel_left _ (by omega),
    Nat.mul_div_cancel_left _ (by omega)]

/-- What the loop over the ommers does. -/
theorem rewardOmmers_spec (env : Env) (reward : Nat) (h8 : 8 ∣ reward) (hr : reward < 2 ^ 64)
    (hb : env.block.header.number < 2 ^ 64) (l : List BlockHeader)
    (hl : ∀ o ∈ l, o.number < env.block.header.number ∧ env.block.header.number ≤ o.number + 8) (x : Nat × IntraBlockState)
    (hx : x.1 + l.length * (reward / 32) < 2 ^ 256) :
    let y := rewardOmmers env reward l x
    y.1 = x.1 + l.length * (reward / 32) ∧
    (∀ a, (view env.db x.2).bal a + (l.map fun o => if o.beneficiary = a then
        (8 - (env.block.header.number - o.number)) * (reward / 8) else 0).sum < 2 ^ 256 →
      (view env.db y.2).bal a = (view env.db x.2).bal a + (l.map fun o => if o.beneficiary = a then
        (8 - (env.block.header.number - o.number)) * (reward / 8) else 0).sum) ∧
    (∀ a, (view env.db y.2).nonce a = (view env.db x.2).nonce a) ∧
    (∀ a, (view env.db y.2).hash a = (view env.db x.2).hash a) := by
  induction l generalizing x with
  | nil => simp [rewardOmmers]
  | cons o l ih =>
    have ho := hl o List.mem_cons_self
    have hlen : (o :: l).length * (reward / 32) = reward / 32 + l.length * (reward / 32) := by
      rw [List.length_cons, Nat.add_mul]; omega
    rw [hlen] at hx
    have h1 : add256 x.1 (reward / 32) = x.1 + reward / 32 := by
      unfold add256
      exact Nat.mod_eq_of_lt (by omega)
    unfold rewardOmmers
    rw [h1, ommerReward_eq h8 hr hb ho.1 ho.2]
    obtain ⟨i1, i2, i3, i4⟩ := ih (fun o h => hl o (List.mem_cons_of_mem _ h))
      (x.1 + reward / 32, addToBalance env.db x.2 o.beneficiary ((8 - (env.block.header.number - o.number)) * (reward / 8)))
      (by omega)
    refine ⟨by rw [i1, hlen]; dsimp only; omega, fun a ha => ?_, fun a => ?_, fun a => ?_⟩
    · simp only [List.map_cons, List.sum_cons] at ha ⊢
      have hbal := bal_addToBalance (db := env.db) x.2 o.beneficiary
        ((8 - (env.block.header.number - o.number)) * (reward / 8)) a
      have i2 := i2 a
      dsimp only at i2
      rw [hbal] at i2
      generalize (8 - (env.block.header.number - o.number)) * (reward / 8) = q at *
      generalize (l.map fun o => if o.beneficiary = a then
        (8 - (env.block.header.number - o.number)) * (reward / 8) else 0).sum = S at *
      by_cases e : o.beneficiary = a
      · rw [if_pos e] at ha ⊢
        subst e
        rw [if_pos rfl, Nat.mod_eq_of_lt (by omega)] at i2
        rw [i2 (by omega)]
        omega
      · rw [if_neg e] at ha ⊢
        rw [if_neg (fun h => e h.symm)] at i2
        rw [i2 (by omega)]
        omega
    · rw [i3]; exact nonce_addToBalance _ _ _ _
    · rw [i4]; exact hash_addToBalance _ _ _ _

end Silkworm.Evm
