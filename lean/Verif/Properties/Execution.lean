import Verif.Execution.BlockLemmas
import Verif.Spec.Verdict

/-!
# Properties C41–C43: validity of transactions in a state, hashes of ancestors, rewards
-/

namespace Silkworm.Properties

open Evm
open Spec.Execution
open IntraBlockState (view)

/-! ## Examples -/

/-- A database with two accounts. -/
def exExecDb : StateReader where
  readAccount a :=
    if a = List.replicate 20 1 then some { nonce := 5, balance := 1000000 }
    else if a = List.replicate 20 2 then some { balance := 7 }
    else none
  readCode _ := []
  readStorage _ _ _ := zero32
  previousIncarnation _ := 0

/-- Primitives for examples. -/
def exExecCrypto : Precompiled.Crypto where
  keccak b := beFixed 32 (b.length + 256 * beToNat (b.take 20))
  sha256 b := b
  ripemd160 b := b
  recover _ _ _ := none
  bnAdd _ := none
  bnMul _ := none
  pairing _ := none
  blake2Compress h _ _ _ _ := h

/-- Headers of a small chain: block `n` has the hash that consists of `n`s. -/
def exExecHeaders (n : Nat) (hash : Bytes) : Option BlockHeader :=
  if 1 ≤ n ∧ n < 1000 ∧ hash = beFixed 32 n then some { number := n, parentHash := beFixed 32 (n - 1) } else none

/-- Block 100 with two ommers. -/
def exExecBlock : Block where
  header := { number := 100, parentHash := beFixed 32 99, gasLimit := 100000, beneficiary := List.replicate 20 2 }
  transactions := []
  ommers := [{ number := 99, beneficiary := List.replicate 20 1 }, { number := 94, beneficiary := List.replicate 20 2 }]

/-- An environment in which messages do nothing. -/
def exExecEnv : Env where
  crypto := exExecCrypto
  db := exExecDb
  readHeader := exExecHeaders
  config := { chainId := 1 }
  block := exExecBlock
  interpreter _ msg _ := .done { status := .success, gasLeft := msg.gas }

/-- A transfer. -/
def exExecTx : Transaction :=
  { nonce := 5, maxPriorityFeePerGas := 10, maxFeePerGas := 10, gasLimit := 30000, «to» := some (List.replicate 20 2),
    value := 700000, sender := some (List.replicate 20 1) }

/-! ## C41 -/

/-- The result of validation as a verdict. -/
def verdictOf : Option ValidationError → Outcome ValidationError Unit
  | none => .ok ()
  | some e => .err e

/-- C41: validation returns the error of the first condition of the Yellow Paper that does not hold, and success exactly
if all hold. Products and sums are exact. -/
theorem c41_verdict (env : Env) (p : Processor) (t : Transaction) (hl : env.block.header.gasLimit < 2 ^ 64)
    (hc : p.cumulativeGasUsed ≤ env.block.header.gasLimit) :
    Spec.Verdict (stateRules env.db p.state ((env.block.header.gasLimit : Int) - p.cumulativeGasUsed) t)
      (verdictOf (validateTransaction env p t).1) := by
  unfold validateTransaction stateRules
  cases hs : t.sender with
  | none => exact .broken (by simp)
  | some a =>
    refine .holds rfl ?_
    dsimp only
    obtain ⟨s1, h1, k1⟩ := IntraBlockState.getNonce_eq (db := env.db) p.state a
    obtain ⟨s2, h2, k2⟩ := IntraBlockState.getBalance_eq (db := env.db) s1 a
    have hn : (IntraBlockState.getNonce env.db p.state a).1 = nonce env.db p.state a := rfl
    have hb : (IntraBlockState.getBalance env.db (IntraBlockState.getNonce env.db p.state a).2 a).1 =
        balance env.db p.state a := by
      rw [h1, IntraBlockState.balance_view, ← IntraBlockState.view_of_same k1, ← IntraBlockState.balance_view]
      rfl
    have hg : availableGas env p = env.block.header.gasLimit - p.cumulativeGasUsed := by
      unfold availableGas sub64; omega
    rw [hn, hb, hg]
    by_cases c1 : nonce env.db p.state a = t.nonce
    · rw [if_neg (by simpa using c1)]
      refine .holds (fun b hb => by cases hb; exact c1) ?_
      by_cases c2 : balance env.db p.state a < t.gasLimit * t.maxFeePerGas + t.value
      · rw [if_pos c2]
        exact .broken (fun h => by have := h a rfl; omega)
      · rw [if_neg c2]
        refine .holds (fun b hb => by cases hb; omega) ?_
        by_cases c3 : env.block.header.gasLimit - p.cumulativeGasUsed < t.gasLimit
        · rw [if_pos c3]
          exact .broken (by omega)
        · rw [if_neg c3]
          exact .holds (by omega) .nil
    · rw [if_pos c1]
      exact .broken (fun h => c1 (h a rfl))

/-- C41: validation changes nothing that can be observed. -/
theorem c41_pure (env : Env) (p : Processor) (t : Transaction) :
    view env.db (validateTransaction env p t).2.state = view env.db p.state ∧
    (validateTransaction env p t).2.cumulativeGasUsed = p.cumulativeGasUsed := by
  unfold validateTransaction
  cases hs : t.sender with
  | none => exact ⟨rfl, rfl⟩
  | some a =>
    dsimp only
    obtain ⟨s1, h1, k1⟩ := IntraBlockState.getNonce_eq (db := env.db) p.state a
    obtain ⟨s2, h2, k2⟩ := IntraBlockState.getBalance_eq (db := env.db) s1 a
    rw [h1]
    dsimp only
    rw [h2]
    have e1 : view env.db (p.withState s1).state = view env.db p.state := IntraBlockState.view_of_same k1
    have e2 : view env.db (p.withState s2).state = view env.db p.state :=
      (IntraBlockState.view_of_same k2).trans (IntraBlockState.view_of_same k1)
    split
    · exact ⟨e1, rfl⟩
    · split
      · exact ⟨e2, rfl⟩
      · split <;> exact ⟨e2, rfl⟩

/-- C41: a transaction that passes can be paid for: the price is at most the maximal fee, buying the gas takes exactly
gas limit times price from the balance of the sender, which is there, and the value remains. -/
theorem c41_can_pay (env : Env) (p : Processor) (t : Transaction) (sender : Bytes) (hs : t.sender = some sender)
    (ht : (validateTransaction env p t).1 = none) (hl : env.block.header.gasLimit < 2 ^ 64)
    (hc : p.cumulativeGasUsed ≤ env.block.header.gasLimit)
    (hfee : env.block.header.baseFeePerGas.getD 0 ≤ t.maxFeePerGas) (hm : t.maxFeePerGas < 2 ^ 256)
    (hb : balance env.db p.state sender < 2 ^ 256) :
    ∃ price, t.effectiveGasPrice (env.block.header.baseFeePerGas.getD 0) = .ok price ∧ price ≤ t.maxFeePerGas ∧
      balance env.db (beginTransaction env t sender price p.state) sender + t.gasLimit * price =
        balance env.db p.state sender ∧
      t.value ≤ balance env.db (beginTransaction env t sender price p.state) sender ∧
      ∀ a, a ≠ sender → balance env.db (beginTransaction env t sender price p.state) a = balance env.db p.state a := by
  have hv := (c41_verdict env p t hl hc).ok_iff.mp (by rw [ht]; rfl)
  have hf : t.gasLimit * t.maxFeePerGas + t.value ≤ balance env.db p.state sender :=
    hv (.insufficientFunds, ∀ a, t.sender = some a → t.gasLimit * t.maxFeePerGas + t.value ≤ balance env.db p.state a)
      (by unfold stateRules; simp) sender hs
  obtain ⟨_, h2⟩ := effectiveGasPrice_le hfee hm
  refine ⟨_, h2, by omega, ?_⟩
  generalize hq : min t.maxPriorityFeePerGas (t.maxFeePerGas - env.block.header.baseFeePerGas.getD 0) +
    env.block.header.baseFeePerGas.getD 0 = price
  have hle : t.gasLimit * price ≤ t.gasLimit * t.maxFeePerGas := Nat.mul_le_mul_left _ (by omega)
  have key : ∀ a, balance env.db (beginTransaction env t sender price p.state) a =
      if a = sender then balance env.db p.state sender - t.gasLimit * price else balance env.db p.state a := by
    intro a
    rw [IntraBlockState.balance_view, beginTransaction_bal, ← IntraBlockState.balance_view, ← IntraBlockState.balance_view]
    unfold mul256
    by_cases h : a = sender
    · rw [if_pos h, if_pos h]
      generalize t.gasLimit * price = x at *
      omega
    · rw [if_neg h, if_neg h]
  refine ⟨?_, ?_, fun a ha => ?_⟩
  · rw [key, if_pos rfl]; omega
  · rw [key, if_pos rfl]; omega
  · rw [key, if_neg ha]

example : (validateTransaction exExecEnv { machine := { state := {} } } exExecTx).1 = none ∧
    (validateTransaction exExecEnv { machine := { state := {} } } { exExecTx with value := 700001 }).1 =
      some .insufficientFunds ∧
    (validateTransaction exExecEnv { machine := { state := {} } } { exExecTx with nonce := 6 }).1 = some .wrongNonce ∧
    (validateTransaction exExecEnv { machine := { state := {} }, cumulativeGasUsed := 70001 } exExecTx).1 =
      some .blockGasLimitExceeded ∧
    (validateTransaction exExecEnv { machine := { state := {} } } { exExecTx with maxFeePerGas := 2 ^ 255 }).1 =
      some .insufficientFunds ∧
    balance exExecDb (beginTransaction exExecEnv exExecTx (List.replicate 20 1) 10 {}) (List.replicate 20 1) = 700000 := by
  decide +kernel

/-! ## C42 -/

/-- Queries, one after the other. -/
def blockHashes (env : Env) : List Bytes → List Int → Outcome Empty (List Bytes)
  | _, [] => .ok []
  | cache, n :: rest =>
    (getBlockHash env cache n).bind fun r => (blockHashes env r.2 rest).bind fun l => .ok (r.1 :: l)

/-- C42, full statement: the hash of the ancestor for the last 256 blocks, and zero for all other numbers. It does not
hold: for the number of the block itself an element before the first one is returned. -/
theorem c42_block_hash_violated :
    ¬ ∀ (env : Env) (n : Int), (∀ n, env.readHeader n zero32 = none) → env.block.header.number < 2 ^ 63 →
      ∃ cache, getBlockHash env [] n =
        .ok (if (env.block.header.number : Int) - 256 ≤ n ∧ n < env.block.header.number ∧ 0 ≤ n then
            (ancestor env.readHeader env.block.header (env.block.header.number - 1 - n.toNat)).getD zero32
          else zero32, cache) := by
  intro h
  obtain ⟨cache, hc⟩ := h exExecEnv 100 (fun n => by
    show exExecHeaders n zero32 = none
    unfold exExecHeaders
    split
    · next hh =>
      exfalso
      have h1 := congrArg beToNat hh.2.2
      rw [beToNat_beFixed (by omega)] at h1
      have h2 : beToNat zero32 = 0 := by decide +kernel
      omega
    · rfl) (by decide)
  have : getBlockHash exExecEnv [] 100 = .ub := by decide +kernel
  rw [this] at hc
  cases hc

/-- C42, partial: for any sequence of queries of the last 256 blocks each answer is the hash of the ancestor at that
height, or zero if a header is not in the database, whatever was asked before. -/
theorem c42_block_hash_partial (env : Env) (hz : ∀ n, env.readHeader n zero32 = none)
    (hb : env.block.header.number < 2 ^ 64) (ns : List Int)
    (hn : ∀ n ∈ ns, (env.block.header.number : Int) - 256 ≤ n ∧ n < env.block.header.number ∧ 0 ≤ n) :
    blockHashes env [] ns = .ok (ns.map fun n =>
      (ancestor env.readHeader env.block.header (env.block.header.number - 1 - n.toNat)).getD zero32) := by
  suffices h : ∀ cache, CacheOk env cache → blockHashes env cache ns = .ok (ns.map fun n =>
      (ancestor env.readHeader env.block.header (env.block.header.number - 1 - n.toNat)).getD zero32) from
    h [] (fun i hi => by simp at hi)
  induction ns with
  | nil => intro cache _; rfl
  | cons n ns ih =>
    intro cache hc
    have h1 := hn n List.mem_cons_self
    obtain ⟨cache', h2, h3⟩ := getBlockHash_ok env hz hb cache hc (env.block.header.number - 1 - n.toNat) (by omega) (by omega)
    have h4 : ((env.block.header.number : Int) - (((env.block.header.number - 1 - n.toNat : Nat) : Int) + 1)) = n := by omega
    rw [h4] at h2
    unfold blockHashes
    rw [h2]
    show ((blockHashes env cache' ns).bind _) = _
    rw [ih (fun m hm => hn m (List.mem_cons_of_mem _ hm)) cache' h3]
    rfl

/-- C42: that hash is the one of the ancestor of that generation, when the database is consistent. -/
theorem c42_ancestor (env : Env) (store : HeaderStore) (hs : store.readHeader = env.readHeader) {i : Nat} {m : BlockHeader}
    {hash : Bytes} (ha : Spec.Ancestor store env.block.header i m hash) :
    1 ≤ i ∧ m.number + i = env.block.header.number ∧ ancestor env.readHeader env.block.header (i - 1) = some hash ∧
      env.readHeader (env.block.header.number - i) hash = some m := by
  rw [← hs]
  induction ha with
  | @parent p hp =>
    refine ⟨Nat.le_refl _, hp.1, rfl, ?_⟩
    rw [← hp.1]
    exact hp.2
  | @next i m p hash _ hp ih =>
    obtain ⟨h1, h2, h3, h4⟩ := ih
    have hn := hp.1
    refine ⟨by omega, by omega, ?_, ?_⟩
    · obtain ⟨j, rfl⟩ : ∃ j, i = j + 1 := ⟨i - 1, by omega⟩
      show (match ancestor store.readHeader env.block.header j with
        | none => none
        | some x => (store.readHeader (env.block.header.number - (j + 1)) x).map BlockHeader.parentHash) = _
      rw [show j + 1 - 1 = j by omega] at h3
      rw [h3]
      dsimp only
      rw [h4]
      rfl
    · rw [show env.block.header.number - (i + 1) = p.number by omega]
      exact hp.2

-- in any order; the genesis block's parent does not exist
example : blockHashes exExecEnv [] [97, 99, 50, 0, 98] =
    .ok [beFixed 32 97, beFixed 32 99, beFixed 32 50, beFixed 32 0, beFixed 32 98] ∧
    blockHashes { exExecEnv with readHeader := fun n h => if n = 97 then none else exExecHeaders n h } [] [95, 98, 96, 97] =
      .ok [zero32, beFixed 32 98, zero32, beFixed 32 97] := by decide +kernel

/-! ## C43 -/

/-- C43: every address gets exactly the rewards it is entitled to, for all blocks with ommers up to seven generations
back. Nonces and code do not change. -/
theorem c43_rewards (env : Env) (s : IntraBlockState) (hc : Spec.ConfigWF env.config)
    (hb : env.block.header.number < 2 ^ 64) (hl : env.block.ommers.length ≤ 2)
    (ho : ∀ o ∈ env.block.ommers, o.number < env.block.header.number ∧ env.block.header.number ≤ o.number + 7) (a : Bytes)
    (hx : balance env.db s a + rewards (staticReward env.config env.block.header.number) env.block a < 2 ^ 256) :
    balance env.db (applyRewards env s) a =
      balance env.db s a + rewards (staticReward env.config env.block.header.number) env.block a ∧
    nonce env.db (applyRewards env s) a = nonce env.db s a ∧
    codeHash env.db (applyRewards env s) a = codeHash env.db s a := by
  have he : blockReward env.revision = staticReward env.config env.block.header.number := blockReward_eq _ hc _
  have hr : 8 ∣ staticReward env.config env.block.header.number ∧
      staticReward env.config env.block.header.number < 2 ^ 64 := by
    rw [← he]
    unfold blockReward
    split
    · decide
    · split <;> decide
  unfold applyRewards
  dsimp only
  rw [he]
  generalize staticReward env.config env.block.header.number = R at *
  obtain ⟨i1, i2, i3, i4⟩ := rewardOmmers_spec env R hr.1 hr.2 hb env.block.ommers
    (fun o h => ⟨(ho o h).1, by have := (ho o h).2; omega⟩) (R, s) (by
      have : env.block.ommers.length * (R / 32) ≤ 2 * (R / 32) := Nat.mul_le_mul_right _ hl
      dsimp only
      omega)
  dsimp only at i1 i2 i3 i4
  simp only [IntraBlockState.balance_view, IntraBlockState.nonce_view, IntraBlockState.codeHash_view] at hx ⊢
  refine ⟨?_, ?_, ?_⟩
  · rw [IntraBlockState.bal_addToBalance, i1]
    unfold rewards at hx ⊢
    have i2 := i2 a
    generalize (env.block.ommers.map fun o => if o.beneficiary = a then
        (8 - (env.block.header.number - o.number)) * (R / 8) else 0).sum = S at *
    by_cases e : env.block.header.beneficiary = a
    · rw [if_pos e] at hx ⊢
      rw [e, if_pos rfl, i2 (by omega)]
      generalize env.block.ommers.length * (R / 32) = q at *
      rw [Nat.mod_eq_of_lt (by omega)]
      omega
    · rw [if_neg e] at hx ⊢
      rw [if_neg (fun h => e h.symm), i2 (by omega)]
      omega
  · rw [IntraBlockState.nonce_addToBalance, i3]
  · rw [IntraBlockState.hash_addToBalance, i4]

-- miner 2 mines also the second ommer
example : balance exExecDb (applyRewards exExecEnv {}) (List.replicate 20 1) = 1000000 + 4375000000000000000 ∧
    balance exExecDb (applyRewards exExecEnv {}) (List.replicate 20 2) =
      7 + 5000000000000000000 + 2 * 156250000000000000 + 1250000000000000000 ∧
    balance exExecDb (applyRewards { exExecEnv with config := { chainId := 1, forkBlocks := [some 0, some 0, some 0, some 0,
      some 100, none, none, none, none, none] } } {}) (List.replicate 20 1) = 1000000 + 1750000000000000000 := by
  decide +kernel

end Silkworm.Properties
