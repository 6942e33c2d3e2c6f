import Verif.Chain.Networks
import Verif.Spec.Networks
import Verif.Properties.Chain
import Verif.Properties.Execution

/-!
# C151: the configurations of the public networks
-/

namespace Silkworm.Properties

open Silkworm.Spec Silkworm.ChainConfig Spec.Execution Evm

/-- `ConfigOrdered`, to be computed. -/
def orderedForks (l : List (Option Nat)) : Bool :=
  (List.range 10).all fun j => (List.range j).all fun i =>
    match l.getD j none, l.getD i none with
    | none, _ => true
    | some b, some a => decide (a ≤ b)
    | some _, none => false

theorem orderedForks_sound {c : ChainConfig} (hl : c.forkBlocks.length = 10) (h : orderedForks c.forkBlocks = true) :
    ConfigOrdered c := by
  intro i j b hij hj
  have hj10 : j < 10 := hl ▸ (List.getElem?_eq_some_iff.mp hj).1
  have h1 := List.all_eq_true.mp (List.all_eq_true.mp h j (List.mem_range.mpr hj10)) i (List.mem_range.mpr hij)
  rw [List.getD_eq_getElem?_getD, hj, List.getD_eq_getElem?_getD] at h1
  rcases hi : c.forkBlocks[i]? with _ | _ | a
  · rw [hi] at h1; cases h1
  · rw [hi] at h1; cases h1
  · rw [hi] at h1; exact ⟨a, rfl, of_decide_eq_true h1⟩

/-- `ConfigWF`, to be computed. -/
theorem configWF_sound {c : ChainConfig} (h1 : c.chainId < 2 ^ 64) (h2 : c.forkBlocks.length = 10)
    (h3 : ∀ o ∈ c.forkBlocks, o.getD 0 < 2 ^ 64) (h4 : c.muirGlacierBlock.getD 0 < 2 ^ 64) (h5 : c.daoBlock.getD 0 < 2 ^ 64) :
    ConfigWF c :=
  ⟨h1, h2, fun b hb => h3 (some b) hb, fun b hb => by rw [hb] at h4; exact h4, fun b hb => by rw [hb] at h5; exact h5⟩

theorem lookup_cases {id : Nat} {c : ChainConfig} (h : lookupChainConfig id = some c) :
    (id = 1 ∧ c = kMainnetConfig) ∨ (id = 3 ∧ c = kRopstenConfig) ∨ (id = 4 ∧ c = kRinkebyConfig) ∨ (id = 5 ∧ c = kGoerliConfig) := by
  unfold lookupChainConfig at h
  split at h
  · rename_i e; exact .inl ⟨e, (Option.some.inj h).symm⟩
  · split at h
    · rename_i e; exact .inr (.inl ⟨e, (Option.some.inj h).symm⟩)
    · split at h
      · rename_i e; exact .inr (.inr (.inl ⟨e, (Option.some.inj h).symm⟩))
      · split at h
        · rename_i e; exact .inr (.inr (.inr ⟨e, (Option.some.inj h).symm⟩))
        · cases h

/-- C151: exactly the four networks are known. -/
theorem c151_known (id : Nat) : (lookupChainConfig id).isSome ↔ id ∈ networks := by
  constructor
  · intro h
    obtain ⟨c, hc⟩ := Option.isSome_iff_exists.mp h
    rcases lookup_cases hc with ⟨e, _⟩ | ⟨e, _⟩ | ⟨e, _⟩ | ⟨e, _⟩ <;> rw [e] <;> decide
  · intro h
    simp only [networks, List.mem_cons, List.not_mem_nil, or_false] at h
    rcases h with e | e | e | e <;> subst e <;> decide

/-- C151: what is found carries the id that was asked for, fits the types, has its forks in order, and survives being stored. These are
the hypotheses of the theorems on headers, gas, rewards and genesis. -/
theorem c151_wellFormed (id : Nat) (c : ChainConfig) (h : lookupChainConfig id = some c) :
    c.chainId = id ∧ ConfigWF c ∧ ConfigOrdered c ∧ (∀ d, c.daoBlock = some d → d + 9 < 2 ^ 64) ∧
    fromJson (toJson c) = .ok (some c) := by
  rcases lookup_cases h with ⟨e, e'⟩ | ⟨e, e'⟩ | ⟨e, e'⟩ | ⟨e, e'⟩ <;> subst e <;> subst e' <;>
    refine ⟨by decide, configWF_sound (by decide) (by decide) (by decide) (by decide) (by decide),
      orderedForks_sound (by decide) (by decide), ?_, c67_json_roundtrip _ (by decide)⟩ <;>
    (intro d hd; cases hd <;> decide)

/-- C151: at every block the rules in force are those of the hard forks that the network has had by then. -/
theorem c151_revision (id : Nat) (c : ChainConfig) (h : lookupChainConfig id = some c) (n r : Nat) (hr : 1 ≤ r) :
    r ≤ c.revision n ↔ ∃ b, activation id r = some b ∧ b ≤ n := by
  obtain ⟨_, hw, ho, _⟩ := c151_wellFormed id c h
  rw [c26_revision_ordered c hw ho n r hr]
  have hrb : c.revisionBlock r = c.forkBlocks[r - 1]?.getD none := by
    unfold revisionBlock
    rw [if_neg (by show r ≠ 0; omega), List.getD_eq_getElem?_getD]
  rw [hrb]
  have key : c.forkBlocks[r - 1]?.getD none = activation id r := by
    by_cases h10 : r ≤ 10
    · have : ∀ r : Fin 11, 1 ≤ r.val → kMainnetConfig.forkBlocks[r.val - 1]?.getD none = activation 1 r.val ∧
          kRopstenConfig.forkBlocks[r.val - 1]?.getD none = activation 3 r.val ∧
          kRinkebyConfig.forkBlocks[r.val - 1]?.getD none = activation 4 r.val ∧
          kGoerliConfig.forkBlocks[r.val - 1]?.getD none = activation 5 r.val := by decide +kernel
      obtain ⟨a1, a2, a3, a4⟩ := this ⟨r, by omega⟩ hr
      rcases lookup_cases h with ⟨e, e'⟩ | ⟨e, e'⟩ | ⟨e, e'⟩ | ⟨e, e'⟩ <;> subst e <;> subst e' <;> assumption
    · unfold activation
      rw [List.getElem?_eq_none (by rw [hw.2.1]; omega), List.getElem?_eq_none (by have : hardForks.length = 9 := rfl; omega)]
      rfl
  rw [key]

example : (lookupChainConfig 5).map (·.revision 4460643) = some Revision.istanbul ∧
    (lookupChainConfig 5).map (·.revision 4460644) = some Revision.berlin ∧ (lookupChainConfig 3).map (·.revision 9) = some 2 ∧
    lookupChainConfig 2 = none := by decide

example : activation 4 7 = some 5435345 ∧ activation 1 10 = none := by decide

/-- C151, in full: moreover on Rinkeby and Görli some headers of Clique are accepted, and blocks have no reward, as Clique has none. -/
def C151 : Prop := ∀ id c, isClique id → lookupChainConfig id = some c →
  (∃ sealOk h s, CliqueHeader h ∧ validateBlockHeader sealOk h s c = .ok ()) ∧
  ∀ (env : Env) (s : IntraBlockState) (a : Bytes), env.config = c → balance env.db (applyRewards env s) a = balance env.db s a

/-- C151 is violated: no header of Clique is accepted on any chain, since its extra data are always too long (and its difficulty too
low). -/
theorem c151_clique_violated (sealOk : BlockHeader → Bool) (h : BlockHeader) (s : HeaderStore) (c : ChainConfig) (hh : CliqueHeader h) :
    validateBlockHeader sealOk h s c ≠ .ok () := by
  intro e
  unfold validateBlockHeader at e
  iterate 3 (split at e; · cases e)
  split at e
  · cases e
  · rename_i _ _ _ h4
    have := hh.1
    exact h4 (by show 32 < _; omega)

theorem c151_violated : ¬ C151 := by
  intro h
  obtain ⟨⟨sealOk, hd, s, hh, e⟩, _⟩ := h 5 kGoerliConfig (.inr rfl) rfl
  exact c151_clique_violated sealOk hd s _ hh e

/-- C151 is violated: on Rinkeby and Görli every block creates at least 2 ether. -/
theorem c151_reward_violated (id : Nat) (c : ChainConfig) (_ : isClique id) (h : lookupChainConfig id = some c)
    (env : Env) (s : IntraBlockState) (he : env.config = c) (hn : env.block.header.number < 2 ^ 64) (ho : env.block.ommers = [])
    (hb : balance env.db s env.block.header.beneficiary + 5 * 10 ^ 18 < 2 ^ 256) :
    balance env.db s env.block.header.beneficiary + 2 * 10 ^ 18 ≤
      balance env.db (applyRewards env s) env.block.header.beneficiary := by
  have hw : ConfigWF env.config := he ▸ (c151_wellFormed id c h).2.1
  have hr : rewards (staticReward env.config env.block.header.number) env.block env.block.header.beneficiary =
      staticReward env.config env.block.header.number := by
    unfold rewards
    rw [if_pos rfl, ho]
    simp
  have hs : 2 * 10 ^ 18 ≤ staticReward env.config env.block.header.number ∧
      staticReward env.config env.block.header.number ≤ 5 * 10 ^ 18 := by
    unfold staticReward
    split
    · decide
    · split <;> decide
  rw [(c43_rewards env s hw hn (by rw [ho]; decide) (by rw [ho]; intro o hx; cases hx) _ (by rw [hr]; omega)).1, hr]
  omega

example : balance exExecDb (applyRewards { exExecEnv with config := kGoerliConfig } {}) exExecEnv.block.header.beneficiary =
    balance exExecDb {} exExecEnv.block.header.beneficiary + 2625000000000000000 := by decide +kernel

example : CliqueHeader { exHeader with extraData := List.replicate 97 0, difficulty := 2 } := ⟨by decide, .inr rfl⟩
example : validateBlockHeader (fun _ => true) { exChild with extraData := List.replicate 97 0, difficulty := 2 } exStore kGoerliConfig =
    .err .extraDataTooLong := by decide +kernel

end Silkworm.Properties
