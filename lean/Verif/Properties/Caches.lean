import Verif.Execution.CachesLemmas
import Verif.Properties.Metering

/-!
# Properties C110 and C111: the caches of the EVM
-/

namespace Silkworm.Properties

open Evm
open Spec.Caches

/-- Caches as they are before anything was run. -/
def freshCaches {A : Type} (analysis : Option Nat) (pool : Bool) : Caches A :=
  { analysis := analysis.map .empty, pool := if pool then some [] else none }

theorem freshCaches_ok {A : Type} (engine : Engine A) (keccak : Bytes → Bytes) (S : Bytes → Prop) (analysis : Option Nat)
    (pool : Bool) : (freshCaches analysis pool : Caches A).Ok engine keccak S := by
  refine ⟨?_, ?_, ?_, ?_⟩
  · intro c hc
    cases analysis with
    | none => cases hc
    | some n => cases hc; exact sound_empty n
  · cases pool <;> exact List.nodup_nil
  · cases pool <;> intro i hi <;> simp [freshCaches] at hi
  · cases pool <;> intro h <;> rfl

/-- C110: whatever is run, however often, under whatever revisions and with whatever messages inside of messages: an analysis
cache of any size and a pool of execution states change no result, no gas, no output and no state. Codes must be stored under their
hashes, and no two of them may have the same hash. -/
theorem c110_caches {A : Type} (engine : Engine A) (keccak : Bytes → Bytes) (S : Bytes → Prop) (hu : Universe engine keccak S)
    (analysis : Option Nat) (pool : Bool) (uses : List Use)
    (h : ∀ u ∈ uses, u.env.crypto.keccak = keccak ∧ u.env.interpreter = program engine analysis.isSome ∧
      Consistent keccak S u.env.db u.machine.state) :
    match withoutCaches uses with
    | .ok l => ∃ k, withCaches engine uses (freshCaches analysis pool) = .ok (l, k)
    | .err e => withCaches engine uses (freshCaches analysis pool) = .err e
    | .ub => withCaches engine uses (freshCaches analysis pool) = .ub := by
  have := uses_sim hu uses h (freshCaches_ok engine keccak S analysis pool) (by cases analysis <;> rfl)
  revert this
  cases withoutCaches uses with
  | ok l => exact fun ⟨k, e, _⟩ => ⟨k, e⟩
  | err e => exact id
  | ub => exact id

/-- C111: afterwards no execution state is in use, and the pool has every state that was ever made, each of them once. -/
theorem c111_pool {A : Type} (engine : Engine A) (keccak : Bytes → Bytes) (S : Bytes → Prop) (hu : Universe engine keccak S)
    (analysis : Option Nat) (uses : List Use)
    (h : ∀ u ∈ uses, u.env.crypto.keccak = keccak ∧ u.env.interpreter = program engine analysis.isSome ∧
      Consistent keccak S u.env.db u.machine.state)
    (l : List (CallResult × Machine)) (k : Caches A) (hr : withCaches engine uses (freshCaches analysis true) = .ok (l, k)) :
    k.busy = [] ∧ ∃ states, k.pool = some states ∧ states.Perm (List.range k.next) := by
  have := uses_sim hu uses h (freshCaches_ok engine keccak S analysis true) (by cases analysis <;> rfl)
  rw [hr] at this
  cases hw : withoutCaches uses with
  | err e => rw [hw] at this; cases this
  | ub => rw [hw] at this; cases this
  | ok l' =>
    rw [hw] at this
    obtain ⟨k', e, hk⟩ := this
    cases e
    have hb : k.busy = [] := hk.busy
    have hp : k.pool.isSome = true := hk.pooled
    refine ⟨hb, ?_⟩
    obtain ⟨states, hs⟩ := Option.isSome_iff_exists.mp hp
    refine ⟨states, hs, ?_⟩
    have hd := hk.ok.distinct
    have hf := hk.ok.fresh
    have hc := hk.ok.count hp
    rw [hb, hs] at hd hf hc
    simp only [Option.getD_some, List.nil_append] at hd hf hc
    have hsub : states.Subperm (List.range k.next) :=
      hd.subperm fun i hi => List.mem_range.mpr (hf i hi)
    exact hsub.perm_of_length_le (by rw [List.length_range, hc])

/-! ## Examples -/

/-- An engine whose analysis is a number that depends on revision and code. Code 5 calls address 8 twice and returns the
gas that is left after each; any other returns its analysis. -/
def exCacheEngine : Engine Nat where
  analyze rev code := 100 * rev + beToNat code
  run a _ msg code :=
    if code = [5] then
      .ask (.call { msg with destination := List.replicate 20 8, gas := 7, value := 0 }) fun r =>
        .ask (.call { msg with destination := List.replicate 20 8, gas := 7, value := 0 }) fun s =>
          .done { status := .success, gasLeft := a + 10000 * r.gasLeft + 100000000 * s.gasLeft }
    else .done { status := .success, gasLeft := a }
  baseline _ msg _ := .done { status := .success, gasLeft := msg.gas }

/-- No collisions below 256. -/
def exCacheKeccak (b : Bytes) : Bytes := beFixed 32 (beToNat b)

/-- Contracts at addresses of sevens and eights, with the given codes under the hashes 5 and 6. -/
def exCacheDb (five six : Bytes) : StateReader where
  readAccount a :=
    if a = List.replicate 20 7 then some { nonce := 1, codeHash := beFixed 32 5, incarnation := 1 }
    else if a = List.replicate 20 8 then some { nonce := 1, codeHash := beFixed 32 6, incarnation := 1 }
    else none
  readCode h := if h = beFixed 32 5 then five else if h = beFixed 32 6 then six else []
  readStorage _ _ _ := zero32
  previousIncarnation _ := 0

/-- A transaction to the contract of sevens under the given revision. -/
def exCacheUse (five six : Bytes) (rev : Nat) : Use where
  env :=
    { crypto := { exMeterCrypto with keccak := exCacheKeccak }
      db := exCacheDb five six
      readHeader := fun _ _ => none
      config := { chainId := 1, forkBlocks := List.replicate rev (some 0) ++ List.replicate (10 - rev) none }
      block := { header := { number := 5 }, transactions := [], ommers := [] }
      interpreter := program exCacheEngine true }
  txn := { «to» := some (List.replicate 20 7), sender := some (List.replicate 20 1) }
  gas := 1000
  machine := { state := {} }

/-- The codes of the example. -/
def exCacheCodes (b : Bytes) : Prop := b = [] ∨ b = [5] ∨ b = [6]

theorem exCache_universe : Universe exCacheEngine exCacheKeccak exCacheCodes where
  injective c d hc hd h := by
    rcases hc with rfl | rfl | rfl <;> rcases hd with rfl | rfl | rfl <;>
      first | rfl | exact absurd h (by decide +kernel)
  run rev msg code := by
    show Returns _ (if code = [5] then _ else _)
    split
    · exact .ask _ _ fun _ => .ask _ _ fun _ => .done _ (Or.inl rfl)
    · exact .done _ (Or.inl rfl)
  baseline rev msg code := .done _ (Or.inl rfl)
  exo f h := by cases h

theorem exCache_consistent (rev : Nat) :
    Consistent exCacheKeccak exCacheCodes (exCacheUse [5] [6] rev).env.db (exCacheUse [5] [6] rev).machine.state where
  db h := by
    show (if h = beFixed 32 5 then [5] else if h = beFixed 32 6 then [6] else []) ≠ [] → exCacheCodes _ ∧ _ = h
    show _ → exCacheCodes (if h = beFixed 32 5 then [5] else if h = beFixed 32 6 then [6] else []) ∧
      exCacheKeccak (if h = beFixed 32 5 then [5] else if h = beFixed 32 6 then [6] else []) = h
    by_cases h5 : h = beFixed 32 5
    · subst h5
      exact fun _ => ⟨Or.inr (Or.inl rfl), rfl⟩
    · rw [if_neg h5]
      by_cases h6 : h = beFixed 32 6
      · subst h6
        exact fun _ => ⟨Or.inr (Or.inr rfl), rfl⟩
      · rw [if_neg h6]
        exact fun hn => absurd rfl hn
  state h c hc := by cases hc

/-- What is left of the gas. -/
def exCacheGas (uses : List Use) (k : Caches Nat) : Option (List Nat) :=
  match withCaches exCacheEngine uses k with
  | .ok (l, _) => some (l.map (·.1.gasLeft))
  | _ => none

/-- The pool, the states in use, and what is in the analysis cache. -/
def exCacheAfter (uses : List Use) (k : Caches Nat) : Option (List Nat × List Nat × Nat × List Nat) :=
  match withCaches exCacheEngine uses k with
  | .ok (_, { pool := some pool, busy := busy, analysis := some c, .. }) =>
    some (pool, busy, c.revision, c.cache.items.map (·.2.2))
  | _ => none

/-- C110, C111: three uses under two revisions, with a cache of two analyses. The second finds both, the third none. Two execution
states suffice for six messages that run code. -/
example :
    exCacheGas [exCacheUse [5] [6] 3, exCacheUse [5] [6] 3, exCacheUse [5] [6] 4] (freshCaches (some 2) true) =
      some [30603060305, 30603060305, 40604060405] ∧
    exCacheAfter [exCacheUse [5] [6] 3] (freshCaches (some 2) true) = some ([0, 1], [], 3, [306, 305]) ∧
    exCacheAfter [exCacheUse [5] [6] 3, exCacheUse [5] [6] 4] (freshCaches (some 2) true) =
      some ([0, 1], [], 4, [406, 405]) := by decide +kernel

/-- C110, C111: the example satisfies the assumptions. -/
example (uses : List Use) (h : ∀ u ∈ uses, u = exCacheUse [5] [6] 3 ∨ u = exCacheUse [5] [6] 4) (l : List (CallResult × Machine))
    (hl : withoutCaches uses = .ok l) :
    ∃ k, withCaches exCacheEngine uses (freshCaches (some 2) true) = .ok (l, k) ∧ k.busy = [] := by
  have hyp : ∀ u ∈ uses, u.env.crypto.keccak = exCacheKeccak ∧ u.env.interpreter = program exCacheEngine (some 2).isSome ∧
      Consistent exCacheKeccak exCacheCodes u.env.db u.machine.state := by
    intro u hu
    rcases h u hu with rfl | rfl <;> exact ⟨rfl, rfl, exCache_consistent _⟩
  have := c110_caches exCacheEngine exCacheKeccak exCacheCodes exCache_universe (some 2) true uses hyp
  rw [hl] at this
  obtain ⟨k, e⟩ := this
  exact ⟨k, e, (c111_pool exCacheEngine exCacheKeccak exCacheCodes exCache_universe (some 2) uses hyp l k e).1⟩

/-- Why codes have to be stored under their hashes: the second database has another code under the hash 6, and its analysis is
taken from the first. -/
example :
    exCacheGas [exCacheUse [5] [6] 3, exCacheUse [5] [9] 3] (freshCaches (some 2) true) = some [30603060305, 30603060305] ∧
    exCacheGas [exCacheUse [5] [9] 3] (freshCaches (some 2) true) = some [30903090305] := by decide +kernel

end Silkworm.Properties
