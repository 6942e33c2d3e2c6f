import Verif.Crypto.EthashMixLemmas
import Verif.Crypto.EthashPrimeLemmas
import Verif.Properties.Keccak
import Verif.Properties.Chain

/-!
# Properties C143–C148: Ethash
-/

namespace Silkworm.Properties

open Silkworm Silkworm.Ethash
open Silkworm.Keccak (keccak256 keccak512)
open Silkworm.Spec.Ethash (CacheItems DatasetItems Pow ValidSeal value hashimoto seedHash mkcache serialize deserialize)

/-! ## C143: the largest prime -/

/-- C143, in full, as documented: the largest prime that is at most the bound, and 0 if the bound is at most 1. -/
def C143 : Prop := ∀ bound < 2 ^ 32,
  if bound ≤ 1 then findLargestPrime bound = 0 else IsGreatest {p : Nat | p.Prime ∧ p ≤ bound} (findLargestPrime bound)

/-- C143 holds for every bound but 2. -/
theorem c143_largest_prime_partial (bound : Nat) (hb : bound < 2 ^ 32) (h2 : bound ≠ 2) :
    if bound ≤ 1 then findLargestPrime bound = 0 else IsGreatest {p : Nat | p.Prime ∧ p ≤ bound} (findLargestPrime bound) := by
  by_cases h : bound ≤ 1
  · rw [if_pos h]; unfold findLargestPrime; rw [if_pos (by omega)]
  · rw [if_neg h]; exact findLargestPrime_greatest (by omega) hb

example : findLargestPrime 3 = 3 ∧ findLargestPrime 4 = 3 ∧ findLargestPrime 10 = 7 ∧ findLargestPrime 2049 = 2039 := by decide +kernel

/-- C143 is violated: for the bound 2, the result is 1, which is no prime. -/
theorem c143_violated : findLargestPrime 2 = 1 ∧ ¬ C143 := by
  refine ⟨by decide, fun h => ?_⟩
  have := h 2 (by decide)
  rw [if_neg (by decide)] at this
  exact absurd this.1.1 (by decide)

/-! ## C144: the numbers of items -/

/-- C144, in full: for every epoch, the numbers of items of the cache and of the dataset are those of the specification. -/
def C144 : Prop := ∀ epoch < 2 ^ 32, CacheItems epoch (lightCacheNumItems epoch) ∧ DatasetItems epoch (fullDatasetNumItems epoch)

theorem cacheBound {epoch : Nat} (h : epoch < 2097024) :
    (2 ^ 24 / 64 + epoch * (2 ^ 17 / 64) % 2 ^ 32) % 2 ^ 32 = 262144 + 2048 * epoch := by omega

theorem datasetBound {epoch : Nat} (h : epoch < 65408) :
    (2 ^ 30 / 128 + epoch * (2 ^ 23 / 128) % 2 ^ 32) % 2 ^ 32 = 8388608 + 65536 * epoch := by omega

theorem cacheItems_ok {epoch : Nat} (h : epoch < 2097024) : CacheItems epoch (lightCacheNumItems epoch) := by
  unfold CacheItems lightCacheNumItems
  rw [cacheBound h]
  have e : {p : Nat | p.Prime ∧ 64 * p ≤ 2 ^ 24 + 2 ^ 17 * epoch} = {p : Nat | p.Prime ∧ p ≤ 262144 + 2048 * epoch} := by
    ext p; simp only [Set.mem_ofPred_eq]; constructor <;> rintro ⟨h1, h2⟩ <;> exact ⟨h1, by omega⟩
  rw [e]
  exact findLargestPrime_greatest (by omega) (by omega)

theorem datasetItems_ok {epoch : Nat} (h : epoch < 65408) : DatasetItems epoch (fullDatasetNumItems epoch) := by
  unfold DatasetItems fullDatasetNumItems
  rw [datasetBound h]
  have e : {p : Nat | p.Prime ∧ 128 * p ≤ 2 ^ 30 + 2 ^ 23 * epoch} = {p : Nat | p.Prime ∧ p ≤ 8388608 + 65536 * epoch} := by
    ext p; simp only [Set.mem_ofPred_eq]; constructor <;> rintro ⟨h1, h2⟩ <;> exact ⟨h1, by omega⟩
  rw [e]
  exact findLargestPrime_greatest (by omega) (by omega)

/-- C144 for the cache: right exactly for the epochs below 2097024 (2^21 - 2^7). -/
theorem c144_cache_partial (epoch : Nat) (_h : epoch < 2 ^ 32) : CacheItems epoch (lightCacheNumItems epoch) ↔ epoch < 2097024 := by
  refine ⟨fun hc => ?_, cacheItems_ok⟩
  by_contra hn
  by_cases he : epoch = 2097024
  · subst he
    have h0 : lightCacheNumItems 2097024 = 0 := by decide +kernel
    rw [h0] at hc
    exact Nat.not_prime_zero hc.1.1
  · have h1 : 4294967311 ≤ lightCacheNumItems epoch := hc.2 ⟨prime_4294967311, by omega⟩
    have h2 : lightCacheNumItems epoch ≤ _ := findLargestPrime_le _ (Nat.mod_lt _ (by decide))
    have h3 := Nat.mod_lt (2 ^ 24 / 64 + epoch * (2 ^ 17 / 64) % 2 ^ 32) (show 2 ^ 32 > 0 by decide)
    omega

/-- C144 for the dataset: right exactly for the epochs below 65408 (2^16 - 2^7), that is for blocks below 1962240000. -/
theorem c144_dataset_partial (epoch : Nat) (_h : epoch < 2 ^ 32) : DatasetItems epoch (fullDatasetNumItems epoch) ↔ epoch < 65408 := by
  refine ⟨fun hc => ?_, datasetItems_ok⟩
  by_contra hn
  by_cases he : epoch = 65408
  · subst he
    have h0 : fullDatasetNumItems 65408 = 0 := by decide +kernel
    rw [h0] at hc
    exact Nat.not_prime_zero hc.1.1
  · have h1 : 4294967311 ≤ fullDatasetNumItems epoch := hc.2 ⟨prime_4294967311, by omega⟩
    have h2 : fullDatasetNumItems epoch ≤ _ := findLargestPrime_le _ (Nat.mod_lt _ (by decide))
    have h3 := Nat.mod_lt (2 ^ 30 / 128 + epoch * (2 ^ 23 / 128) % 2 ^ 32) (show 2 ^ 32 > 0 by decide)
    omega

-- The numbers of the first two epochs, as in the tables of the specification (16776896 / 64, 16907456 / 64, 1073739904 / 128, ...)
example : lightCacheNumItems 0 = 262139 ∧ lightCacheNumItems 1 = 264179 ∧ fullDatasetNumItems 0 = 8388593 ∧
    fullDatasetNumItems 1 = 8454143 := by decide +kernel

/-- C144 is violated: from epoch 65408 on the number of items of the dataset is wrong; in that epoch it is 0. -/
theorem c144_violated : fullDatasetNumItems 65408 = 0 ∧ lightCacheNumItems 2097024 = 0 ∧ ¬ C144 := by
  refine ⟨by decide +kernel, by decide +kernel, fun h => ?_⟩
  exact absurd ((c144_dataset_partial 65408 (by decide)).mp (h 65408 (by decide)).2) (by decide)

/-! ## C145: the cache and the dataset -/

/-- C145, the cache: for every number of items up to 2^31 and every seed, the cache is that of the specification, byte by byte. -/
theorem c145_cache (num : Nat) (h0 : 0 < num) (hn : num ≤ 2 ^ 31) (seed : Bytes) :
    ∃ c, buildLightCache keccak512 num seed = .ok c ∧ c = (mkcache num seed).map serialize := by
  obtain ⟨c, e, hr, _⟩ := buildLightCache_eq h0 hn seed
  refine ⟨c, e, ?_⟩
  rw [← hr.words, List.map_map]
  conv => lhs; rw [← List.map_id c]
  apply List.map_congr_left
  intro x hx
  exact (serialize_words (k := 16) (hr.length x hx)).symm

/-- A cache of five items, computed by another program. -/
def exCache : List Bytes :=
  [beFixed 64 0xca55f89663eab7b1b66459301f48d9408d7116e6d1172ec12c278e1ddbe952a6990601f1c5395ff1916a197a3de01aa6a6b3e93993112b25f1278c4f89347885,
   beFixed 64 0x0b915c6d19db448c553a1e8b8694f8a18950721f91862780a48560d35903c64682abcc4b8c9d06a2c52ea1dda1bb20844646b849bd9ff87c1db8e635581b727c,
   beFixed 64 0x1e72a70be1a5831b39e83e8b5e870d8f540686e8ce384102f7c148ac4efc1ca2df5618ea0542c58c66dd0c953980fb6f59f1cb5dfb3cc4aab01359dd593b8d84,
   beFixed 64 0xbe7074c9e8987e50ac8d534c74b06644130ae7dc6512ade429ebd37ee956171cdd22e761f43149ffda9b72123b6f95317e631a4de8d637c211b3946ca532c48b,
   beFixed 64 0xa8620b2ebeca41fbc773bb837b5e724d6eb2de570d99858df0d7d97067fb8103b21757873b735097b35d3bea8fd1c359a9e8a63c1540c76c9784cf8d975e995c]

example : buildLightCache keccak512 5 (seedFromEpoch 0) = .ok exCache := by decide +kernel

/-- C145: without items, the first item is written outside of the memory that was reserved. -/
theorem c145_no_items (seed : Bytes) : buildLightCache keccak512 0 seed = .ub := rfl

/-- A context whose cache is that of the specification for `num` items and a seed. -/
def CacheOf (c : Context) (num : Nat) (seed : Bytes) : Prop :=
  0 < num ∧ num ≤ 2 ^ 31 ∧ c.cacheItems = num ∧ buildLightCache keccak512 num seed = .ok c.cache

theorem remix_length (n : Nat) (o : List (List Nat)) (i : Nat) : (Spec.Ethash.remix n o i).length = o.length := by
  unfold Spec.Ethash.remix; exact List.length_set

theorem CacheOf.ok {c : Context} {num : Nat} {seed : Bytes} (h : CacheOf c num seed) : ContextOk c (mkcache num seed) := by
  obtain ⟨c', e, hr, hl⟩ := buildLightCache_eq h.1 h.2.1 seed
  have hc : c' = c.cache := Outcome.ok.inj (e.symm.trans h.2.2.2)
  subst hc
  have hs : (mkcache num seed).length = num := by rw [hr.size, hl]
  exact ⟨hr, by rw [hs, h.2.2.1], by rw [hs]; exact h.1⟩

/-- C145, the dataset: item `index` of 128 bytes is made of the items 2 · index and 2 · index + 1 of the specification. -/
theorem c145_dataset (c : Context) (num : Nat) (seed : Bytes) (hc : CacheOf c num seed) (index : Nat) (hi : index < 2 ^ 31) :
    datasetItem c index = .ok (serialize (Spec.Ethash.datasetItem (mkcache num seed) (2 * index)) ++
      serialize (Spec.Ethash.datasetItem (mkcache num seed) (2 * index + 1))) := by
  obtain ⟨b, e, l, w⟩ := datasetItem_eq hc.ok hi
  rw [e, ← serialize_append, ← w, serialize_words (k := 32) l]

/-- A context with five items, and a dataset of seven. -/
def exContext : Context := ⟨0, 5, 7, exCache⟩

theorem exContext_ok : CacheOf exContext 5 (seedHash 0) := ⟨by decide, by decide, rfl, by decide +kernel⟩

example : datasetItem exContext 1 = .ok (serialize (Spec.Ethash.datasetItem (mkcache 5 (seedHash 0)) 2) ++
    serialize (Spec.Ethash.datasetItem (mkcache 5 (seedHash 0)) 3)) := c145_dataset _ _ _ exContext_ok 1 (by decide)

/-! ## C147: the boundary -/

theorem beWords_cons {x y : Bytes} (hx : x.length = 8) : beWords (x ++ y) = beToNat x :: beWords y := by
  unfold beWords
  rw [List.length_append, hx, Nat.add_div_left _ (by decide), List.range_succ_eq_map, List.map_cons, List.map_map]
  congr 1
  · rw [Nat.mul_zero, List.drop_zero, ← hx, List.take_left]
  · apply List.map_congr_left
    intro i _
    simp only [Function.comp, Nat.succ_eq_add_one, Nat.mul_succ]
    rw [Nat.add_comm, ← List.drop_drop, ← hx, List.drop_left]

theorem lexicographic {a b c d m : Nat} (hc : c < m) (_hd : d < m) (h : a < b) : a * m + c < b * m + d := by
  have : (a + 1) * m ≤ b * m := Nat.mul_le_mul_right m h
  rw [Nat.succ_mul] at this
  omega

/-- The comparison of hashes is that of big-endian numbers. -/
theorem c147_comparison : ∀ k (a b : Bytes), a.length = 8 * k → b.length = 8 * k →
    (isLessOrEqual (beWords a) (beWords b) = true ↔ value a ≤ value b)
  | 0, a, b, ha, hb => by
    have e1 : a = [] := List.length_eq_zero_iff.mp (by simpa using ha)
    have e2 : b = [] := List.length_eq_zero_iff.mp (by simpa using hb)
    subst e1 e2
    decide
  | k + 1, a, b, ha, hb => by
    have v : ∀ x : Bytes, value x = beToNat x := by
      intro x; unfold value; rw [← Keccak.beToNat_reverse, List.reverse_reverse]
    rw [Nat.mul_succ] at ha hb
    have l1 : (a.take 8).length = 8 := by rw [List.length_take]; omega
    have l2 : (b.take 8).length = 8 := by rw [List.length_take]; omega
    have l3 : (a.drop 8).length = 8 * k := by rw [List.length_drop]; omega
    have l4 : (b.drop 8).length = 8 * k := by rw [List.length_drop]; omega
    have ih := c147_comparison k (a.drop 8) (b.drop 8) l3 l4
    rw [v, v] at ih ⊢
    rw [← List.take_append_drop 8 a, ← List.take_append_drop 8 b, beWords_cons l1, beWords_cons l2, beToNat_append, beToNat_append, l3, l4]
    have hc := beToNat_lt (a.drop 8)
    have hd := beToNat_lt (b.drop 8)
    rw [l3] at hc
    rw [l4] at hd
    unfold isLessOrEqual
    rcases Nat.lt_trichotomy (beToNat (a.take 8)) (beToNat (b.take 8)) with h | h | h
    · rw [if_neg (by omega), if_pos h]
      have := lexicographic hc hd h
      simp only [true_iff]; omega
    · rw [h, if_neg (Nat.lt_irrefl _), if_neg (Nat.lt_irrefl _), ih]; omega
    · rw [if_pos h]
      have := lexicographic hd hc h
      simp only [Bool.false_eq_true, false_iff]; omega

example : isLessOrEqual (beWords (beFixed 32 (2 ^ 255))) (beWords (beFixed 32 (2 ^ 255 + 1))) = true ∧
    isLessOrEqual (beWords (beFixed 32 (2 ^ 64))) (beWords (beFixed 32 (2 ^ 64 - 1))) = false := by decide +kernel

/-- C147, in full: a hash is accepted if as a number it is at most 2^256 / difficulty (Yellow Paper, section 4.3.4). -/
def C147 : Prop := ∀ (result : Bytes) (difficulty : Nat), result.length = 32 → 0 < difficulty → difficulty < 2 ^ 256 →
  (isLessOrEqual (beWords result) (beWords (boundaryFromDifficulty difficulty)) = true ↔ value result ≤ 2 ^ 256 / difficulty)

theorem value_beFixed {n : Nat} (h : n < 2 ^ 256) : value (beFixed 32 n) = n := by
  unfold value
  rw [← Keccak.beToNat_reverse, List.reverse_reverse, beToNat_beFixed (by rw [show 256 ^ 32 = 2 ^ 256 by decide]; exact h)]

theorem value_lt {x : Bytes} (h : x.length = 32) : value x < 2 ^ 256 := by
  unfold value
  have := Keccak.number_lt x.reverse
  rw [List.length_reverse, h, show 256 ^ 32 = 2 ^ 256 by decide] at this
  exact this

/-- What is accepted: results whose product with the difficulty is below 2^256, and everything if the difficulty is at most 1. -/
theorem accepted_iff (result : Bytes) (d : Nat) (hr : result.length = 32) :
    isLessOrEqual (beWords result) (beWords (boundaryFromDifficulty d)) = true ↔ value result * d < 2 ^ 256 := by
  have hv := value_lt hr
  unfold boundaryFromDifficulty
  by_cases h : d > 1
  · rw [if_pos h, c147_comparison 4 _ _ hr (beFixed_length ..), value_beFixed (Nat.lt_of_le_of_lt (Nat.div_le_self _ _) (by decide)),
      Nat.le_div_iff_mul_le (by omega)]
    generalize value result * d = p
    constructor <;> intro h' <;> omega
  · have e : (beFixed 32 (2 ^ 256 - 1)).reverse = beFixed 32 (2 ^ 256 - 1) := by decide +kernel
    rw [if_neg h, e, c147_comparison 4 _ _ hr (beFixed_length ..), value_beFixed (by decide)]
    have : value result * d ≤ value result * 1 := Nat.mul_le_mul_left _ (by omega)
    constructor <;> intro h' <;> omega

/-- C147: a hash is accepted exactly if its product with the difficulty is below 2^256. This is the rule of the Yellow Paper, except
where the product is 2^256. -/
theorem c147_boundary_partial (result : Bytes) (d : Nat) (hr : result.length = 32) (h0 : 0 < d) :
    (isLessOrEqual (beWords result) (beWords (boundaryFromDifficulty d)) = true ↔ value result * d < 2 ^ 256) ∧
    (value result * d ≠ 2 ^ 256 →
      (isLessOrEqual (beWords result) (beWords (boundaryFromDifficulty d)) = true ↔ value result ≤ 2 ^ 256 / d)) := by
  have h := accepted_iff result d hr
  refine ⟨h, fun hn => ?_⟩
  rw [h, Nat.le_div_iff_mul_le h0]
  generalize value result * d = p at hn ⊢
  constructor <;> intro h' <;> omega

example : boundaryFromDifficulty 3 = beFixed 32 0x5555555555555555555555555555555555555555555555555555555555555555 ∧
    boundaryFromDifficulty 2 = beFixed 32 (2 ^ 255 - 1) ∧ boundaryFromDifficulty 1 = List.replicate 32 0xff := by decide +kernel

/-- C147 is violated for every difficulty that is a power of two above 1: the hash that is 2^256 / difficulty is refused. -/
theorem c147_violated : (∀ k, 0 < k → k < 256 →
    isLessOrEqual (beWords (beFixed 32 (2 ^ (256 - k)))) (beWords (boundaryFromDifficulty (2 ^ k))) = false ∧
    value (beFixed 32 (2 ^ (256 - k))) ≤ 2 ^ 256 / 2 ^ k) ∧ ¬ C147 := by
  have key : ∀ k, 0 < k → k < 256 →
      isLessOrEqual (beWords (beFixed 32 (2 ^ (256 - k)))) (beWords (boundaryFromDifficulty (2 ^ k))) = false ∧
      value (beFixed 32 (2 ^ (256 - k))) ≤ 2 ^ 256 / 2 ^ k := by
    intro k h0 hk
    have hlt : 2 ^ (256 - k) < 2 ^ 256 := Nat.pow_lt_pow_right (by decide) (by omega)
    have he : 2 ^ (256 - k) * 2 ^ k = 2 ^ 256 := by rw [← Nat.pow_add]; congr 1; omega
    constructor
    · rw [Bool.eq_false_iff]
      intro h
      have := (accepted_iff _ _ (beFixed_length ..)).mp h
      rw [value_beFixed hlt, he] at this
      exact Nat.lt_irrefl _ this
    · rw [value_beFixed hlt, Nat.le_div_iff_mul_le (Nat.pow_pos (by decide)), he]
  refine ⟨key, fun h => ?_⟩
  have h1 := key 1 (by decide) (by decide)
  have h2 := (h (beFixed 32 (2 ^ (256 - 1))) (2 ^ 1) (beFixed_length ..) (by decide) (by decide)).mpr h1.2
  rw [h1.1] at h2
  exact absurd h2 (by decide)

/-! ## C146: the proof of work -/

/-- C146, `hash`: for every header and nonce, the mix digest and the result are those of the specification for this cache and number of
items of the dataset. -/
theorem c146_hash (c : Context) (num : Nat) (seed : Bytes) (hc : CacheOf c num seed) (hd : 0 < c.datasetItems)
    (hd' : c.datasetItems ≤ 2 ^ 31) (header : Bytes) (nonce : Nat) :
    ∃ mix result, Ethash.hash c header nonce = .ok (result, mix) ∧
      hashimoto c.datasetItems (Spec.Ethash.datasetItem (mkcache num seed)) header (beFixed 8 nonce) = (mix, result) := by
  obtain ⟨mix, e, he⟩ := hashMix_eq hc.ok hd hd' header (beFixed 8 nonce) nonce rfl
  refine ⟨mix, _, ?_, he⟩
  unfold Ethash.hash
  rw [e, Outcome.ok_bind]

example : ∃ mix result, Ethash.hash exContext (List.replicate 32 5) 0x107 = .ok (result, mix) ∧
    hashimoto 7 (Spec.Ethash.datasetItem (mkcache 5 (seedHash 0))) (List.replicate 32 5) [0, 0, 0, 0, 0, 0, 1, 7] = (mix, result) :=
  c146_hash exContext 5 _ exContext_ok (by decide) (by decide) _ _

/-- The static variable holds no context, or that of some epoch. -/
def KeptContext (kept : Option Context) : Prop := ∀ c, kept = some c → createEpochContext true c.epochNumber = .ok (some c)

theorem seedFromEpoch_eq (e : Nat) : seedFromEpoch e = seedHash e := by
  induction e with
  | zero => rfl
  | succ n ih =>
    have h : seedFromEpoch (n + 1) = keccak256 (seedFromEpoch n) := rfl
    rw [h, ih, c142_keccak256]
    rfl

theorem cacheItems_pos {e n : Nat} (h : CacheItems e n) : 0 < n := h.1.1.pos

theorem datasetItems_pos {e n : Nat} (h : DatasetItems e n) : 0 < n := h.1.1.pos

/-- In every epoch with a valid number of items of the cache below 2^31, a context is made. -/
theorem createEpochContext_ok {e : Nat} (he : e < 2 ^ 19) :
    ∃ c, createEpochContext true e = .ok (some c) ∧ c.epochNumber = e ∧ c.datasetItems = fullDatasetNumItems e ∧
      CacheOf c (lightCacheNumItems e) (seedHash e) := by
  have h1 := cacheItems_ok (epoch := e) (by omega)
  have h2 : lightCacheNumItems e ≤ 2 ^ 31 := by
    have := h1.1.2
    omega
  obtain ⟨c, e', _⟩ := buildLightCache_eq (cacheItems_pos h1) h2 (seedFromEpoch e)
  refine ⟨⟨e, lightCacheNumItems e, fullDatasetNumItems e, c⟩, ?_, rfl, rfl, cacheItems_pos h1, h2, rfl, ?_⟩
  · unfold createEpochContext
    rw [if_neg (by decide), e', Outcome.ok_bind]
  · rw [← seedFromEpoch_eq]; exact e'

/-- Whatever context is kept, the context that is used is that of the epoch. -/
theorem epochContext_kept {kept : Option Context} (hk : KeptContext kept) (e : Nat) :
    epochContext true kept e = createEpochContext true e := by
  cases kept with
  | none => rfl
  | some c =>
    unfold epochContext
    by_cases h : c.epochNumber = e
    · simp only [h, if_true]; rw [← h]; exact (hk c rfl).symm
    · simp only [h, if_false]

/-- The rule of the code: the mix digest is right, and the product of the result with the difficulty is below 2^256. -/
def Sealed (number difficulty : Nat) (header nonce mix : Bytes) : Prop :=
  ∃ result, Pow number header nonce mix result ∧ value result * difficulty < 2 ^ 256

theorem unique_items {s : Set Nat} {a b : Nat} (ha : IsGreatest s a) (hb : IsGreatest s b) : a = b :=
  Nat.le_antisymm (hb.2 ha.1) (ha.2 hb.1)

/-- C146, in full: for every block, header and nonce, and whatever was checked before, the check ends, and it succeeds exactly if the
seal is right. -/
def C146 : Prop := ∀ (kept : Option Context), KeptContext kept → ∀ (number difficulty nonce : Nat) (header mix : Bytes),
  number < 2 ^ 64 → nonce < 2 ^ 64 → ∃ v kept', verifyBlock true kept number header mix nonce (boundaryFromDifficulty difficulty) = .ok (v, kept') ∧
    KeptContext kept' ∧ (v = .ok ↔ Sealed number difficulty header (beFixed 8 nonce) mix)

/-- C146 for the blocks below 979230000, which are the epochs whose dataset has no more than 2^32 items of 64 bytes: the check ends, it
succeeds exactly if the seal is right, and otherwise says what is wrong; the context that is kept makes no difference. -/
theorem c146_verify_partial (kept : Option Context) (hk : KeptContext kept) (number difficulty nonce : Nat) (header mix : Bytes)
    (hn : number < 979230000) :
    ∃ v kept', verifyBlock true kept number header mix nonce (boundaryFromDifficulty difficulty) = .ok (v, kept') ∧
      verifyBlock true none number header mix nonce (boundaryFromDifficulty difficulty) = .ok (v, kept') ∧
      KeptContext kept' ∧ (v = .ok ↔ Sealed number difficulty header (beFixed 8 nonce) mix) ∧
      (v = .invalidNonce ↔ 2 ^ 256 ≤ value (Spec.Keccak.keccak256 (Spec.Keccak.keccak512 (header ++ (beFixed 8 nonce).reverse) ++ mix)) *
        difficulty) ∧
      (v = .invalidMixHash → ∀ result, ¬ Pow number header (beFixed 8 nonce) mix result) := by
  have he : number / 30000 % 2 ^ 32 = number / 30000 := by omega
  have hlt : number / 30000 < 32641 := by omega
  generalize hE : number / 30000 = e at he hlt
  obtain ⟨c, ec, en, dn, hc⟩ := createEpochContext_ok (e := e) (by omega)
  have hci := cacheItems_ok (epoch := e) (by omega)
  have hdi := datasetItems_ok (epoch := e) (by omega)
  have hd0 : 0 < c.datasetItems := by rw [dn]; exact datasetItems_pos hdi
  have hd1 : c.datasetItems ≤ 2 ^ 31 := by
    rw [dn]
    have := hdi.1.2
    omega
  obtain ⟨m, em, hm⟩ := hashMix_eq hc.ok hd0 hd1 header (beFixed 8 nonce) nonce rfl
  have hb := accepted_iff (hashFinal (hashSeed header nonce) mix) difficulty (length_keccak256 _)
  have hf : hashFinal (hashSeed header nonce) mix =
      Spec.Keccak.keccak256 (Spec.Keccak.keccak512 (header ++ (beFixed 8 nonce).reverse) ++ mix) := by
    unfold hashFinal hashSeed; rw [c142_keccak256, c142_keccak512]
  have hpow : ∀ mix' result, Pow number header (beFixed 8 nonce) mix' result ↔ (mix' = m ∧ result = hashFinal (hashSeed header nonce) m) := by
    intro mix' result
    constructor
    · rintro ⟨c', n', h1, h2, h3⟩
      rw [hE] at h1 h2 h3
      rw [unique_items h1 hci, unique_items h2 hdi, ← dn, hm] at h3
      exact ⟨(Prod.mk.inj h3).1.symm, (Prod.mk.inj h3).2.symm⟩
    · rintro ⟨rfl, rfl⟩
      refine ⟨lightCacheNumItems e, fullDatasetNumItems e, by rw [hE]; exact hci, by rw [hE]; exact hdi, ?_⟩
      rw [hE, ← dn, hm]
  have hv : ∀ k, KeptContext k → verifyBlock true k number header mix nonce (boundaryFromDifficulty difficulty) =
      (verifyFull c header mix nonce (boundaryFromDifficulty difficulty)).bind (fun v => .ok (v, some c)) := by
    intro k hk
    unfold verifyBlock
    rw [hE, he, epochContext_kept hk, ec]
    rfl
  have hsome : KeptContext (some c) := by
    intro c' h'
    rw [← Option.some.inj h', en]
    exact ec
  by_cases hacc : isLessOrEqual (beWords (hashFinal (hashSeed header nonce) mix)) (beWords (boundaryFromDifficulty difficulty)) = true
  · have hlt := hb.mp hacc
    by_cases heq : mix = m
    · have h : verifyFull c header mix nonce (boundaryFromDifficulty difficulty) = .ok .ok := by
        unfold verifyFull
        rw [hacc, if_neg (by decide), em, Outcome.ok_bind, if_pos heq]
      refine ⟨.ok, some c, by rw [hv kept hk, h]; rfl, by rw [hv none (fun _ h => by cases h), h]; rfl, hsome, ?_, ?_, by intro h; cases h⟩
      · refine ⟨fun _ => ⟨_, (hpow _ _).mpr ⟨heq, rfl⟩, by rw [← heq]; exact hlt⟩, fun _ => rfl⟩
      · rw [← hf]
        exact ⟨fun h => (by cases h), fun h => absurd hlt (Nat.not_lt.mpr h)⟩
    · have h : verifyFull c header mix nonce (boundaryFromDifficulty difficulty) = .ok .invalidMixHash := by
        unfold verifyFull
        rw [hacc, if_neg (by decide), em, Outcome.ok_bind, if_neg heq]
      refine ⟨.invalidMixHash, some c, by rw [hv kept hk, h]; rfl, by rw [hv none (fun _ h => by cases h), h]; rfl, hsome, ?_, ?_,
        fun _ r hr => heq ((hpow _ _).mp hr).1⟩
      · refine ⟨fun h => (by cases h), fun ⟨r, hr, _⟩ => absurd ((hpow _ _).mp hr).1 heq⟩
      · rw [← hf]
        exact ⟨fun h => (by cases h), fun h => absurd hlt (Nat.not_lt.mpr h)⟩
  · have hge : 2 ^ 256 ≤ value (hashFinal (hashSeed header nonce) mix) * difficulty := Nat.not_lt.mp (fun h => hacc (hb.mpr h))
    have h : verifyFull c header mix nonce (boundaryFromDifficulty difficulty) = .ok .invalidNonce := by
      unfold verifyFull
      rw [Bool.eq_false_iff.mpr hacc, if_pos (by decide)]
    refine ⟨.invalidNonce, some c, by rw [hv kept hk, h]; rfl, by rw [hv none (fun _ h => by cases h), h]; rfl, hsome, ?_, ?_,
      by intro h; cases h⟩
    · refine ⟨fun h => (by cases h), fun ⟨r, hr, hlt⟩ => ?_⟩
      obtain ⟨e1, e2⟩ := (hpow _ _).mp hr
      rw [e2, ← e1] at hlt
      exact absurd hlt (Nat.not_lt.mpr hge)
    · rw [← hf]
      exact ⟨fun _ => hge, fun _ => rfl⟩

-- A block of the second epoch after one of the first: the seal of mainnet's block 30001, whatever its fields
example (kept : Option Context) (h : createEpochContext true 0 = .ok kept) (header mix : Bytes) (nonce : Nat) :
    ∃ v kept', verifyBlock true kept 30001 header mix nonce (boundaryFromDifficulty 991153893743) = .ok (v, kept') ∧
      (v = .ok ↔ Sealed 30001 991153893743 header (beFixed 8 nonce) mix) := by
  have hk : KeptContext kept := by
    intro c e
    subst e
    obtain ⟨c', e1, e2, _⟩ := createEpochContext_ok (e := 0) (by decide)
    have : c' = c := Option.some.inj (Outcome.ok.inj (e1.symm.trans h))
    rw [← this, e2]; exact e1
  obtain ⟨v, k, e1, _, _, e2, _⟩ := c146_verify_partial kept hk 30001 991153893743 nonce header mix (by decide)
  exact ⟨v, k, e1, e2⟩

/-- C146: what the rule of the Yellow Paper says is the same, except for results whose product with the difficulty is 2^256. -/
theorem c146_yellow_paper (number difficulty : Nat) (header nonce mix : Bytes)
    (h : ∀ result, Pow number header nonce mix result → value result * difficulty ≠ 2 ^ 256) :
    Sealed number difficulty header nonce mix ↔ ValidSeal number difficulty header nonce mix := by
  constructor
  · rintro ⟨r, hr, hlt⟩; exact ⟨r, hr, Nat.le_of_lt hlt⟩
  · rintro ⟨r, hr, hle⟩; exact ⟨r, hr, Nat.lt_of_le_of_ne hle (h r hr)⟩

/-- C146 is violated: in epoch 65408 every header of difficulty 1 leads to a division by zero. -/
theorem c146_violated : (∀ (header mix : Bytes) (nonce : Nat),
    verifyBlock true none 1962240000 header mix nonce (boundaryFromDifficulty 1) = .ub) ∧ ¬ C146 := by
  have key : ∀ (header mix : Bytes) (nonce : Nat),
      verifyBlock true none 1962240000 header mix nonce (boundaryFromDifficulty 1) = .ub := by
    intro header mix nonce
    obtain ⟨c, ec, _, dn, _⟩ := createEpochContext_ok (e := 65408) (by decide)
    have h0 : c.datasetItems = 0 := by rw [dn]; exact c144_violated.1
    have hacc : isLessOrEqual (beWords (hashFinal (hashSeed header nonce) mix)) (beWords (boundaryFromDifficulty 1)) = true := by
      rw [accepted_iff (hashFinal (hashSeed header nonce) mix) 1 (length_keccak256 _), Nat.mul_one]
      exact value_lt (length_keccak256 _)
    have hm : hashMix c (hashSeed header nonce) = .ub := by
      unfold hashMix accessLoop
      rw [h0]
      rfl
    unfold verifyBlock
    rw [show 1962240000 / 30000 % 2 ^ 32 = 65408 by decide, epochContext_kept (fun _ h => by cases h), ec, Outcome.ok_bind]
    dsimp only
    unfold verifyFull
    rw [hacc, if_neg (by decide), hm]
    rfl
  refine ⟨key, fun h => ?_⟩
  obtain ⟨v, k, e, _⟩ := h none (fun _ h => by cases h) 1962240000 1 0 [] [] (by decide) (by decide)
  rw [key] at e
  cases e

/-- C146 is violated in every epoch, if there is no memory for the cache: the context that is not there is referred to. -/
theorem c146_no_memory_violated (number nonce : Nat) (header mix boundary : Bytes) :
    verifyBlock false none number header mix nonce boundary = .ub := rfl

/-- Headers are checked one after the other, with the context that was kept. -/
def checkSeals : Option Context → List BlockHeader → Outcome Fault (List Verdict)
  | _, [] => .ok []
  | kept, h :: hs => do
    let r ← sealVerdict true kept h
    let vs ← checkSeals r.2 hs
    .ok (r.1 :: vs)

/-- C146, headers: however many headers of those blocks are checked, in whatever order, each is found right exactly if its seal is right. -/
theorem c146_headers : ∀ (hs : List BlockHeader) (kept : Option Context), KeptContext kept →
    (∀ h ∈ hs, h.number < 979230000 ∧ h.nonce.length = 8) →
    ∃ vs, checkSeals kept hs = .ok vs ∧
      List.Forall₂ (fun h v => v = .ok ↔ Sealed h.number h.difficulty (h.hash keccak256 true) h.nonce h.mixHash) hs vs
  | [], _, _, _ => ⟨[], rfl, .nil⟩
  | h :: hs, kept, hk, hall => by
    obtain ⟨h1, h2⟩ := hall h (List.mem_cons_self ..)
    obtain ⟨v, k, e, _, hk', hv, _⟩ := c146_verify_partial kept hk h.number h.difficulty (beToNat h.nonce) (h.hash keccak256 true) h.mixHash h1
    obtain ⟨vs, e', hvs⟩ := c146_headers hs k hk' (fun x hx => hall x (List.mem_cons_of_mem _ hx))
    refine ⟨v :: vs, ?_, .cons ?_ hvs⟩
    · unfold checkSeals sealVerdict
      rw [e, Outcome.ok_bind]
      dsimp only
      rw [e', Outcome.ok_bind]
    · rw [hv, ← h2, beFixed_beToNat]

/-- The check of the seal as header validation (C23) uses it. -/
def sealOkEthash (h : BlockHeader) : Bool :=
  match sealVerdict true none h with
  | .ok (.ok, _) => true
  | _ => false

/-- C146 and C23: a header of those blocks that is accepted on a chain with Ethash carries a right seal, and its difficulty is the one
that the rules give. -/
theorem c146_accepted_header (s : HeaderStore) (c : ChainConfig) (h : BlockHeader)
    (hs : Spec.StoreWF s) (hc : Spec.ConfigWF c) (hdao : ∀ d, c.daoBlock = some d → d + 9 < 2 ^ 64)
    (hn : h.number < 979230000) (hnonce : h.nonce.length = 8) (ht : h.timestamp < 2 ^ 64) (hp : Spec.ParentOk s c h)
    (hseal : c.sealEngine = .ethash) (e : validateBlockHeader sealOkEthash h s c = .ok ()) :
    Sealed h.number h.difficulty (h.hash keccak256 true) h.nonce h.mixHash := by
  obtain ⟨_, _, _, _, _, _, _, _, _, _, _, hok⟩ := c23_accepted_header sealOkEthash s c h hs hc hdao (by omega) ht hp e
  have := hok hseal
  obtain ⟨v, k, e1, _, _, hv, _⟩ := c146_verify_partial none (fun _ h => by cases h) h.number h.difficulty (beToNat h.nonce)
    (h.hash keccak256 true) h.mixHash hn
  unfold sealOkEthash sealVerdict at this
  rw [e1] at this
  rw [← hnonce, beFixed_beToNat] at hv
  apply hv.mp
  cases v with
  | ok => rfl
  | invalidNonce => cases this
  | invalidMixHash => cases this

/-! ## C148: the epoch of a seed -/

/-- The seed of an epoch, for any hash function. -/
def seedOf (f : Bytes → Bytes) (e : Nat) : Bytes := f^[e] (List.replicate 32 0)

/-- Seeds are asked for one after the other. -/
def askSeeds (f : Bytes → Bytes) : SeedCache → List Bytes → List (Option Nat)
  | _, [] => []
  | c, s :: ss => (epochFromSeed f c s).1 :: askSeeds f (epochFromSeed f c s).2 ss

/-- C148, in full: whatever was asked before, the answer for the seed of an epoch is an epoch of that seed. -/
def C148 : Prop := ∀ (f : Bytes → Bytes) (asked : List Bytes) (e : Nat), e < 2 ^ 32 →
  ∃ e', (askSeeds f {} (asked ++ [seedOf f e])).getLast? = some (some e') ∧ seedOf f e' = seedOf f e

/-- The static variables hold no epoch, or one below `n` and its seed. -/
def SeedKept (f : Bytes → Bytes) (n : Nat) (c : SeedCache) : Prop := ∀ e, c.epoch = some e → e < n ∧ c.seed = seedOf f e

theorem seedOf_succ (f : Bytes → Bytes) (e : Nat) : seedOf f (e + 1) = f (seedOf f e) := Function.iterate_succ_apply' ..

theorem searchSeed_spec (f : Bytes → Bytes) (seed : Bytes) : ∀ n i,
    (∃ e, i ≤ e ∧ e < i + n ∧ seedOf f e = seed ∧ searchSeed f seed n i (seedOf f i) = (some e, ⟨some e, seed⟩)) ∨
    ((∀ e, i ≤ e → e < i + n → seedOf f e ≠ seed) ∧ (searchSeed f seed n i (seedOf f i)).1 = none ∧
      (searchSeed f seed n i (seedOf f i)).2.epoch = none)
  | 0, i => .inr ⟨fun e h1 h2 => absurd h2 (by omega), rfl, rfl⟩
  | n + 1, i => by
    by_cases h : seedOf f i = seed
    · left
      refine ⟨i, Nat.le_refl _, by omega, h, ?_⟩
      unfold searchSeed
      rw [if_pos h, h]
    · have hs : searchSeed f seed (n + 1) i (seedOf f i) = searchSeed f seed n (i + 1) (seedOf f (i + 1)) := by
        conv => lhs; unfold searchSeed
        rw [if_neg h, seedOf_succ]
      rw [hs]
      rcases searchSeed_spec f seed n (i + 1) with ⟨e, h1, h2, h3, h4⟩ | ⟨h1, h2, h3⟩
      · exact .inl ⟨e, by omega, by omega, h3, h4⟩
      · refine .inr ⟨fun e g1 g2 => ?_, h2, h3⟩
        by_cases he : e = i
        · rw [he]; exact h
        · exact h1 e (by omega) (by omega)

theorem epochFromSeed_spec (f : Bytes → Bytes) (n : Nat) (hn : 30000 ≤ n) (hn' : n < 2 ^ 32) (c : SeedCache) (hc : SeedKept f n c) (seed : Bytes) :
    SeedKept f (n + 1) (epochFromSeed f c seed).2 ∧
    (∀ e, (epochFromSeed f c seed).1 = some e → seedOf f e = seed) ∧
    ((epochFromSeed f c seed).1 = none → ∀ e < 30000, seedOf f e ≠ seed) := by
  have hsearch : SeedKept f (n + 1) (searchSeed f seed 30000 0 (List.replicate 32 0)).2 ∧
      (∀ e, (searchSeed f seed 30000 0 (List.replicate 32 0)).1 = some e → seedOf f e = seed) ∧
      ((searchSeed f seed 30000 0 (List.replicate 32 0)).1 = none → ∀ e < 30000, seedOf f e ≠ seed) := by
    rcases searchSeed_spec f seed 30000 0 with ⟨e, _, h2, h3, h4⟩ | ⟨h1, h2, h3⟩
    · have h4 : searchSeed f seed 30000 0 (List.replicate 32 0) = (some e, ⟨some e, seed⟩) := h4
      rw [h4]
      refine ⟨fun e' he => ?_, fun e' he => ?_, fun h => (by cases h)⟩
      · have : e = e' := Option.some.inj he
        subst this; exact ⟨by omega, h3.symm⟩
      · have : e = e' := Option.some.inj he
        subst this; exact h3
    · have h2 : (searchSeed f seed 30000 0 (List.replicate 32 0)).1 = none := h2
      have h3 : (searchSeed f seed 30000 0 (List.replicate 32 0)).2.epoch = none := h3
      refine ⟨fun e he => ?_, fun e he => ?_, fun _ e he => h1 e (Nat.zero_le _) (by omega)⟩
      · rw [h3] at he; cases he
      · rw [h2] at he; cases he
  unfold epochFromSeed
  cases he : c.epoch with
  | none => exact hsearch
  | some e =>
    obtain ⟨h1, h2⟩ := hc e he
    dsimp only
    by_cases g1 : seed = c.seed
    · rw [if_pos g1]
      refine ⟨fun e' he' => ?_, fun e' he' => ?_, fun h => (by cases h)⟩
      · obtain ⟨a, b⟩ := hc e' he'; exact ⟨by omega, b⟩
      · have : e = e' := Option.some.inj he'
        rw [← this, g1, h2]
    · rw [if_neg g1]
      by_cases g2 : f c.seed = seed
      · rw [if_pos g2, Nat.mod_eq_of_lt (show e + 1 < 2 ^ 32 by omega)]
        have h3 : seedOf f (e + 1) = f c.seed := by rw [seedOf_succ, h2]
        refine ⟨fun e' he' => ?_, fun e' he' => ?_, fun h => (by cases h)⟩
        · have : e + 1 = e' := Option.some.inj he'
          rw [← this]; exact ⟨by omega, h3.symm⟩
        · have : e + 1 = e' := Option.some.inj he'
          rw [← this, h3, g2]
      · rw [if_neg g2]
        exact hsearch

theorem askSeeds_spec (f : Bytes → Bytes) : ∀ (ss : List Bytes) (n : Nat) (c : SeedCache), 30000 ≤ n → n + ss.length ≤ 2 ^ 32 →
    SeedKept f n c → List.Forall₂ (fun s a => (∀ e, a = some e → seedOf f e = s) ∧ (a = none → ∀ e < 30000, seedOf f e ≠ s)) ss
      (askSeeds f c ss)
  | [], _, _, _, _, _ => .nil
  | s :: ss, n, c, hn, hl, hc => by
    rw [List.length_cons] at hl
    obtain ⟨h1, h2⟩ := epochFromSeed_spec f n hn (by omega) c hc s
    exact .cons h2 (askSeeds_spec f ss (n + 1) _ (by omega) (by omega) h1)

/-- C148: for every hash function and every sequence of at most 2^32 - 30000 seeds, each answer is an epoch of the seed that was asked
for, and there is an answer for the seed of every epoch below 30000. -/
theorem c148_epoch_partial (f : Bytes → Bytes) (asked : List Bytes) (h : asked.length ≤ 2 ^ 32 - 30000) :
    List.Forall₂ (fun s a => (∀ e, a = some e → seedOf f e = s) ∧ (∀ e < 30000, seedOf f e = s → a ≠ none)) asked (askSeeds f {} asked) := by
  have := askSeeds_spec f asked 30000 {} (Nat.le_refl _) (by omega) (fun e he => by cases he)
  exact this.imp (fun s a ⟨h1, h2⟩ => ⟨h1, fun e he hs hn => h2 hn e he hs⟩)

/-- Adding one to a big-endian number of 32 bytes: a function without repetition. -/
def exIncrement (b : Bytes) : Bytes := beFixed 32 (beToNat b + 1)

theorem exIncrement_seed : ∀ e, e < 2 ^ 256 → seedOf exIncrement e = beFixed 32 e
  | 0, _ => by decide
  | e + 1, h => by
    rw [seedOf_succ, exIncrement_seed e (by omega)]
    unfold exIncrement
    rw [beToNat_beFixed (by rw [show 256 ^ 32 = 2 ^ 256 by decide]; omega)]

example : askSeeds exIncrement {} [beFixed 32 2, beFixed 32 3, beFixed 32 3, beFixed 32 0] = [some 2, some 3, some 3, some 0] := by
  decide +kernel

/-- C148 is violated: for every hash function without repetition, the seed of epoch 30000 has no answer, unless the seed of epoch 29999
was asked for before. -/
theorem c148_violated : (∀ f : Bytes → Bytes, (∀ e e', e ≤ 30000 → e' ≤ 30000 → seedOf f e = seedOf f e' → e = e') →
    askSeeds f {} [seedOf f 30000] = [none] ∧
    askSeeds f {} [seedOf f 29999, seedOf f 30000] = [some 29999, some 30000]) ∧ ¬ C148 := by
  have key : ∀ f : Bytes → Bytes, (∀ e e', e ≤ 30000 → e' ≤ 30000 → seedOf f e = seedOf f e' → e = e') →
      askSeeds f {} [seedOf f 30000] = [none] ∧
      askSeeds f {} [seedOf f 29999, seedOf f 30000] = [some 29999, some 30000] := by
    intro f hf
    constructor
    · show [(searchSeed f (seedOf f 30000) 30000 0 (seedOf f 0)).1] = [none]
      rcases searchSeed_spec f (seedOf f 30000) 30000 0 with ⟨e, _, h2, h3, _⟩ | ⟨_, h2, _⟩
      · have := hf e 30000 (by omega) (Nat.le_refl _) h3
        omega
      · rw [h2]
    · rcases searchSeed_spec f (seedOf f 29999) 30000 0 with ⟨e, _, h2, h3, h4⟩ | ⟨h1, _⟩
      · have := hf e 29999 (by omega) (by omega) h3
        subst this
        have e1 : epochFromSeed f {} (seedOf f 29999) = (some 29999, ⟨some 29999, seedOf f 29999⟩) := h4
        have e2 : epochFromSeed f ⟨some 29999, seedOf f 29999⟩ (seedOf f 30000) = (some 30000, ⟨some 30000, seedOf f 30000⟩) := by
          unfold epochFromSeed
          dsimp only
          rw [if_neg (fun h => absurd (hf 30000 29999 (Nat.le_refl _) (by omega) h) (by decide)),
            if_pos (seedOf_succ f 29999).symm, ← seedOf_succ f 29999]
        unfold askSeeds
        rw [e1]
        unfold askSeeds
        dsimp only
        rw [e2]
        rfl
      · exact absurd rfl (h1 29999 (by omega) (by omega))
  refine ⟨key, fun h => ?_⟩
  have hinc : ∀ e e', e ≤ 30000 → e' ≤ 30000 → seedOf exIncrement e = seedOf exIncrement e' → e = e' := by
    intro e e' h1 h2 h3
    have b : (30001 : Nat) < 2 ^ 256 := by decide
    rw [exIncrement_seed e (by omega), exIncrement_seed e' (by omega)] at h3
    have := congrArg value h3
    rwa [value_beFixed (by omega), value_beFixed (by omega)] at this
  obtain ⟨e', h1, _⟩ := h exIncrement [] 30000 (by decide)
  rw [List.nil_append, (key exIncrement hinc).1] at h1
  cases h1

end Silkworm.Properties
