import Verif.Chain.ValidityLemmas
import Verif.Properties.Block

/-!
# Properties C19, C21–C26, C67, C68: chain rules
-/

namespace Silkworm.Properties

open Silkworm Silkworm.Rlp

theorem mainnet_wf : Spec.ConfigWF kMainnetConfig := by
  refine ⟨by decide, by decide, ?_, ?_, ?_⟩
  · intro b hb
    simp only [kMainnetConfig, List.mem_cons, Option.some.injEq, List.not_mem_nil, or_false, reduceCtorEq] at hb
    rcases hb with h | h | h | h | h | h | h | h | h <;> subst h <;> decide
  · intro b hb; cases hb; decide
  · intro b hb; cases hb; decide

theorem mainnet_dao : ∀ d, kMainnetConfig.daoBlock = some d → d + 9 < 2 ^ 64 := by
  intro b hb; cases hb; decide

/-! ## C26: forks -/

/-- C26: the revision is at least `x` exactly if fork `x` or a later one has been reached. -/
theorem c26_revision_spec (c : ChainConfig) (hc : Spec.ConfigWF c) (n x : Nat) (hx : 1 ≤ x) :
    x ≤ c.revision n ↔ Spec.forkActive c x n := le_revision c hc n hx

/-- C26: the revision is the highest fork whose block is reached; it is Frontier exactly if none is. -/
theorem c26_revision_highest (c : ChainConfig) (hc : Spec.ConfigWF c) (n : Nat) :
    c.revision n ≤ 10 ∧ (c.revision n = 0 ↔ ∀ r, 1 ≤ r → ¬ Spec.forkReached c r n) ∧
    (1 ≤ c.revision n → Spec.forkReached c (c.revision n) n) ∧
    ∀ r, c.revision n < r → ¬ Spec.forkReached c r n := by
  have h4 : ∀ r, c.revision n < r → ¬ Spec.forkReached c r n := by
    intro r hr hf
    have := (le_revision c hc n (x := r) (by omega)).mpr ⟨r, Nat.le_refl _, by omega, hf⟩
    omega
  have h3 : 1 ≤ c.revision n → Spec.forkReached c (c.revision n) n := by
    intro h
    obtain ⟨r, h1, h2, h3⟩ := (le_revision c hc n h).mp (Nat.le_refl _)
    by_cases hr : r = c.revision n
    · rw [← hr]; exact h3
    · exact absurd h3 (h4 r (by omega))
  refine ⟨revisionLoop_le c n 10, ⟨fun h r hr => h4 r (by omega), fun h => ?_⟩, h3, h4⟩
  by_contra h0
  exact h _ (by omega) (h3 (by omega))

/-- C26: forks are never left again as the chain grows, whatever the configuration. -/
theorem c26_revision_mono (c : ChainConfig) (hc : Spec.ConfigWF c) (n m : Nat) (h : n ≤ m) :
    c.revision n ≤ c.revision m := by
  by_cases h0 : c.revision n = 0
  · omega
  · obtain ⟨r, h1, h2, b, h3, h4⟩ := (le_revision c hc n (x := c.revision n) (by omega)).mp (Nat.le_refl _)
    exact (le_revision c hc m (by omega)).mpr ⟨r, h1, h2, b, h3, by omega⟩

/-- C26: with forks in order and none skipped, fork `x` is active exactly from its configured block on; a fork that is
not configured is never active. -/
theorem c26_revision_ordered (c : ChainConfig) (hc : Spec.ConfigWF c) (ho : Spec.ConfigOrdered c) (n x : Nat)
    (hx : 1 ≤ x) : x ≤ c.revision n ↔ ∃ b, c.revisionBlock x = some b ∧ b ≤ n := by
  have hb : ∀ b, c.revisionBlock x = some b ↔ c.forkBlocks[x - 1]? = some (some b) := by
    intro b
    unfold ChainConfig.revisionBlock Revision.frontier
    rw [if_neg (by omega), List.getD_eq_getElem?_getD]
    rcases c.forkBlocks[x - 1]? with _ | _ | b <;> simp
  rw [le_revision c hc n hx]
  constructor
  · rintro ⟨r, h1, h2, b, h3, h4⟩
    by_cases hr : r = x
    · subst hr; exact ⟨b, (hb b).mpr h3, h4⟩
    · obtain ⟨a, h5, h6⟩ := ho (x - 1) (r - 1) b (by omega) h3
      exact ⟨a, (hb a).mpr h5, by omega⟩
  · rintro ⟨b, h1, h2⟩
    exact ⟨x, Nat.le_refl _, hx, b, (hb b).mp h1, h2⟩

/-- C26: setting the block of a fork changes that entry only. -/
theorem c26_set_revision_block (c : ChainConfig) (hc : c.forkBlocks.length = 10) (x : Nat) (hx : 1 ≤ x) (hx' : x ≤ 10)
    (b : Option Nat) :
    (c.setRevisionBlock x b).revisionBlock x = b ∧
    (∀ y, y ≠ x → (c.setRevisionBlock x b).revisionBlock y = c.revisionBlock y) ∧
    (c.setRevisionBlock x b).chainId = c.chainId ∧ (c.setRevisionBlock x b).sealEngine = c.sealEngine ∧
    (c.setRevisionBlock x b).muirGlacierBlock = c.muirGlacierBlock ∧ (c.setRevisionBlock x b).daoBlock = c.daoBlock := by
  have he : c.setRevisionBlock x b = { c with forkBlocks := c.forkBlocks.set (x - 1) b } := by
    unfold ChainConfig.setRevisionBlock
    rw [if_pos (by omega)]
  rw [he]
  unfold ChainConfig.revisionBlock Revision.frontier
  refine ⟨?_, ?_, rfl, rfl, rfl, rfl⟩
  · rw [if_neg (by omega), List.getD_eq_getElem?_getD]
    simp only
    rw [List.getElem?_set_self (by omega)]
    rfl
  · intro y hy
    by_cases h0 : y = 0
    · rw [if_pos h0, if_pos h0]
    · rw [if_neg h0, if_neg h0, List.getD_eq_getElem?_getD, List.getD_eq_getElem?_getD]
      simp only
      rw [List.getElem?_set_ne (by omega)]

example : kMainnetConfig.revision 12964999 = Revision.berlin ∧ kMainnetConfig.revision 12965000 = Revision.london ∧
    kMainnetConfig.revision 7280000 = Revision.petersburg ∧ kMainnetConfig.revision 1149999 = Revision.frontier := by
  decide

/-- The mainnet configuration is ordered. -/
theorem mainnet_ordered : Spec.ConfigOrdered kMainnetConfig := by
  intro i j b hij hj
  have hj10 : j < 10 := (List.getElem?_eq_some_iff.mp hj).1
  have : ∀ j : Fin 10, ∀ i : Fin 10, i < j → kMainnetConfig.forkBlocks[j.val]? = some none ∨
      (kMainnetConfig.forkBlocks[i.val]?.getD none).isSome ∧
        (kMainnetConfig.forkBlocks[i.val]?.getD none).getD 0 ≤ (kMainnetConfig.forkBlocks[j.val]?.getD none).getD 0 := by
    decide
  rcases this ⟨j, hj10⟩ ⟨i, by omega⟩ (by simpa using hij) with h | ⟨h1, h2⟩
  · simp only at h; rw [h] at hj; cases hj
  · simp only at h1 h2
    rw [hj] at h2
    rcases he : kMainnetConfig.forkBlocks[i]? with _ | _ | a
    · rw [he] at h1; cases h1
    · rw [he] at h1; cases h1
    · rw [he] at h2; exact ⟨a, rfl, h2⟩

example : ¬ Revision.max ≤ kMainnetConfig.revision (2 ^ 64 - 1) := by
  rw [c26_revision_ordered _ mainnet_wf mainnet_ordered _ _ (by decide)]
  rintro ⟨b, h, _⟩
  cases h

/-! ## C19: intrinsic gas -/

/-- C19: the intrinsic gas is the Yellow Paper's, without overflow. -/
theorem c19_intrinsic_gas (t : Transaction) (homestead istanbul : Bool) (h : Spec.TxSizes t) :
    intrinsicGas t homestead istanbul = Spec.intrinsicGas t homestead istanbul := intrinsicGas_eq t homestead istanbul h

/-- C19: it is at least 21000 and grows with the data. -/
theorem c19_intrinsic_gas_ge (t : Transaction) (homestead istanbul : Bool) (h : Spec.TxSizes t) :
    21000 + 4 * t.data.length ≤ intrinsicGas t homestead istanbul := by
  rw [intrinsicGas_eq t homestead istanbul h]
  unfold Spec.intrinsicGas
  have : 4 * t.data.length ≤ (t.data.map (Spec.dataByteGas istanbul)).sum := by
    generalize t.data = d
    induction d with
    | nil => simp
    | cons b d ih =>
      simp only [List.length_cons, List.map_cons, List.sum_cons]
      have : 4 ≤ Spec.dataByteGas istanbul b := by unfold Spec.dataByteGas; split <;> [omega; (split <;> omega)]
      omega
  omega

example : intrinsicGas { exTyped with data := [0, 1, 0, 2, 3] } true true =
    21000 + 32000 + 4 + 16 + 4 + 16 + 16 + (2400 + 1900 * 2) + 2400 := by decide

/-! ## C21: difficulty -/

/-- C21: the difficulty is never below 131072, unconditionally. -/
theorem c21_difficulty_min (c : ChainConfig) (n tb p tp : Nat) (u : Bool) :
    131072 ≤ canonicalDifficulty n tb p tp u c := by
  unfold canonicalDifficulty
  simp only
  split
  · exact difficultyBomb_ge _ _
  · split <;> exact difficultyBomb_ge _ _

/-- C21: the difficulty is that of the specification, for every fork and bomb delay, as long as that fits 256 bits. -/
theorem c21_difficulty_spec (c : ChainConfig) (hc : Spec.ConfigWF c) (n p tb tp : Nat) (u : Bool) (hp : p < 2 ^ 256)
    (htb : tb < 2 ^ 64) (ht : tp ≤ tb) (h : Spec.difficulty c n p (tb - tp) u < 2 ^ 256) :
    (canonicalDifficulty n tb p tp u c : Int) = Spec.difficulty c n p (tb - tp) u :=
  canonicalDifficulty_eq c hc n p tb tp u hp htb ht h

/-- C21: a later timestamp never gives a higher difficulty. -/
theorem c21_difficulty_mono (c : ChainConfig) (hc : Spec.ConfigWF c) (n p t1 t2 tp : Nat) (u : Bool) (hp : p < 2 ^ 256)
    (h2 : t2 < 2 ^ 64) (h0 : tp ≤ t1) (h12 : t1 ≤ t2) (h : Spec.difficulty c n p (t1 - tp) u < 2 ^ 256) :
    canonicalDifficulty n t2 p tp u c ≤ canonicalDifficulty n t1 p tp u c := by
  have hm := difficulty_mono c n p u (t1 := t1 - tp) (t2 := t2 - tp) (by omega)
  have e1 := canonicalDifficulty_eq c hc n p t1 tp u hp (by omega) h0 h
  have e2 := canonicalDifficulty_eq c hc n p t2 tp u hp h2 (by omega) (lt_of_le_of_lt hm h)
  omega

/-- The 2^256 bound holds for any realistic chain: block numbers below 20 million and parent difficulty below 2^255. -/
theorem c21_difficulty_fits (c : ChainConfig) (n p e : Nat) (u : Bool) (hn : n < 20000000) (hp : p < 2 ^ 255) :
    Spec.difficulty c n p e u < 2 ^ 256 := by
  have hb : ∀ m, m ≤ n → Spec.bomb m ≤ 2 ^ 198 := by
    intro m hm
    unfold Spec.bomb
    split
    · decide
    · have h2 := Nat.pow_le_pow_right (n := 2) (by decide) (show m / 100000 - 2 ≤ 198 by omega)
      exact_mod_cast h2
  have ha : ∀ f m, f ≤ 2 → m ≤ n → Spec.adjusted p f (Spec.bomb m) < 2 ^ 256 := by
    intro f m hf hm
    have h1 := hb m hm
    have h2 : (p : Int) / 2048 * f ≤ (p : Int) / 2048 * 2 := Int.mul_le_mul_of_nonneg_left hf (by omega)
    unfold Spec.adjusted Spec.minDifficulty
    omega
  unfold Spec.difficulty
  split
  · exact ha _ _ (by split <;> omega) (by omega)
  · split
    · exact ha _ _ (by omega) (by omega)
    · exact ha _ _ (by split <;> omega) (by omega)

example : canonicalDifficulty 12965001 1628166835 7742494561645080 1628166822 true kMainnetConfig =
    7742494561645080 + 7742494561645080 / 2048 + 2 ^ 30 := by decide +kernel

example : canonicalDifficulty 12965001 (1628166835 + 5) 7742494561645080 1628166822 true kMainnetConfig ≤
    canonicalDifficulty 12965001 1628166835 7742494561645080 1628166822 true kMainnetConfig :=
  c21_difficulty_mono _ mainnet_wf _ _ _ _ _ _ (by decide) (by decide) (by decide) (by decide)
    (c21_difficulty_fits _ _ _ _ _ (by decide) (by decide))

example : canonicalDifficulty 500000 1000 10000000 13 false kMainnetConfig = 10000000 - 10000000 / 2048 + 8 := by
  decide +kernel

/-! ## C22: base fee -/

/-- C22: from the block after London the base fee is that of EIP-1559. -/
theorem c22_base_fee_spec (c : ChainConfig) (hc : Spec.ConfigWF c) (h p : BlockHeader) (fee : Nat)
    (ha : Spec.forkActive c 9 h.number) (hl : ¬ Spec.isLondonBlock c h.number) (hf : p.baseFeePerGas = some fee)
    (hfee : fee < 2 ^ 192) (hu : p.gasUsed < 2 ^ 63) (hlim : p.gasLimit < 2 ^ 64)
    (ht : p.gasUsed = p.gasLimit / 2 ∨ 0 < p.gasLimit / 2) :
    expectedBaseFeePerGas h p c = .ok (some (Spec.nextBaseFee fee p.gasUsed p.gasLimit)) :=
  expectedBaseFee_post c hc h p fee ha hl hf hfee hu hlim ht

/-- C22: it is 10^9 at the London block and absent before. -/
theorem c22_base_fee_initial (c : ChainConfig) (hc : Spec.ConfigWF c) (h p : BlockHeader) :
    (Spec.forkActive c 9 h.number → Spec.isLondonBlock c h.number →
      expectedBaseFeePerGas h p c = .ok (some 1000000000)) ∧
    (¬ Spec.forkActive c 9 h.number → expectedBaseFeePerGas h p c = .ok none) :=
  ⟨expectedBaseFee_london c hc h p, expectedBaseFee_pre c hc h p⟩

/-- C22: the fee stays at the target, rises strictly above it, and by at most an eighth (or 1) if at most twice the
target was used, and below the target falls by at most an eighth. -/
theorem c22_base_fee_direction (c : ChainConfig) (hc : Spec.ConfigWF c) (h p : BlockHeader) (fee target : Nat)
    (ha : Spec.forkActive c 9 h.number) (hl : ¬ Spec.isLondonBlock c h.number) (hf : p.baseFeePerGas = some fee)
    (hfee : fee < 2 ^ 192) (hu : p.gasUsed < 2 ^ 63) (hlim : p.gasLimit < 2 ^ 64) (ht : target = p.gasLimit / 2)
    (ht0 : 0 < target) :
    ∃ fee', expectedBaseFeePerGas h p c = .ok (some fee') ∧
      (p.gasUsed = target → fee' = fee) ∧
      (p.gasUsed > target → fee + 1 ≤ fee' ∧ (p.gasUsed ≤ 2 * target → fee' ≤ fee + max 1 (fee / 8))) ∧
      (p.gasUsed < target → fee - fee / 8 ≤ fee' ∧ fee' ≤ fee) := by
  subst ht
  refine ⟨_, expectedBaseFee_post c hc h p fee ha hl hf hfee hu hlim (Or.inr ht0), ?_, ?_, ?_⟩
  · intro e
    unfold Spec.nextBaseFee
    simp only
    rw [if_pos e]
  · intro e
    unfold Spec.nextBaseFee
    simp only
    rw [if_neg (by omega), if_pos e]
    refine ⟨by omega, fun e2 => ?_⟩
    have h1 : fee * (p.gasUsed - p.gasLimit / 2) / (p.gasLimit / 2) ≤ fee := by
      apply Nat.div_le_of_le_mul
      rw [Nat.mul_comm]
      exact Nat.mul_le_mul_right _ (by omega)
    have h2 := Nat.div_le_div_right (c := 8) h1
    omega
  · intro e
    unfold Spec.nextBaseFee
    simp only
    rw [if_neg (by omega), if_neg (by omega)]
    refine ⟨?_, Nat.sub_le _ _⟩
    have h1 : fee * (p.gasLimit / 2 - p.gasUsed) / (p.gasLimit / 2) ≤ fee := by
      apply Nat.div_le_of_le_mul
      rw [Nat.mul_comm]
      exact Nat.mul_le_mul_right _ (by omega)
    have h2 := Nat.div_le_div_right (c := 8) h1
    omega

/-- A child header of `exHeader`. -/
def exChild : BlockHeader :=
  { exHeader with parentHash := List.replicate 32 9, number := 12965001, gasLimit := 30010000, gasUsed := 30010000,
                  timestamp := 1628166835, difficulty := 2 ^ 255 + 2 ^ 244 + 2 ^ 30, baseFeePerGas := some 875000000 }

example : expectedBaseFeePerGas exChild exHeader kMainnetConfig = .ok (some 875000000) ∧
    expectedBaseFeePerGas exChild { exHeader with gasUsed := 15000000 } kMainnetConfig = .ok (some 1000000000) ∧
    expectedBaseFeePerGas exChild { exHeader with gasUsed := 30000000 } kMainnetConfig = .ok (some 1125000000) ∧
    expectedBaseFeePerGas exHeader exHeader kMainnetConfig = .ok (some 1000000000) := by decide +kernel

/-! ## C23: headers -/

/-- C23: header validation returns the verdict of the header rules: success exactly if all hold, otherwise the code of
the first broken rule. -/
theorem c23_header_verdict (sealOk : BlockHeader → Bool) (s : HeaderStore) (c : ChainConfig) (h : BlockHeader)
    (hs : Spec.StoreWF s) (hc : Spec.ConfigWF c) (hdao : ∀ d, c.daoBlock = some d → d + 9 < 2 ^ 64)
    (hn : h.number < 2 ^ 64) (ht : h.timestamp < 2 ^ 64) (hp : Spec.ParentOk s c h) :
    Spec.Verdict (Spec.headerRules sealOk s c h) (validateBlockHeader sealOk h s c) :=
  validateBlockHeader_verdict sealOk s c h hs hc hdao hn ht hp

/-- C23: an accepted header satisfies every rule; in particular its number is one above its parent's. -/
theorem c23_accepted_header (sealOk : BlockHeader → Bool) (s : HeaderStore) (c : ChainConfig) (h : BlockHeader)
    (hs : Spec.StoreWF s) (hc : Spec.ConfigWF c) (hdao : ∀ d, c.daoBlock = some d → d + 9 < 2 ^ 64)
    (hn : h.number < 2 ^ 64) (ht : h.timestamp < 2 ^ 64) (hp : Spec.ParentOk s c h)
    (e : validateBlockHeader sealOk h s c = .ok ()) :
    ∃ p, s.readHeader p.number h.parentHash = some p ∧ h.number = p.number + 1 ∧ p.timestamp < h.timestamp ∧
      h.gasUsed ≤ h.gasLimit ∧ 5000 ≤ h.gasLimit ∧ h.gasLimit < 2 ^ 63 ∧ h.extraData.length ≤ 32 ∧
      (¬ Spec.isLondonBlock c h.number →
        h.gasLimit < p.gasLimit + p.gasLimit / 1024 ∧ p.gasLimit < h.gasLimit + p.gasLimit / 1024) ∧
      (h.difficulty : Int) = Spec.difficulty c h.number p.difficulty (h.timestamp - p.timestamp)
        (decide (p.ommersHash ≠ kEmptyListHash)) ∧
      Spec.BaseFeeRule c h p ∧ (c.sealEngine = .ethash → sealOk h = true) := by
  have hv := (validateBlockHeader_verdict sealOk s c h hs hc hdao hn ht hp).ok_iff.mp e
  unfold Spec.headerRules at hv
  simp only [List.forall_mem_cons] at hv
  obtain ⟨h1, h2, h3, h4, ⟨p, h5⟩, h6, h7, h8, _, h10, h11, _⟩ := hv
  refine ⟨p, h5.2, h5.1.symm, h6 p h5, h1, h2, h3, h4, ?_, h8 p h5, h10 p h5, h11⟩
  intro hl
  exact h7 p h5 p.gasLimit ⟨fun x => absurd x hl, fun _ => rfl⟩

/-- C23: an accepted header has a base fee exactly from London on, so the precondition on parents is kept. -/
theorem c23_accepted_base_fee (sealOk : BlockHeader → Bool) (s : HeaderStore) (c : ChainConfig) (h : BlockHeader)
    (hc : Spec.ConfigWF c) (e : validateBlockHeader sealOk h s c = .ok ()) :
    h.baseFeePerGas.isSome ↔ Spec.forkActive c 9 h.number := by
  unfold validateBlockHeader at e
  iterate 4 (split at e; · cases e)
  split at e
  · cases e
  · rename_i p _
    iterate 4 (split at e; · cases e)
    obtain ⟨f, e1, e⟩ := Outcome.bind_eq_ok.mp e
    split at e
    · cases e
    · rename_i hf
      rw [Classical.not_not] at hf
      rw [hf]
      by_cases ha : Spec.forkActive c 9 h.number
      · have h1 := (revision_lt c hc h.number (x := Revision.london) (by decide)).not.mpr (not_not_intro ha)
        unfold expectedBaseFeePerGas at e1
        rw [if_neg h1] at e1
        simp only [ha, iff_true]
        split at e1
        · cases e1; rfl
        · simp only at e1
          split at e1
          · cases e1
          · split at e1
            · cases e1; rfl
            · split at e1
              · cases e1
              · split at e1
                · cases e1; rfl
                · split at e1 <;> cases e1 <;> rfl
      · rw [expectedBaseFee_pre c hc h p ha] at e1
        cases e1
        simp [ha]

/-- C23: hence with ordered forks, the child of an accepted header has the base fee it needs. -/
theorem c23_parent_base_fee (sealOk : BlockHeader → Bool) (s : HeaderStore) (c : ChainConfig) (h p : BlockHeader)
    (hc : Spec.ConfigWF c) (ho : Spec.ConfigOrdered c) (hp : Spec.IsParent s h p)
    (e : validateBlockHeader sealOk p s c = .ok ()) (ha : Spec.forkActive c 9 h.number)
    (hl : ¬ Spec.isLondonBlock c h.number) : ∃ f, p.baseFeePerGas = some f := by
  rw [← Option.isSome_iff_exists, c23_accepted_base_fee sealOk s c p hc e]
  obtain ⟨r, h1, h2, b, h3, h4⟩ := ha
  have hn := hp.1
  obtain ⟨a, h5, h6⟩ : ∃ a, c.forkBlocks[8]? = some (some a) ∧ a ≤ h.number := by
    by_cases hr : r = 9
    · subst hr; exact ⟨b, h3, h4⟩
    · obtain ⟨a, h5, h6⟩ := ho 8 (r - 1) b (by omega) h3
      exact ⟨a, h5, by omega⟩
  have hne : a ≠ h.number := by
    intro heq
    subst heq
    exact hl h5
  exact ⟨9, Nat.le_refl _, by decide, a, h5, by omega⟩

/-- A store with the header `exHeader` only. -/
def exStore : HeaderStore :=
  { readHeader := fun n hash => if n = 12965000 ∧ hash = List.replicate 32 9 then some exHeader else none
    readBody := fun n hash => if n = 12965000 ∧ hash = List.replicate 32 9 then some {} else none }

theorem exStore_wf : Spec.StoreWF exStore := by
  intro n hash p e
  simp only [exStore] at e
  split at e
  · rename_i hc
    cases e
    rw [hc.1]
    exact ⟨rfl, by decide +kernel, by decide +kernel, by decide +kernel, by decide +kernel, by decide +kernel,
      by intro f hf; cases hf; decide +kernel⟩
  · cases e

theorem exStore_parentOk (u : BlockHeader) : Spec.ParentOk exStore kMainnetConfig u := by
  intro p hp
  have h2 := hp.2
  have h1 := hp.1
  simp only [exStore] at h2
  split at h2
  · rename_i hc
    cases h2
    refine ⟨?_, fun _ _ => ⟨_, rfl⟩⟩
    have hn : u.number = 12965001 := by rw [← h1, hc.1]
    rw [hn]
    have hb : ∀ m, m ≤ 12965001 → Spec.bomb m ≤ 2 ^ 198 := by
      intro m hm
      unfold Spec.bomb
      split
      · decide
      · have h2 := Nat.pow_le_pow_right (n := 2) (by decide) (show m / 100000 - 2 ≤ 198 by omega)
        exact_mod_cast h2
    have ha : ∀ f m, f ≤ 2 → m ≤ 12965001 → Spec.adjusted exHeader.difficulty f (Spec.bomb m) < 2 ^ 256 := by
      intro f m hf hm
      have h1 := hb m hm
      have h2 : (exHeader.difficulty : Int) / 2048 * f ≤ (exHeader.difficulty : Int) / 2048 * 2 :=
        Int.mul_le_mul_of_nonneg_left hf (by omega)
      have h3 : (exHeader.difficulty : Int) = 2 ^ 255 := rfl
      unfold Spec.adjusted Spec.minDifficulty
      omega
    unfold Spec.difficulty
    split
    · exact ha _ _ (by split <;> omega) (by omega)
    · split
      · exact ha _ _ (by omega) (by omega)
      · exact ha _ _ (by split <;> omega) (by omega)
  · cases h2

example : validateBlockHeader (fun _ => true) exChild exStore kMainnetConfig = .ok () := by decide +kernel

example : ∀ r ∈ Spec.headerRules (fun _ => true) exStore kMainnetConfig exChild, r.2 :=
  (c23_header_verdict _ exStore kMainnetConfig exChild exStore_wf mainnet_wf mainnet_dao (by decide +kernel)
    (by decide +kernel) (exStore_parentOk _)).ok_iff.mp (by decide +kernel)

example : validateBlockHeader (fun _ => true) { exChild with gasLimit := 30029297 } exStore kMainnetConfig =
      .err .wrongDifficulty ∨
    validateBlockHeader (fun _ => true) { exChild with gasLimit := 30029296 } exStore kMainnetConfig =
      .err .invalidGasLimit := by decide +kernel

/-! ## C24: transactions -/

/-- C24 as stated: pre-validation gives the verdict of the transaction rules. -/
def C24_statement : Prop :=
  ∀ (t : Transaction) (number : Nat) (c : ChainConfig) (baseFee : Option Nat), t.WF → Spec.ConfigWF c →
    Spec.TxSizes t → Spec.Verdict (Spec.transactionRules Ecdsa.secp256k1n c number baseFee t)
      (preValidateTransaction t number c baseFee)

/-- C24 is violated: a signature with `r` at the group order passes. -/
theorem c24_transaction_violated : ¬ C24_statement := by
  intro h
  have hv := h { r := Ecdsa.secp256k1n, s := 1, gasLimit := 53000 } 12965000 kMainnetConfig none
    ⟨by decide, by decide, by decide, by decide, by simp, by decide, by simp, by decide +kernel, by decide +kernel,
      by simp⟩ mainnet_wf ⟨by decide, by decide, by decide⟩
  have hok := hv.ok_iff.mp (by decide +kernel)
  unfold Spec.transactionRules at hok
  simp only [List.forall_mem_cons] at hok
  obtain ⟨_, _, _, _, _, h6, _⟩ := hok
  exact absurd h6.2.1 (Nat.lt_irrefl _)

/-- C24, partial: the verdict is right for signatures of which not exactly one half reaches the group order. Missing:
signatures with exactly one of `r`, `s` at least the group order, which the code accepts. -/
theorem c24_transaction_verdict_partial (t : Transaction) (number : Nat) (c : ChainConfig) (baseFee : Option Nat)
    (hc : Spec.ConfigWF c) (hsz : Spec.TxSizes t) (hrs : t.r < Ecdsa.secp256k1n ↔ t.s < Ecdsa.secp256k1n) :
    Spec.Verdict (Spec.transactionRules Ecdsa.secp256k1n c number baseFee t)
      (preValidateTransaction t number c baseFee) :=
  preValidateTransaction_verdict t number c baseFee hc hsz hrs

/-- C24, partial: whatever the signature, an accepted transaction satisfies every other rule. -/
theorem c24_transaction_accepted_partial (t : Transaction) (number : Nat) (c : ChainConfig) (baseFee : Option Nat)
    (hc : Spec.ConfigWF c) (hsz : Spec.TxSizes t) (e : preValidateTransaction t number c baseFee = .ok ()) :
    ∀ r ∈ Spec.transactionRules Ecdsa.secp256k1n c number baseFee t, r.1 ≠ .invalidSignature → r.2 := by
  -- replace the signature by a good one; the other checks do not look at it
  have e' : preValidateTransaction { t with r := 1, s := 1 } number c baseFee = .ok () := by
    unfold preValidateTransaction at e ⊢
    simp only at e ⊢
    have hsig : ∀ b, Ecdsa.isValidSignature 1 1 b = true := by decide +kernel
    rw [hsig]
    have hg : ∀ a b, intrinsicGas { t with r := 1, s := 1 } a b = intrinsicGas t a b := fun _ _ => rfl
    rw [hg]
    repeat' split at e
    all_goals first | (cases e; done) | skip
    rw [if_neg ‹_›, if_neg ‹_›, if_neg ‹_›, if_neg ‹_›, if_neg ‹_›, if_neg (by simp), if_neg ‹_›]
  have hv := (preValidateTransaction_verdict { t with r := 1, s := 1 } number c baseFee hc hsz
    (by simp [Ecdsa.secp256k1n])).ok_iff.mp e'
  unfold Spec.transactionRules at hv ⊢
  simp only [List.forall_mem_cons] at hv ⊢
  obtain ⟨h1, h2, h3, h4, h5, _, h7, _⟩ := hv
  exact ⟨fun _ => h1, fun _ => h2, fun _ => h3, fun _ => h4, fun _ => h5, fun h => absurd rfl h, fun _ => h7, by simp⟩

example : preValidateTransaction { r := 1, s := 1, gasLimit := 53000, maxFeePerGas := 7, maxPriorityFeePerGas := 7 }
      12965000 kMainnetConfig (some 7) = .ok () ∧
    preValidateTransaction { r := 1, s := 1, gasLimit := 52999, maxFeePerGas := 7, maxPriorityFeePerGas := 7 }
      12965000 kMainnetConfig (some 7) = .err .intrinsicGas ∧
    preValidateTransaction { type := .eip1559, chainId := some 1, r := 1, s := 1, gasLimit := 53000 } 12964999
      kMainnetConfig none = .err .unsupportedTransactionType ∧
    preValidateTransaction { chainId := some 2 } 12964999 kMainnetConfig none = .err .wrongChainId := by decide +kernel

/-! ## C25: ommers -/

/-- C25: the kinship test succeeds exactly for siblings of ancestors up to the sixth generation that are no ancestors
themselves. -/
theorem c25_is_kin (s : HeaderStore) (hs : Spec.StoreWF s) (h u p : BlockHeader) (hun : u.number < 2 ^ 64)
    (hhn : h.number < 2 ^ 64) (hb : Spec.BodiesOk s h) (hp : Spec.IsParent s h p) :
    (isKin s u p h.parentHash 6).1 = true ↔ Spec.Kin s h u := isKin_iff hs hun hhn hb hp

/-- C25: the ommers of an accepted block are at most two, distinct, valid headers, siblings of recent ancestors but no
ancestors, and not listed by any ancestor. -/
theorem c25_ommers (keccak : Bytes → Bytes) (listRoot : List Bytes → Bytes) (sealOk : BlockHeader → Bool)
    (s : HeaderStore) (c : ChainConfig) (b : Block) (hs : Spec.StoreWF s) (hc : Spec.ConfigWF c)
    (hdao : ∀ d, c.daoBlock = some d → d + 9 < 2 ^ 64) (hn : b.header.number < 2 ^ 64) (hb : Spec.BodiesOk s b.header)
    (hus : ∀ u ∈ b.ommers, u.number < 2 ^ 64 ∧ u.timestamp < 2 ^ 64 ∧ Spec.ParentOk s c u)
    (e : preValidateBlock keccak listRoot sealOk b s c = .ok ()) :
    b.ommers.length ≤ 2 ∧ b.ommers.Nodup ∧
      ∀ u ∈ b.ommers, (∀ r ∈ Spec.headerRules sealOk s c u, r.2) ∧ Spec.Kin s b.header u ∧
        ¬ Spec.OmmerOfAncestor s b.header u := by
  unfold preValidateBlock at e
  simp only at e
  obtain ⟨_, e1, e⟩ := Outcome.bind_eq_ok.mp e
  iterate 4 (split at e; · cases e)
  rename_i h2 h3
  obtain ⟨_, e2, _⟩ := Outcome.bind_eq_ok.mp e
  -- the parent exists because the header was accepted
  obtain ⟨p, hp⟩ := validateBlockHeader_parent e1
  rw [hp] at e2
  have hv := (validateOmmers_verdict sealOk s c b.header p b.ommers hs hc hdao hn hb ((getParent_iff hs hn).mp hp)
    hus).ok_iff.mp e2
  refine ⟨by omega, ?_, ?_⟩
  · exact Classical.not_not.mp ((nodup2 (by omega)).not.mp h3)
  · intro u hu
    have h' : ∀ r ∈ Spec.ommerRules sealOk s c b.header u, r.2 := by
      intro r hr
      exact hv r (List.mem_flatMap.mpr ⟨u, hu, hr⟩)
    unfold Spec.ommerRules at h'
    simp only [List.forall_mem_cons] at h'
    exact ⟨h'.1, h'.2.1, h'.2.2.1⟩

/-! ## C68: blocks before execution -/

/-- C68: block pre-validation gives the verdict of the block rules, for blocks whose signatures are in range and whose
transactions and headers are encodable. -/
theorem c68_block_verdict (keccak : Bytes → Bytes) (listRoot : List Bytes → Bytes) (sealOk : BlockHeader → Bool)
    (s : HeaderStore) (c : ChainConfig) (b : Block) (hs : Spec.StoreWF s) (hc : Spec.ConfigWF c)
    (hdao : ∀ d, c.daoBlock = some d → d + 9 < 2 ^ 64) (hw : b.header.WF) (hp : Spec.ParentOk s c b.header)
    (hb : Spec.BodiesOk s b.header) (hus : ∀ u ∈ b.ommers, u.WF ∧ Spec.ParentOk s c u)
    (hsize : (Spec.rlp (.list (b.ommers.map Spec.headerItem))).length < 2 ^ 64)
    (hts : ∀ t ∈ b.transactions, t.Codable ∧ Spec.TxSizes t ∧ (t.r < Ecdsa.secp256k1n ↔ t.s < Ecdsa.secp256k1n)) :
    Spec.Verdict (Spec.blockRules keccak listRoot Ecdsa.secp256k1n sealOk s c b)
      (preValidateBlock keccak listRoot sealOk b s c) := by
  have hhv := validateBlockHeader_verdict sealOk s c b.header hs hc hdao hw.number hw.timestamp hp
  have g2 := rlp_list_length_ge (b.ommers.map Spec.headerItem)
  have eo : encodeVector lengthBlockHeader (encodeBlockHeader · false) b.ommers =
      Spec.rlp (.list (b.ommers.map Spec.headerItem)) :=
    (encVec (f := Spec.headerItem) (fun u hu => header_spec (hus u hu).1 false) (fun u hu => header_length (hus u hu).1) (by omega)).1
  have et : b.transactions.map (encodeTransaction · false false) = b.transactions.map Spec.txEnvelope := by
    apply List.map_congr_left
    intro t ht
    have hcod := (hts t ht).1
    by_cases hty : t.type = .legacy
    · exact c09_legacy_spec t hty hcod.wf hcod.sized.data (hcod.v hty) false
    · exact (c10_typed_spec t hty hcod.wf hcod.sized).1
  unfold Spec.blockRules preValidateBlock
  simp only
  rw [eo, et, List.append_assoc]
  refine hhv.append (fun hall => ?_)
  have hpar : ∃ p, Spec.IsParent s b.header p := by
    unfold Spec.headerRules at hall
    simp only [List.forall_mem_cons] at hall
    exact hall.2.2.2.2.1
  obtain ⟨p, hpar⟩ := hpar
  simp only [List.cons_append, List.nil_append]
  refine .step Iff.rfl (fun _ => ?_)
  refine .step Iff.rfl (fun _ => ?_)
  refine .step (by omega) (fun hlen => ?_)
  refine .step (nodup2 hlen) (fun _ => ?_)
  rw [(getParent_iff hs hw.number).mpr hpar]
  exact (validateOmmers_verdict sealOk s c b.header p b.ommers hs hc hdao hw.number hb hpar
    (fun u hu => ⟨(hus u hu).1.number, (hus u hu).1.timestamp, (hus u hu).2⟩)).append
    (fun _ => preValidateTransactions_verdict c _ _ b.transactions hc (fun t ht => (hts t ht).2))

/-- A header stored at height 100 whose child at 101 is the parent of the example block. -/
def exGrand : BlockHeader := { exHeader with number := 100, baseFeePerGas := none }
/-- The parent of the example block. -/
def exParent : BlockHeader := { exGrand with number := 101, parentHash := List.replicate 32 10 }
/-- A sibling of the parent. -/
def exUncle : BlockHeader := { exParent with beneficiary := List.replicate 20 77 }
/-- The header of the example block. -/
def exTop : BlockHeader := { exGrand with number := 102, parentHash := List.replicate 32 11 }
/-- The chain `exGrand`, `exParent`. -/
def exChain : HeaderStore :=
  { readHeader := fun n hash =>
      if n = 100 ∧ hash = List.replicate 32 10 then some exGrand
      else if n = 101 ∧ hash = List.replicate 32 11 then some exParent else none
    readBody := fun _ _ => some {} }

example : (isKin exChain exUncle exParent exTop.parentHash 6).1 = true ∧
    (isKin exChain exParent exParent exTop.parentHash 6).1 = false ∧
    (isKin exChain exTop exParent exTop.parentHash 6).1 = false := by decide +kernel

example : preValidateBlock (fun _ => List.replicate 32 2) (fun _ => List.replicate 32 5) (fun _ => true)
    { header := exChild, ommers := [],
      transactions := [{ r := 1, s := 1, gasLimit := 53000, maxFeePerGas := 10 ^ 9, maxPriorityFeePerGas := 7 }] }
    exStore kMainnetConfig = .ok () := by decide +kernel

/-! ## C67: configuration as JSON -/

open ChainConfig

/-- C67: a configuration is read back from its JSON form. -/
theorem c67_json_roundtrip (c : ChainConfig) (hc : c.forkBlocks.length = 10) : fromJson (toJson c) = .ok (some c) := by
  obtain ⟨chainId, engine, forks, muir, dao⟩ := c
  simp only at hc
  rcases forks with _ | ⟨a0, _ | ⟨a1, _ | ⟨a2, _ | ⟨a3, _ | ⟨a4, _ | ⟨a5, _ | ⟨a6, _ | ⟨a7, _ | ⟨a8, _ | ⟨a9, _ | ⟨a10, l⟩⟩⟩⟩⟩⟩⟩⟩⟩⟩⟩ <;>
    simp only [List.length_cons, List.length_nil] at hc <;> try omega
  have same : ∀ (j : JsonObject) (k : String) (o : Option Nat), j k = none →
      readMember (memberToJson j k o) k = .ok o := by
    intro j k o h
    cases o <;> simp [readMember, memberToJson, JsonObject.insert, h]
  have ne : ∀ (j : JsonObject) (k k' : String) (o : Option Nat), k' ≠ k → memberToJson j k o k' = j k' := by
    intro j k k' o h
    cases o <;> simp [memberToJson, JsonObject.insert, h]
  have rne : ∀ (j : JsonObject) (k k' : String) (o : Option Nat), k' ≠ k →
      readMember (memberToJson j k o) k' = readMember j k' := by
    intro j k k' o h
    unfold readMember
    rw [ne j k k' o h]
  have sne : ∀ (j : JsonObject) (k : String), k ≠ "ethash" → k ≠ "clique" → k ≠ "aura" → sealToJson j engine k = j k := by
    intro j k h1 h2 h3
    cases engine <;> simp [sealToJson, JsonObject.insert, h1, h2, h3]
  unfold fromJson toJson jsonForkNames
  simp only [List.zip_cons_cons, List.zip_nil_right, List.foldl_cons, List.foldl_nil, readMembers]
  simp [same, ne, rne, sne, JsonObject.insert, readSealEngine]
  cases engine <;> simp [sealToJson, JsonObject.insert]

/-- C67: `operator==`, which compares JSON forms, is equality of configurations. -/
theorem c67_equality (a b : ChainConfig) (ha : a.forkBlocks.length = 10) (hb : b.forkBlocks.length = 10) :
    toJson a = toJson b ↔ a = b := by
  constructor
  · intro h
    have h1 := c67_json_roundtrip a ha
    rw [h, c67_json_roundtrip b hb] at h1
    cases h1
    rfl
  · rintro rfl; rfl

/-- C67: without a numeric chain id there is no configuration. -/
theorem c67_no_chain_id (j : JsonObject) (h : ∀ n, j "chainId" ≠ some (.number n)) : fromJson j = .ok none := by
  unfold fromJson
  split
  · rename_i n e; exact absurd e (h n)
  · rfl

example : (fromJson (toJson kMainnetConfig)) = .ok (some kMainnetConfig) := c67_json_roundtrip _ (by decide)

example : toJson kMainnetConfig "daoForkBlock" = some (.number 1920000) ∧
    toJson kMainnetConfig "shanghaiBlock" = none := by decide

end Silkworm.Properties
