import Verif.Chain.Lemmas
import Verif.Types.BlockLemmas

/-!
# Lemmas about header, transaction and ommer validation
-/

namespace Silkworm

open Rlp

/-! ## Base fee -/

theorem div_div_le {a b c d : Nat} (hd : a ≤ d) (hb : 0 < b) : a * b / b / c ≤ d := by
  rw [Nat.mul_div_cancel _ hb]
  exact Nat.le_trans (Nat.div_le_self _ _) hd

/-- The code's base fee from the parent equals the specified one as long as the products fit. -/
theorem expectedBaseFee_post (c : ChainConfig) (hc : Spec.ConfigWF c) (h p : BlockHeader) (fee : Nat)
    (ha : Spec.forkActive c 9 h.number) (hl : ¬ Spec.isLondonBlock c h.number) (hf : p.baseFeePerGas = some fee)
    (hfee : fee < 2 ^ 192) (hu : p.gasUsed < 2 ^ 63) (hlim : p.gasLimit < 2 ^ 64)
    (ht : p.gasUsed = p.gasLimit / 2 ∨ 0 < p.gasLimit / 2) :
    expectedBaseFeePerGas h p c = .ok (some (Spec.nextBaseFee fee p.gasUsed p.gasLimit)) := by
  have h1 := (revision_lt c hc h.number (x := Revision.london) (by decide)).not.mpr (not_not_intro ha)
  have h2 := (isLondonBlock_iff c h.number).not.mpr hl
  unfold expectedBaseFeePerGas Spec.nextBaseFee kElasticityMultiplier kBaseFeeMaxChangeDenominator
  rw [if_neg h1, if_neg h2, hf]
  simp only
  by_cases e1 : p.gasUsed = p.gasLimit / 2
  · rw [if_pos e1, if_pos e1]
  · have ht' : 0 < p.gasLimit / 2 := by rcases ht with h | h; exact absurd h e1; exact h
    rw [if_neg e1, if_neg e1, if_neg (by omega)]
    generalize htg : p.gasLimit / 2 = tg at *
    have htg64 : tg < 2 ^ 63 := by omega
    by_cases e2 : p.gasUsed > tg
    · rw [if_pos e2, if_pos e2]
      have hmul : fee * (p.gasUsed - tg) < 2 ^ 192 * 2 ^ 63 :=
        Nat.mul_lt_mul_of_lt_of_le hfee (by omega) (by decide)
      have hm : mul256 fee (p.gasUsed - tg) = fee * (p.gasUsed - tg) := by
        unfold mul256
        rw [Nat.mod_eq_of_lt (Nat.lt_of_lt_of_le hmul (by decide))]
      rw [hm]
      have hle : fee * (p.gasUsed - tg) / tg / 8 ≤ fee * (p.gasUsed - tg) :=
        Nat.le_trans (Nat.div_le_self _ _) (Nat.div_le_self _ _)
      generalize fee * (p.gasUsed - tg) / tg / 8 = d at *
      have hmax : (if d < 1 then 1 else d) = max d 1 := by split <;> omega
      rw [hmax]
      have hadd : add256 fee (max d 1) = fee + max d 1 := by
        unfold add256
        rw [Nat.mod_eq_of_lt]
        have hx : (2 : Nat) ^ 192 * 2 ^ 63 = 2 ^ 255 := by decide +kernel
        rw [hx] at hmul
        omega
      rw [hadd]
    · rw [if_neg e2, if_neg e2]
      have hm : mul256 fee (tg - p.gasUsed) = fee * (tg - p.gasUsed) := by
        unfold mul256
        have hmul : fee * (tg - p.gasUsed) < 2 ^ 192 * 2 ^ 63 :=
          Nat.mul_lt_mul_of_lt_of_le hfee (by omega) (by decide)
        rw [Nat.mod_eq_of_lt (Nat.lt_of_lt_of_le hmul (by decide))]
      rw [hm]
      generalize fee * (tg - p.gasUsed) / tg / 8 = d at *
      by_cases e3 : fee > d
      · rw [if_pos e3]
      · rw [if_neg e3, Nat.sub_eq_zero_of_le (by omega)]

theorem expectedBaseFee_pre (c : ChainConfig) (hc : Spec.ConfigWF c) (h p : BlockHeader)
    (ha : ¬ Spec.forkActive c 9 h.number) : expectedBaseFeePerGas h p c = .ok none := by
  unfold expectedBaseFeePerGas
  rw [if_pos ((revision_lt c hc h.number (x := Revision.london) (by decide)).mpr ha)]

theorem expectedBaseFee_london (c : ChainConfig) (hc : Spec.ConfigWF c) (h p : BlockHeader)
    (ha : Spec.forkActive c 9 h.number) (hl : Spec.isLondonBlock c h.number) :
    expectedBaseFeePerGas h p c = .ok (some 1000000000) := by
  have h1 := (revision_lt c hc h.number (x := Revision.london) (by decide)).not.mpr (not_not_intro ha)
  unfold expectedBaseFeePerGas
  rw [if_neg h1, if_pos ((isLondonBlock_iff c h.number).mpr hl)]
  rfl

/-! ## Parents -/

theorem getParent_iff {s : HeaderStore} (hs : Spec.StoreWF s) {h p : BlockHeader} (hn : h.number < 2 ^ 64) :
    getParent s h = some p ↔ Spec.IsParent s h p := by
  unfold getParent Spec.IsParent
  constructor
  · intro e
    obtain ⟨h1, h2, _⟩ := hs _ _ _ e
    have h3 : sub64 h.number 1 = h.number - 1 ∧ 0 < h.number := by
      by_cases h0 : h.number = 0
      · rw [h0] at h2
        have : sub64 0 1 + 1 = 2 ^ 64 := by decide
        omega
      · exact ⟨sub64_le (by omega) hn, by omega⟩
    rw [h3.1] at h1 e
    exact ⟨by omega, by rw [h1]; exact e⟩
  · rintro ⟨h1, h2⟩
    have : sub64 h.number 1 = p.number := by rw [sub64_le (by omega) hn]; omega
    rw [this]; exact h2

theorem isParent_unique {s : HeaderStore} {h p q : BlockHeader} (h1 : Spec.IsParent s h p) (h2 : Spec.IsParent s h q) :
    p = q := by
  have hn : p.number = q.number := by have := h1.1; have := h2.1; omega
  have e1 := h1.2
  have e2 := h2.2
  rw [hn] at e1
  rw [e1] at e2
  exact Option.some.inj e2

/-! ## Header rules -/

theorem gasLimitOk_iff (c : ChainConfig) (h p : BlockHeader) (hp : p.gasLimit < 2 ^ 63) :
    gasLimitOk h p c = true ↔ ∀ limit, Spec.ParentLimit c h p limit →
      h.gasLimit < limit + limit / 1024 ∧ limit < h.gasLimit + limit / 1024 := by
  unfold gasLimitOk Spec.ParentLimit kElasticityMultiplier
  have h1 := isLondonBlock_iff c h.number
  by_cases hl : Spec.isLondonBlock c h.number
  · simp only [if_pos (h1.mpr hl)]
    rw [Nat.mod_eq_of_lt (by omega), Nat.mul_comm]
    simp only [hl, forall_const, not_true_eq_false, false_implies, and_true, decide_eq_true_eq]
    constructor
    · rintro h2 limit rfl; split at h2 <;> omega
    · intro h2
      have := h2 _ rfl
      split <;> omega
  · simp only [if_neg (h1.not.mpr hl)]
    simp only [hl, forall_const, not_false_eq_true, false_implies, true_and, decide_eq_true_eq]
    constructor
    · rintro h2 limit rfl; split at h2 <;> omega
    · intro h2
      have := h2 _ rfl
      split <;> omega

theorem daoExtraData_eq : Spec.daoExtraData = kDaoExtraData := by decide +kernel

theorem inDaoRange_iff (c : ChainConfig) (n : Nat) (hc : ∀ d, c.daoBlock = some d → d + 9 < 2 ^ 64) (hn : n < 2 ^ 64) :
    inDaoRange c n = true ↔ ∃ d, c.daoBlock = some d ∧ d ≤ n ∧ n < d + 10 := by
  unfold inDaoRange
  rcases hd : c.daoBlock with _ | d
  · simp
  · have := hc d hd
    simp only [Option.some.injEq, exists_eq_left', decide_eq_true_eq]
    rw [Nat.mod_eq_of_lt this]
    omega

theorem difficulty_pos (c : ChainConfig) (n p e : Nat) (u : Bool) : 0 ≤ Spec.difficulty c n p e u := by
  have h : ∀ a b d, 0 ≤ Spec.adjusted a b d := by
    intro a b d
    unfold Spec.adjusted Spec.minDifficulty
    omega
  unfold Spec.difficulty
  split
  · exact h _ _ _
  · split <;> exact h _ _ _

/-- The header check gives the verdict of the header rules. -/
theorem validateBlockHeader_verdict (sealOk : BlockHeader → Bool) (s : HeaderStore) (c : ChainConfig) (h : BlockHeader)
    (hs : Spec.StoreWF s) (hc : Spec.ConfigWF c) (hdao : ∀ d, c.daoBlock = some d → d + 9 < 2 ^ 64)
    (hn : h.number < 2 ^ 64) (ht : h.timestamp < 2 ^ 64)  (hp : Spec.ParentOk s c h) :
    Spec.Verdict (Spec.headerRules sealOk s c h) (validateBlockHeader sealOk h s c) := by
  unfold Spec.headerRules validateBlockHeader
  refine .step (by omega) (fun _ => ?_)
  refine .step (by omega) (fun _ => ?_)
  refine .step (by omega) (fun _ => ?_)
  refine .step (by omega) (fun _ => ?_)
  cases hpar : getParent s h with
  | none =>
    refine .broken ?_
    rintro ⟨p, hp⟩
    rw [(getParent_iff hs hn).mpr hp] at hpar
    cases hpar
  | some p =>
    have hip : Spec.IsParent s h p := (getParent_iff hs hn).mp hpar
    have hall : ∀ {Q : BlockHeader → Prop}, (∀ q, Spec.IsParent s h q → Q q) ↔ Q p :=
      fun {Q} => ⟨fun a => a p hip, fun a q hq => isParent_unique hip hq ▸ a⟩
    obtain ⟨_, _, hgl, hgu, hpt, hpd, hfee⟩ := hs _ _ _ hip.2
    obtain ⟨hd, hpf⟩ := hp p hip
    refine .holds ⟨p, hip⟩ ?_
    simp only
    refine .step (by rw [hall]; omega) (fun hts => ?_)
    have hts' : p.timestamp < h.timestamp := hts p hip
    refine .step (by rw [hall, ← gasLimitOk_iff c h p hgl]; simp) (fun hgl' => ?_)
    have hL := (hall (Q := fun p => ∀ limit, Spec.ParentLimit c h p limit →
      h.gasLimit < limit + limit / 1024 ∧ limit < h.gasLimit + limit / 1024)).mp hgl'
    refine .step ?_ (fun _ => ?_)
    · rw [hall]
      rw [← canonicalDifficulty_eq c hc h.number p.difficulty h.timestamp p.timestamp _ hpd ht (by omega) hd]
      rw [ne_eq, eq_comm]
      constructor
      · intro a b; exact a (by exact_mod_cast b)
      · intro a b; exact a (by exact_mod_cast b)
    refine .step ?_ (fun _ => ?_)
    · rw [inDaoRange_iff c h.number hdao hn, daoExtraData_eq]
      constructor
      · rintro ⟨⟨d, h1, h2, h3⟩, h4⟩ a; exact h4 (a d h1 h2 h3)
      · intro a
        by_contra hcon
        apply a
        intro d h1 h2 h3
        by_contra h4
        exact hcon ⟨⟨d, h1, h2, h3⟩, h4⟩
    have hseal : Spec.Verdict [(ValidationError.invalidSeal, c.sealEngine = .ethash → sealOk h = true)]
        (if c.sealEngine = .ethash ∧ sealOk h = false then .err .invalidSeal else .ok ()) := by
      refine .step ?_ (fun _ => .nil)
      rw [Classical.not_imp]
      simp
    have fin : ∀ f, expectedBaseFeePerGas h p c = .ok f → (Spec.BaseFeeRule c h p ↔ h.baseFeePerGas = f) →
        Spec.Verdict ((ValidationError.wrongBaseFee, ∀ p, Spec.IsParent s h p → Spec.BaseFeeRule c h p) ::
            [(ValidationError.invalidSeal, c.sealEngine = .ethash → sealOk h = true)])
          (expectedBaseFeePerGas h p c >>= fun fee =>
            if h.baseFeePerGas ≠ fee then .err .wrongBaseFee
            else if c.sealEngine = .ethash ∧ sealOk h = false then .err .invalidSeal else .ok ()) := by
      intro f e1 e2
      rw [e1, Outcome.ok_bind]
      exact .step (by rw [hall, e2]) (fun _ => hseal)
    by_cases ha : Spec.forkActive c 9 h.number
    · by_cases hl : Spec.isLondonBlock c h.number
      · refine fin _ (expectedBaseFee_london c hc h p ha hl) ?_
        unfold Spec.BaseFeeRule
        simp [ha, hl]
      · obtain ⟨fee, hf⟩ := hpf ha hl
        have hlim := (hL p.gasLimit ⟨fun x => absurd x hl, fun _ => rfl⟩)
        refine fin _ (expectedBaseFee_post c hc h p fee ha hl hf (hfee fee hf) hgu (by omega) (by omega)) ?_
        unfold Spec.BaseFeeRule
        simp [ha, hl, hf]
    · refine fin _ (expectedBaseFee_pre c hc h p ha) ?_
      unfold Spec.BaseFeeRule
      simp [ha]

theorem validateBlockHeader_parent {sealOk : BlockHeader → Bool} {s : HeaderStore} {c : ChainConfig} {h : BlockHeader}
    (e : validateBlockHeader sealOk h s c = .ok ()) : ∃ p, getParent s h = some p := by
  unfold validateBlockHeader at e
  simp only [Outcome.ite_err_eq_ok] at e
  obtain ⟨_, _, _, _, e⟩ := e
  cases hg : getParent s h with
  | some p => exact ⟨p, rfl⟩
  | none => rw [hg] at e; cases e

/-! ## Transaction rules -/

theorem mul_isSome_lt {o : Option Nat} {x : Nat} : (o.isSome = true ∧ x < o.getD 0) ↔ ¬ ∀ f, o = some f → f ≤ x := by
  rcases o with _ | f
  · simp
  · simp

/-- The signature test agrees with the specification when it is not the case that exactly one of `r` and `s` reaches
the group order. -/
theorem isValidSignature_iff (r s : Nat) (hs : Bool) (h : r < Ecdsa.secp256k1n ↔ s < Ecdsa.secp256k1n) :
    Ecdsa.isValidSignature r s hs = true ↔ Spec.SignatureInRange Ecdsa.secp256k1n r s hs := by
  have hn : Ecdsa.secp256k1n / 2 = Ecdsa.secp256k1Halfn := by decide +kernel
  unfold Ecdsa.isValidSignature Spec.SignatureInRange
  rw [hn]
  by_cases h1 : r < Ecdsa.secp256k1n
  · have h2 := h.mp h1
    cases hs <;> simp [h1, h2, Nat.pos_iff_ne_zero] <;> omega
  · have h2 : ¬ s < Ecdsa.secp256k1n := fun x => h1 (h.mpr x)
    have h1' := Nat.le_of_not_lt h1
    have h2' := Nat.le_of_not_lt h2
    cases hs <;> simp [h1, h2, h1', h2', Nat.pos_iff_ne_zero]

/-- Transaction pre-validation gives the verdict of the transaction rules, if exactly one of `r` and `s` does not reach
the group order. -/
theorem preValidateTransaction_verdict (t : Transaction) (number : Nat) (c : ChainConfig) (baseFee : Option Nat)
    (hc : Spec.ConfigWF c) (hsz : Spec.TxSizes t) (hrs : t.r < Ecdsa.secp256k1n ↔ t.s < Ecdsa.secp256k1n) :
    Spec.Verdict (Spec.transactionRules Ecdsa.secp256k1n c number baseFee t)
      (preValidateTransaction t number c baseFee) := by
  classical
  have hh : decide (c.revision number ≥ Revision.homestead) = decide (Spec.forkActive c 1 number) :=
    decide_eq_decide.mpr (le_revision c hc number (x := Revision.homestead) (by decide))
  have hi : decide (c.revision number ≥ Revision.istanbul) = decide (Spec.forkActive c 7 number) :=
    decide_eq_decide.mpr (le_revision c hc number (x := Revision.istanbul) (by decide))
  have h3 := revision_lt c hc number (x := Revision.spuriousDragon) (by decide)
  have h8 := revision_lt c hc number (x := Revision.berlin) (by decide)
  have h9 := revision_lt c hc number (x := Revision.london) (by decide)
  unfold Spec.transactionRules preValidateTransaction
  simp only
  rw [hh, hi]
  refine .step ?_ (fun _ => ?_)
  · rw [h3]
    rcases t.chainId with _ | id
    · simp
    · simp only [Option.isSome_some, true_and, Option.some.injEq, forall_eq', ne_eq, not_and_or]
      rfl
  refine .step (by rw [h8, Classical.not_imp]; rfl) (fun _ => ?_)
  refine .step (by rw [h9, Classical.not_imp]; rfl) (fun _ => ?_)
  refine .step mul_isSome_lt (fun _ => ?_)
  refine .step (by omega) (fun _ => ?_)
  refine .step ?_ (fun _ => ?_)
  · rw [← isValidSignature_iff t.r t.s _ hrs, Bool.not_eq_true]
  refine .step ?_ (fun _ => .nil)
  rw [intrinsicGas_eq t _ _ hsz]
  rw [Nat.not_le]

/-! ## Ommers -/

theorem ancestor_number {s : HeaderStore} {h : BlockHeader} {i : Nat} {m : BlockHeader} {hash : Bytes}
    (a : Spec.Ancestor s h i m hash) : m.number + i = h.number ∧ 1 ≤ i := by
  induction a with
  | parent hp => exact ⟨hp.1, by omega⟩
  | next _ hp ih => have := hp.1; omega

theorem ancestor_unique {s : HeaderStore} {h : BlockHeader} {i : Nat} {m m' : BlockHeader} {hash hash' : Bytes}
    (a : Spec.Ancestor s h i m hash) (b : Spec.Ancestor s h i m' hash') : m = m' ∧ hash = hash' := by
  induction a generalizing m' hash' with
  | parent hp =>
    cases b with
    | parent hq => exact ⟨isParent_unique hp hq, rfl⟩
    | next b' _ => have := ancestor_number b'; omega
  | next a' hp ih =>
    cases b with
    | parent hq => have := ancestor_number a'; omega
    | next b' hq =>
      obtain ⟨e1, e2⟩ := ih b'
      subst e1
      exact ⟨isParent_unique hp hq, rfl⟩

/-- What `isKin` finds: the generation of the sibling, and that the header is none of the ancestors up to there nor
listed by them, in terms of generations from `k`. -/
theorem isKin_true {s : HeaderStore} (hs : Spec.StoreWF s) {h u : BlockHeader} (hun : u.number < 2 ^ 64)
    (hhn : h.number < 2 ^ 64) {n k : Nat} {m : BlockHeader} {hash : Bytes} (a : Spec.Ancestor s h k m hash)
    (e : (isKin s u m hash n).1 = true) :
    ∃ i m' hash' p, k ≤ i ∧ i < k + n ∧ Spec.Ancestor s h i m' hash' ∧ Spec.IsParent s m' p ∧ Spec.IsParent s u p ∧
      u ≠ m' ∧
      ∀ j mj hj body, k ≤ j → j ≤ i → Spec.Ancestor s h j mj hj → s.readBody mj.number hj = some body →
        u ∈ body.ommers → u ∈ (isKin s u m hash n).2 := by
  induction n generalizing k m hash with
  | zero => simp [isKin] at e
  | succ n ih =>
    have han := ancestor_number a
    have hmn : m.number < 2 ^ 64 := by omega
    unfold isKin at e ⊢
    by_cases e1 : u = m
    · rw [if_pos e1] at e; simp at e
    · rw [if_neg e1] at e
      rw [if_neg e1]
      cases e2 : s.readBody m.number hash with
      | none => rw [e2] at e; simp at e
      | some body =>
        rw [e2] at e
        simp only at e ⊢
        cases e3 : getParent s m with
        | none => rw [e3] at e; simp at e
        | some mp =>
          rw [e3] at e
          simp only at e ⊢
          have hmp := (getParent_iff hs hmn).mp e3
          by_cases e4 : getParent s u = some mp
          · rw [if_pos e4]
            refine ⟨k, m, hash, mp, Nat.le_refl _, by omega, a, hmp, (getParent_iff hs hun).mp e4, e1, ?_⟩
            intro j mj hj b h1 h2 h3 h4 h5
            have hj' : j = k := by omega
            subst hj'
            obtain ⟨x1, x2⟩ := ancestor_unique a h3
            subst x1; subst x2
            rw [e2] at h4
            cases h4
            exact h5
          · rw [if_neg e4] at e
            rw [if_neg e4]
            simp only at e ⊢
            obtain ⟨i, m', hash', p, g1, g2, g3, g4, g5, g6, g7⟩ := ih (.next a hmp) e
            refine ⟨i, m', hash', p, by omega, by omega, g3, g4, g5, g6, ?_⟩
            intro j mj hj b h1 h2 h3 h4 h5
            apply List.mem_append.mpr
            by_cases hj' : j = k
            · subst hj'
              obtain ⟨x1, x2⟩ := ancestor_unique a h3
              subst x1; subst x2
              rw [e2] at h4
              cases h4
              exact Or.inl h5
            · exact Or.inr (g7 j mj hj b (by omega) h2 h3 h4 h5)

/-- Conversely a sibling of an ancestor that is no ancestor itself is recognised, if the bodies are known. -/
theorem isKin_complete {s : HeaderStore} (hs : Spec.StoreWF s) {h u : BlockHeader} (hun : u.number < 2 ^ 64)
    (hhn : h.number < 2 ^ 64) (hb : Spec.BodiesOk s h) {n k i : Nat} {m mi p : BlockHeader} {hash hi : Bytes}
    (a : Spec.Ancestor s h k m hash) (hki : k ≤ i) (hin : i < k + n) (ai : Spec.Ancestor s h i mi hi)
    (hp : Spec.IsParent s mi p) (hu : Spec.IsParent s u p) (hne : ∀ i m hash, Spec.Ancestor s h i m hash → u ≠ m) :
    (isKin s u m hash n).1 = true := by
  induction n generalizing k m hash with
  | zero => omega
  | succ n ih =>
    have han := ancestor_number a
    have hmn : m.number < 2 ^ 64 := by omega
    obtain ⟨body, e2, _⟩ := hb _ _ _ a
    unfold isKin
    rw [if_neg (hne _ _ _ a), e2]
    simp only
    by_cases hk : i = k
    · subst hk
      obtain ⟨x1, x2⟩ := ancestor_unique a ai
      subst x1; subst x2
      rw [(getParent_iff hs hmn).mpr hp]
      simp only
      rw [if_pos ((getParent_iff hs hun).mpr hu)]
    · -- a parent of `m` exists because generation `i > k` does
      have hex : ∀ {i' : Nat} {m' : BlockHeader} {h' : Bytes}, Spec.Ancestor s h i' m' h' → k < i' →
          ∃ q, Spec.IsParent s m q := by
        intro i' m' h' a'
        induction a' with
        | parent _ => intro hlt; omega
        | @next j m0 p0 h0 a0 hp0 ih0 =>
          intro hlt
          by_cases hj : j = k
          · subst hj
            obtain ⟨x1, _⟩ := ancestor_unique a a0
            subst x1
            exact ⟨_, hp0⟩
          · exact ih0 (by omega)
      obtain ⟨q, hq⟩ := hex ai (by omega)
      rw [(getParent_iff hs hmn).mpr hq]
      simp only
      by_cases e4 : getParent s u = some q
      · rw [if_pos e4]
      · rw [if_neg e4]
        exact ih (.next a hq) (by omega) (by omega)

/-- Everything `isKin` collects comes from an ancestor. -/
theorem isKin_collects {s : HeaderStore} (hs : Spec.StoreWF s) {h u : BlockHeader} (hhn : h.number < 2 ^ 64) {n k : Nat}
    {m : BlockHeader} {hash : Bytes} (a : Spec.Ancestor s h k m hash) {x : BlockHeader}
    (hx : x ∈ (isKin s u m hash n).2) : Spec.OmmerOfAncestor s h x := by
  induction n generalizing k m hash with
  | zero => simp [isKin] at hx
  | succ n ih =>
    have han := ancestor_number a
    have hmn : m.number < 2 ^ 64 := by omega
    unfold isKin at hx
    by_cases e1 : u = m
    · rw [if_pos e1] at hx; simp at hx
    · rw [if_neg e1] at hx
      cases e2 : s.readBody m.number hash with
      | none => rw [e2] at hx; simp at hx
      | some body =>
        rw [e2] at hx
        simp only at hx
        cases e3 : getParent s m with
        | none => rw [e3] at hx; exact ⟨k, m, hash, body, a, e2, hx⟩
        | some mp =>
          rw [e3] at hx
          simp only at hx
          by_cases e4 : getParent s u = some mp
          · rw [if_pos e4] at hx; exact ⟨k, m, hash, body, a, e2, hx⟩
          · rw [if_neg e4] at hx
            rcases List.mem_append.mp hx with hx | hx
            · exact ⟨k, m, hash, body, a, e2, hx⟩
            · exact ih (.next a ((getParent_iff hs hmn).mp e3)) hx

/-- Kinship of the whole family: `isKin` from the parent, six generations. -/
theorem isKin_iff {s : HeaderStore} (hs : Spec.StoreWF s) {h u p : BlockHeader} (hun : u.number < 2 ^ 64)
    (hhn : h.number < 2 ^ 64) (hb : Spec.BodiesOk s h) (hp : Spec.IsParent s h p) :
    (isKin s u p h.parentHash 6).1 = true ↔ Spec.Kin s h u := by
  constructor
  · intro e
    obtain ⟨i, m, hash, q, h1, h2, h3, h4, h5, h6, _⟩ := isKin_true hs hun hhn (.parent hp) e
    refine ⟨⟨i, m, hash, q, h1, by omega, h3, h4, h5⟩, ?_⟩
    intro j mj hj hanc heq
    have n1 := ancestor_number h3
    have n2 := ancestor_number hanc
    have n3 := h4.1
    have n4 := h5.1
    subst heq
    have : j = i := by omega
    subst this
    exact h6 (ancestor_unique hanc h3).1
  · rintro ⟨⟨i, m, hash, q, h1, h2, h3, h4, h5⟩, h6⟩
    exact isKin_complete hs hun hhn hb (.parent hp) h1 (by omega) h3 h4 h5 h6

/-- For kin, the collected ommers are exactly decisive. -/
theorem isKin_old_iff {s : HeaderStore} (hs : Spec.StoreWF s) {h u p : BlockHeader} (hun : u.number < 2 ^ 64)
    (hhn : h.number < 2 ^ 64) (hb : Spec.BodiesOk s h) (hp : Spec.IsParent s h p)
    (e : (isKin s u p h.parentHash 6).1 = true) :
    u ∈ (isKin s u p h.parentHash 6).2 ↔ Spec.OmmerOfAncestor s h u := by
  constructor
  · exact isKin_collects hs hhn (.parent hp)
  · rintro ⟨j, mj, hj, body, a, hbody, hu⟩
    obtain ⟨i, m, hash, q, h1, h2, h3, h4, h5, h6, h7⟩ := isKin_true hs hun hhn (.parent hp) e
    obtain ⟨body', hb1, hb2⟩ := hb _ _ _ a
    rw [hbody] at hb1
    cases hb1
    have hlt := hb2 u hu
    have n1 := ancestor_number h3
    have n2 := ancestor_number a
    have n3 := h4.1
    have n4 := h5.1
    exact h7 j mj hj body (by omega) (by omega) a hbody hu

/-! ## Blocks -/

theorem nodup2 {α : Type} {l : List α} (h : l.length ≤ 2) : (l.length = 2 ∧ l[0]? = l[1]?) ↔ ¬ l.Nodup := by
  rcases l with _ | ⟨x, _ | ⟨y, _ | ⟨z, w⟩⟩⟩
  · simp
  · simp
  · simp
  · simp at h

/-- The ommer loop gives the verdict of the ommer rules. -/
theorem validateOmmers_verdict (sealOk : BlockHeader → Bool) (s : HeaderStore) (c : ChainConfig) (h p : BlockHeader)
    (us : List BlockHeader) (hs : Spec.StoreWF s) (hc : Spec.ConfigWF c)
    (hdao : ∀ d, c.daoBlock = some d → d + 9 < 2 ^ 64) (hhn : h.number < 2 ^ 64) (hb : Spec.BodiesOk s h)
    (hp : Spec.IsParent s h p)
    (hus : ∀ u ∈ us, u.number < 2 ^ 64 ∧ u.timestamp < 2 ^ 64 ∧ Spec.ParentOk s c u) :
    Spec.Verdict (us.flatMap (Spec.ommerRules sealOk s c h)) (validateOmmers sealOk s c (some p) h.parentHash us) := by
  induction us with
  | nil => exact .nil
  | cons u us ih =>
    obtain ⟨h1, h2, h3⟩ := hus u (by simp)
    have hv := validateBlockHeader_verdict sealOk s c u hs hc hdao h1 h2 h3
    unfold validateOmmers
    rw [List.flatMap_cons]
    unfold Spec.ommerRules
    cases e : validateBlockHeader sealOk u s c with
    | ub => rw [e] at hv; exact absurd rfl hv.ne_ub
    | err x =>
      simp only
      refine .broken ?_
      intro hall
      rw [← hv.ok_iff, e] at hall
      cases hall
    | ok x =>
      rw [e] at hv
      simp only
      refine .holds (hv.ok_iff.mp rfl) ?_
      have hk := isKin_iff hs h1 hhn hb hp
      refine .step (by rw [← hk, Bool.not_eq_true]) (fun hk' => ?_)
      refine .step ?_ (fun _ => ih (fun u hu => hus u (by simp [hu])))
      rw [Classical.not_not, ← isKin_old_iff hs h1 hhn hb hp (hk.mpr hk')]
      simp

/-- The transaction loop gives the verdict of the transaction rules. -/
theorem preValidateTransactions_verdict (c : ChainConfig) (number : Nat) (baseFee : Option Nat) (ts : List Transaction)
    (hc : Spec.ConfigWF c)
    (hts : ∀ t ∈ ts, Spec.TxSizes t ∧ (t.r < Ecdsa.secp256k1n ↔ t.s < Ecdsa.secp256k1n)) :
    Spec.Verdict (ts.flatMap (Spec.transactionRules Ecdsa.secp256k1n c number baseFee))
      (preValidateTransactions number c baseFee ts) := by
  induction ts with
  | nil => exact .nil
  | cons t ts ih =>
    obtain ⟨h1, h2⟩ := hts t (by simp)
    rw [List.flatMap_cons]
    unfold preValidateTransactions
    exact (preValidateTransaction_verdict t number c baseFee hc h1 h2).append
      (fun _ => ih (fun t ht => hts t (by simp [ht])))

end Silkworm
