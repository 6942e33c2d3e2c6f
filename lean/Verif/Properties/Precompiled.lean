import Verif.Execution.PrecompiledLemmas

/-!
# Properties C44, C45: precompiled contracts
-/

namespace Silkworm.Properties

open Precompiled
open Spec.Precompiled (baseLength exponentLength modulusLength modexpGas saturate IsModexp)

/-! ## C44 -/

theorem words64_eq {n : Nat} (h : n < 2 ^ 48) : words64 n = Spec.Precompiled.words n := by
  unfold words64 Spec.Precompiled.words
  split <;> omega

/-- C44: gas of all contracts but the modular exponentiation, for inputs that fit into memory. -/
theorem c44_gas (num rev : Nat) (input : Bytes) (h : input.length < 2 ^ 48) (h1 : 1 ≤ num) (h9 : num ≤ 9) (h5 : num ≠ 5) :
    Precompiled.gas num input rev = .ok (Spec.Precompiled.gas num (decide (Revision.istanbul ≤ rev)) input) := by
  have hw := words64_eq h
  have hwb : Spec.Precompiled.words input.length < 2 ^ 48 := by
    unfold Spec.Precompiled.words; split <;> omega
  have hk : input.length / 192 < 2 ^ 41 := by omega
  have hcase : num = 1 ∨ num = 2 ∨ num = 3 ∨ num = 4 ∨ num = 6 ∨ num = 7 ∨ num = 8 ∨ num = 9 := by omega
  have ite : ∀ a b : Nat, (if rev ≥ Revision.istanbul then a else b) =
      if decide (Revision.istanbul ≤ rev) = true then a else b := by
    intro a b
    by_cases hr : rev ≥ Revision.istanbul
    · rw [if_pos hr, if_pos (by simpa using hr)]
    · rw [if_neg hr, if_neg (by simpa using hr)]
  rcases hcase with e | e | e | e | e | e | e | e <;> subst e <;>
    unfold Precompiled.gas Spec.Precompiled.gas <;> refine congrArg Outcome.ok ?_
  · rfl
  · show _ = 60 + 12 * Spec.Precompiled.words input.length
    unfold sha256Gas; rw [hw]; generalize Spec.Precompiled.words input.length = w at *; omega
  · show _ = 600 + 120 * Spec.Precompiled.words input.length
    unfold rip160Gas; rw [hw]; generalize Spec.Precompiled.words input.length = w at *; omega
  · show _ = 15 + 3 * Spec.Precompiled.words input.length
    unfold idGas; rw [hw]; generalize Spec.Precompiled.words input.length = w at *; omega
  · exact ite _ _
  · exact ite _ _
  · show _ = if decide (Revision.istanbul ≤ rev) = true then 45000 + 34000 * (input.length / 192)
      else 100000 + 80000 * (input.length / 192)
    unfold snarkvGas
    generalize input.length / 192 = k at *
    rw [← ite]
    by_cases hr : rev ≥ Revision.istanbul
    · rw [if_pos hr, if_pos hr]; omega
    · rw [if_neg hr, if_neg hr]; omega
  · show _ = if input.length < 4 then 0 else Spec.Precompiled.numberAt input 0 4
    unfold blake2Gas
    by_cases hl : input.length < 4
    · rw [if_pos hl, if_pos hl]
    · rw [if_neg hl, if_neg hl]
      have := numberAt_eq (input := input) (p := input) (fun _ => rfl) (off := 0) (len := 4) (by omega)
      rw [this]; rfl

example : Precompiled.gas 2 (List.replicate 33 1) Revision.london = .ok 84 ∧
    Precompiled.gas 3 (List.replicate 32 1) Revision.frontier = .ok 720 ∧ Precompiled.gas 4 [] 0 = .ok 15 ∧
    Precompiled.gas 8 (List.replicate 384 0) Revision.byzantium = .ok 260000 ∧
    Precompiled.gas 8 (List.replicate 384 0) Revision.berlin = .ok 113000 ∧
    Precompiled.gas 9 [0, 0, 1, 2] Revision.istanbul = .ok 258 ∧ Precompiled.gas 9 [1, 2, 3] Revision.istanbul = .ok 0 := by
  decide +kernel

/-- Three lengths and what follows. -/
def exModexp (b e m : Nat) (rest : Bytes) : Bytes := beFixed 32 b ++ beFixed 32 e ++ beFixed 32 m ++ rest

/-- C44, full statement: the gas of a modular exponentiation is that of EIP-198 and EIP-2565, saturating. It does not
hold: before Berlin an exponent declared to be 2^64 bytes long makes the code return the largest number although the
formula gives a smaller one. -/
theorem c44_expmod_gas_violated :
    ¬ ∀ (rev : Nat) (input : Bytes),
      expmodGas input rev = .ok (saturate (modexpGas (decide (Revision.berlin ≤ rev)) input)) := by
  intro h
  have := h Revision.byzantium (exModexp 1 (2 ^ 64) 1 [])
  revert this
  decide +kernel

/-- C44, partial: the formula holds from Berlin on, and before when the exponent is declared to be shorter than 2^64
bytes. -/
theorem c44_expmod_gas_partial (rev : Nat) (input : Bytes)
    (h : Revision.berlin ≤ rev ∨ exponentLength input < 2 ^ 64) :
    expmodGas input rev = .ok (saturate (modexpGas (decide (Revision.berlin ≤ rev)) input)) :=
  expmodGas_eq input rev h

-- 3^2 mod 5; Fermat's little theorem with 32 bytes (example 1 of EIP-198); huge lengths saturate
example : expmodGas (exModexp 1 1 1 [3, 2, 5]) Revision.byzantium = .ok 0 ∧
    expmodGas (exModexp 1 1 1 [3, 2, 5]) Revision.berlin = .ok 200 ∧
    expmodGas (exModexp 1 32 32 (3 :: List.replicate 64 255)) Revision.byzantium = .ok 13056 ∧
    expmodGas (exModexp 1 32 32 (3 :: List.replicate 64 255)) Revision.berlin = .ok 1360 ∧
    expmodGas (exModexp 3000 5000 1500 []) Revision.byzantium = .ok 3582563904 ∧
    expmodGas (exModexp 1 (2 ^ 64) 1 []) Revision.berlin = .ok (2 ^ 64 - 1) ∧
    expmodGas (exModexp (2 ^ 255) 1 1 []) Revision.byzantium = .ok (2 ^ 64 - 1) := by decide +kernel

theorem modexpGas_large {input : Bytes} (he : 2 ^ 64 ≤ exponentLength input)
    (hz : ¬ (baseLength input = 0 ∧ modulusLength input = 0)) : 2 ^ 62 ≤ modexpGas false input := by
  unfold modexpGas
  have h1 : 8 * (2 ^ 64 - 32) ≤ max (Spec.Precompiled.adjustedExponentLength input) 1 := by
    unfold Spec.Precompiled.adjustedExponentLength
    dsimp only
    generalize Spec.Precompiled.highestBit _ = l
    rw [if_neg (by omega)]
    omega
  have h2 : 1 ≤ Spec.Precompiled.complexity198 (max (baseLength input) (modulusLength input)) := by
    unfold Spec.Precompiled.complexity198
    generalize hx : max (baseLength input) (modulusLength input) = x
    have hx1 : 1 ≤ x := by omega
    have hp : 1 ≤ x ^ 2 := Nat.one_le_pow _ _ hx1
    split
    · exact hp
    · split <;> omega
  have h3 := Nat.mul_le_mul h2 h1
  dsimp only
  rw [if_neg (by decide)]
  generalize Spec.Precompiled.complexity198 (max (baseLength input) (modulusLength input)) *
    max (Spec.Precompiled.adjustedExponentLength input) 1 = g at *
  omega

/-- C44: what a caller with less than 2^62 gas sees: the code's charge is more than the gas there is exactly when the
specified one is. Otherwise they are equal. This holds for every input. -/
theorem c44_expmod_affordable (rev : Nat) (input : Bytes) (m : Nat) (hm : m < 2 ^ 62) :
    ∃ g, expmodGas input rev = .ok g ∧
      (g ≤ m ↔ modexpGas (decide (Revision.berlin ≤ rev)) input ≤ m) ∧
      (g ≤ m → g = modexpGas (decide (Revision.berlin ≤ rev)) input) := by
  by_cases h : Revision.berlin ≤ rev ∨ exponentLength input < 2 ^ 64
  · refine ⟨_, expmodGas_eq input rev h, ?_⟩
    unfold saturate
    generalize modexpGas _ input = g
    omega
  · have hr : ¬ Revision.berlin ≤ rev := fun x => h (Or.inl x)
    have he : 2 ^ 64 ≤ exponentLength input := Nat.le_of_not_lt fun x => h (Or.inr x)
    rw [show decide (Revision.berlin ≤ rev) = false by simpa using hr]
    rw [expmodGas_eval]
    by_cases hz : baseLength input = 0 ∧ modulusLength input = 0
    · rw [if_pos hz]
      have h0 : modexpGas false input = 0 := by
        unfold modexpGas
        rw [hz.1, hz.2]
        have : Spec.Precompiled.complexity198 (max 0 0) = 0 := by decide
        dsimp only
        rw [this, if_neg (by decide)]
        simp
      rw [h0, if_pos (by omega)]
      exact ⟨0, rfl, by omega, fun _ => rfl⟩
    · rw [if_neg hz, if_pos (Or.inr (Or.inl he))]
      have := modexpGas_large he hz
      generalize modexpGas false input = g at *
      exact ⟨_, rfl, by omega, by omega⟩

/-! ## C45 -/

/-- C45: whenever a modular exponentiation can be paid for with less than 2^62 gas, it returns exactly as many bytes as
the modulus has, and they are base^exponent mod modulus. -/
theorem c45_modexp (rev : Nat) (input : Bytes) (g : Nat) (hg : expmodGas input rev = .ok g) (hm : g < 2 ^ 62) :
    ∃ out, expmodRun input = .ok (some out) ∧ IsModexp input out := by
  rw [expmodGas_eval] at hg
  by_cases hz : baseLength input = 0 ∧ modulusLength input = 0
  · exact expmodRun_eq input (by omega) (fun h => absurd hz.2 h)
  · rw [if_neg hz] at hg
    by_cases hbig : baseLength input ≥ 2 ^ 64 ∨ exponentLength input ≥ 2 ^ 64 ∨ modulusLength input ≥ 2 ^ 64
    · rw [if_pos hbig] at hg
      have := Outcome.ok.inj hg
      omega
    · rw [if_neg hbig] at hg
      have he : exponentLength input < 2 ^ 64 := by omega
      have hx : max (baseLength input) (modulusLength input) < 2 ^ 64 := by omega
      have hcost := Outcome.ok.inj hg
      rw [adjusted_eq he] at hcost
      refine expmodRun_eq input (by omega) (fun h0 => ?_)
      have hmax : max (modulusLength input) (baseLength input) = max (baseLength input) (modulusLength input) := Nat.max_comm _ _
      have hpos : 1 ≤ max (baseLength input) (modulusLength input) := by omega
      have hone : 1 ≤ max (Spec.Precompiled.adjustedExponentLength input) 1 := Nat.le_max_right _ _
      have hadj : 8 * (exponentLength input - 32) ≤ max (Spec.Precompiled.adjustedExponentLength input) 1 := by
        unfold Spec.Precompiled.adjustedExponentLength
        dsimp only
        generalize Spec.Precompiled.highestBit _ = l
        split <;> omega
      have ha := adjusted_lt he
      unfold expmodCost at hcost
      dsimp only at hcost
      rw [hmax] at hcost
      have hbm : baseLength input ≤ max (baseLength input) (modulusLength input) := Nat.le_max_left _ _
      have hmm : modulusLength input ≤ max (baseLength input) (modulusLength input) := Nat.le_max_right _ _
      generalize max (baseLength input) (modulusLength input) = x at *
      generalize max (Spec.Precompiled.adjustedExponentLength input) 1 = e at *
      -- a small cost bounds the complexity, hence the lengths
      have key : ∀ c : Nat, c < 2 ^ 129 → 1 ≤ c → (2 ^ 40 ≤ x → 2 ^ 72 ≤ c) → mul256 c e / 20 < 2 ^ 62 →
          baseLength input + exponentLength input + modulusLength input < 2 ^ 64 := by
        intro c hc h1 h2 h3
        rw [mul256_eq (by
          have : c * e ≤ (2 ^ 129 - 1) * (2 ^ 100 - 1) := Nat.mul_le_mul (by omega) (by omega)
          omega)] at h3
        have l1 := Nat.mul_le_mul (Nat.le_refl c) hone
        have l2 := Nat.mul_le_mul h1 (Nat.le_refl e)
        generalize c * e = q at *
        have hxs : x < 2 ^ 40 := by
          apply Nat.lt_of_not_le
          intro h
          have := h2 h
          omega
        omega
      by_cases hr : rev < Revision.berlin
      · rw [if_pos hr] at hcost
        obtain ⟨c1, c2⟩ := complexity198_eq hx
        rw [c1] at hcost
        refine key _ c2 ?_ ?_ ?_
        · unfold Spec.Precompiled.complexity198
          have hp : 1 ≤ x ^ 2 := Nat.one_le_pow _ _ hpos
          split
          · exact hp
          · split <;> omega
        · intro h
          unfold Spec.Precompiled.complexity198
          rw [if_neg (by omega), if_neg (by omega)]
          have : 2 ^ 40 * 2 ^ 40 ≤ x * x := Nat.mul_le_mul h h
          have hpow : x ^ 2 = x * x := by ring
          rw [hpow]
          generalize x * x = q at *
          omega
        · generalize mul256 _ e / 20 = q at *
          by_cases hq : q ≥ 2 ^ 64
          · rw [if_pos hq] at hcost; omega
          · rw [if_neg hq] at hcost; omega
      · rw [if_neg hr] at hcost
        obtain ⟨c1, c2⟩ := complexity2565_eq hx
        rw [c1] at hcost
        refine key _ c2 ?_ ?_ ?_
        · unfold Spec.Precompiled.complexity2565
          exact Nat.one_le_pow _ _ (by omega)
        · intro h
          unfold Spec.Precompiled.complexity2565
          have h1 : 2 ^ 37 ≤ (x + 7) / 8 := by omega
          have : 2 ^ 37 * 2 ^ 37 ≤ ((x + 7) / 8) * ((x + 7) / 8) := Nat.mul_le_mul h1 h1
          have hpow : ((x + 7) / 8) ^ 2 = ((x + 7) / 8) * ((x + 7) / 8) := by ring
          rw [hpow]
          generalize ((x + 7) / 8) * ((x + 7) / 8) = q at *
          omega
        · have hdiv : mul256 (Spec.Precompiled.complexity2565 x) e / 20 ≤ mul256 (Spec.Precompiled.complexity2565 x) e / 3 := by
            generalize mul256 _ e = q
            omega
          generalize mul256 (Spec.Precompiled.complexity2565 x) e / 3 = q at *
          generalize mul256 (Spec.Precompiled.complexity2565 x) e / 20 = q' at *
          by_cases hq : q ≥ 2 ^ 64
          · rw [if_pos hq] at hcost; omega
          · rw [if_neg hq] at hcost; omega

-- 3^5 mod 7 = 5; a missing tail counts as zeros: 3^0x100 mod 0x700; modulus zero; empty modulus; modulus one
example : expmodRun (exModexp 1 1 2 [3, 5, 0, 7]) = .ok (some [0, 5]) ∧
    expmodRun (exModexp 1 2 2 [3, 1, 0, 7]) = .ok (some [6, 1]) ∧
    expmodRun (exModexp 1 1 3 [3, 5]) = .ok (some [0, 0, 0]) ∧ expmodRun (exModexp 2 (2 ^ 200) 0 [3, 5]) = .ok (some []) ∧
    expmodRun (exModexp 0 0 1 [1]) = .ok (some [0]) ∧ expmodRun [] = .ok (some []) := by decide +kernel

/-- C45: the bound on the gas is needed: with a sum of lengths that exceeds 64 bits bytes outside the input are read. -/
theorem c45_lengths_wrap :
    expmodRun (exModexp 1 (2 ^ 64 - 1) 1 []) = .ub ∧
      expmodGas (exModexp 1 (2 ^ 64 - 1) 1 []) Revision.byzantium = .ok 7378697629483820633 := by decide +kernel

/-! ## C72 -/

theorem vToY_chain {v : Nat} : (Ecdsa.vToYParityAndChainId v).2.isSome = true ↔ ¬ (v = 27 ∨ v = 28) := by
  unfold Ecdsa.vToYParityAndChainId
  by_cases h : v = 27 ∨ v = 28
  · rw [if_pos h]; simp [h]
  · rw [if_neg h]; simp [h]

/-- C72: the signature contract returns what the Yellow Paper says, for every input. -/
theorem c72_ecrecover (c : Crypto) (ok : Spec.Precompiled.RecoverOk c.recover) (input : Bytes) :
    ecrecRun c input = .ok (some (Spec.Precompiled.ecrecover c.keccak c.recover input)) := by
  have hpad : (if input.length < 128 then input ++ List.replicate (128 - input.length) 0 else input) = padTo 128 input := by
    unfold padTo
    by_cases h : input.length < 128
    · rw [if_pos h]
    · rw [if_neg h, show 128 - input.length = 0 by omega]; simp
  have hp : ∀ i, (padTo 128 input).getD i 0 = input.getD i 0 := padTo_getD _ _
  have hl : 128 ≤ (padTo 128 input).length := by rw [padTo_length]; omega
  have ev := numberAt_eq hp (off := 32) (len := 32) (by omega)
  have er := numberAt_eq hp (off := 64) (len := 32) (by omega)
  have es := numberAt_eq hp (off := 96) (len := 32) (by omega)
  have eh := bytesAt_eq hp (off := 0) (len := 32) (by omega)
  have eg := bytesAt_eq hp (off := 64) (len := 64) (by omega)
  unfold ecrecRun Spec.Precompiled.ecrecover
  rw [hpad]
  dsimp only
  rw [← ev, ← er, ← es, ← eg, show (padTo 128 input).take 32 = Spec.Precompiled.bytesAt input 0 32 by rw [eh]; rfl]
  -- both halves of the signature as parts of it
  have sig1 : Spec.Precompiled.numberAt (Spec.Precompiled.bytesAt input 64 64) 0 32 = Spec.Precompiled.numberAt input 64 32 := by
    have : Spec.Precompiled.bytesAt (Spec.Precompiled.bytesAt input 64 64) 0 32 = Spec.Precompiled.bytesAt input 64 32 := by
      rw [bytesAt_eq (input := Spec.Precompiled.bytesAt input 64 64) (fun _ => rfl) (off := 0) (len := 32)
        (by unfold Spec.Precompiled.bytesAt; simp), eg, bytesAt_eq hp (off := 64) (len := 32) (by omega)]
      simp [List.take_take]
    unfold Spec.Precompiled.numberAt; rw [this]
  have sig2 : Spec.Precompiled.numberAt (Spec.Precompiled.bytesAt input 64 64) 32 32 = Spec.Precompiled.numberAt input 96 32 := by
    have : Spec.Precompiled.bytesAt (Spec.Precompiled.bytesAt input 64 64) 32 32 = Spec.Precompiled.bytesAt input 96 32 := by
      rw [bytesAt_eq (input := Spec.Precompiled.bytesAt input 64 64) (fun _ => rfl) (off := 32) (len := 32)
        (by unfold Spec.Precompiled.bytesAt; simp), eg, bytesAt_eq hp (off := 96) (len := 32) (by omega),
        List.drop_take, List.drop_drop]
      simp [List.take_take]
    unfold Spec.Precompiled.numberAt; rw [this]
  have hr := ok.range (Spec.Precompiled.bytesAt input 0 32) (Spec.Precompiled.bytesAt input 64 64)
  rw [sig1, sig2] at hr
  have hs := ok.shape (Spec.Precompiled.bytesAt input 0 32) (Spec.Precompiled.bytesAt input 64 64)
  have hodd : ∀ v, (v = 27 ∨ v = 28) → (Ecdsa.vToYParityAndChainId v).1 = decide (v = 28) := by
    intro v h
    unfold Ecdsa.vToYParityAndChainId; rw [if_pos h]
  have hN : Ecdsa.secp256k1n = 115792089237316195423570985008687907852837564279074904382605163141518161494337 := rfl
  generalize Spec.Precompiled.numberAt input 32 32 = v
  generalize Spec.Precompiled.numberAt input 64 32 = r at *
  generalize Spec.Precompiled.numberAt input 96 32 = s at *
  generalize Spec.Precompiled.bytesAt input 0 32 = h at *
  generalize Spec.Precompiled.bytesAt input 64 64 = sig at *
  by_cases hval : Ecdsa.isValidSignature r s false = true
  · rw [hval, if_neg (by decide)]
    by_cases hv : v = 27 ∨ v = 28
    · rw [if_neg (fun x => vToY_chain.mp x hv), hodd v hv]
      cases hrec : c.recover h sig (decide (v = 28)) with
      | none =>
        show _ = Outcome.ok (some (if _ then [] else []))
        rw [ite_self]
      | some key =>
        obtain ⟨h1, h2⟩ := hr _ _ hrec
        obtain ⟨point, hpl, rfl⟩ := hs _ _ hrec
        have hpos : 0 < r ∧ 0 < s := by
          unfold Ecdsa.isValidSignature at hval
          by_cases hz : r = 0 ∨ s = 0
          · rw [if_pos hz] at hval; cases hval
          · omega
        rw [if_pos ⟨hv, hpos.1, h1, hpos.2, h2⟩]
        rfl
    · rw [if_pos (vToY_chain.mpr hv), if_neg (fun x => hv x.1)]
  · rw [show Ecdsa.isValidSignature r s false = false by simpa using hval, if_pos (by decide), if_neg]
    rintro ⟨-, h1, h2, h3, h4⟩
    apply hval
    unfold Ecdsa.isValidSignature
    rw [if_neg (by omega), if_neg (by rw [hN]; omega), if_neg (by simp)]

/-- A recovery that knows a single signature, r = 1 and s = 2. -/
def exCrypto : Crypto where
  keccak b := List.replicate 12 7 ++ (b ++ List.replicate 20 9).take 20
  sha256 b := b
  ripemd160 b := b
  recover _ sig odd := if sig = beFixed 32 1 ++ beFixed 32 2 ∧ odd = true then some (4 :: List.replicate 64 5) else none
  bnAdd _ := none
  bnMul _ := none
  pairing _ := none
  blake2Compress h _ _ _ _ := h

example : Spec.Precompiled.RecoverOk exCrypto.recover := by
  constructor
  · intro h sig odd key hk
    dsimp only [exCrypto] at hk
    by_cases hc : sig = beFixed 32 1 ++ beFixed 32 2 ∧ odd = true
    · rw [hc.1]; decide +kernel
    · rw [if_neg hc] at hk; cases hk
  · intro h sig odd key hk
    dsimp only [exCrypto] at hk
    by_cases hc : sig = beFixed 32 1 ++ beFixed 32 2 ∧ odd = true
    · rw [if_pos hc] at hk
      exact ⟨List.replicate 64 5, by simp, (Option.some.inj hk).symm⟩
    · rw [if_neg hc] at hk; cases hk

-- v must be 27 or 28; s may be in the upper half, but not zero; bytes after the fourth word are ignored
example : ecrecRun exCrypto (beFixed 32 9 ++ beFixed 32 28 ++ beFixed 32 1 ++ beFixed 32 2 ++ [1, 2]) =
      .ok (some (List.replicate 12 0 ++ List.replicate 20 5)) ∧
    ecrecRun exCrypto (beFixed 32 9 ++ beFixed 32 27 ++ beFixed 32 1 ++ beFixed 32 2) = .ok (some []) ∧
    ecrecRun exCrypto (beFixed 32 9 ++ beFixed 32 36 ++ beFixed 32 1 ++ beFixed 32 2) = .ok (some []) ∧
    ecrecRun exCrypto (beFixed 32 9 ++ beFixed 32 28 ++ beFixed 32 1) = .ok (some []) := by decide +kernel

end Silkworm.Properties
