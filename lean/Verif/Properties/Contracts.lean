import Verif.Spec.Contracts
import Verif.Properties.Precompiled
import Verif.Properties.Messages
import Verif.Properties.Total

/-!
# Property C87: messages to precompiled contracts
-/

namespace Silkworm.Properties

open Evm
open Spec.Execution
open Spec.Precompiled (Returns cost Present blake2)
open IntraBlockState (view view_of_same balance_view)

/-- The contract exists in the revision of the block. -/
def ContractAt (env : Env) (address : Bytes) : Prop :=
  Present (decide (env.revision ≥ Revision.byzantium)) (decide (env.revision ≥ Revision.istanbul)) (beToNat address)

/-- What the message costs. -/
def contractCost (env : Env) (msg : Message) : Nat :=
  cost (decide (Revision.istanbul ≤ env.revision)) (decide (Revision.berlin ≤ env.revision)) (beToNat msg.destination) msg.input

/-- C87: the addresses that are treated as precompiled contracts are those of the contracts of the revision. -/
theorem c87_contracts (env : Env) (a : Bytes) : env.isPrecompiled a = true ↔ ContractAt env a := by
  unfold Env.isPrecompiled ContractAt Present Precompiled.number
  have hr : Revision.byzantium ≤ Revision.istanbul := by decide
  rw [Bool.and_eq_true, bne_iff_ne, decide_eq_true_iff, decide_eq_true_iff, decide_eq_true_iff]
  generalize beToNat a = n
  generalize Revision.byzantium = b, Revision.istanbul = i at *
  split
  · omega
  · split <;> omega

theorem ContractAt.le {env : Env} {a : Bytes} (h : ContractAt env a) : 1 ≤ beToNat a ∧ beToNat a ≤ 9 := by
  obtain ⟨h1, h2⟩ := h
  refine ⟨h1, ?_⟩
  rcases h2 with h | ⟨_, h⟩ | ⟨_, h⟩ <;> omega

theorem gas_small {num : Nat} {i : Bool} {input : Bytes} (h : input.length < 2 ^ 48) : Spec.Precompiled.gas num i input < 2 ^ 62 := by
  have hw : Spec.Precompiled.words input.length < 2 ^ 48 := by
    unfold Spec.Precompiled.words; split <;> omega
  have hk : input.length / 192 < 2 ^ 41 := by omega
  have h4 : Spec.Precompiled.numberAt input 0 4 < 2 ^ 32 := by
    unfold Spec.Precompiled.numberAt
    rw [Precompiled.number_eq]
    have := beToNat_lt (Spec.Precompiled.bytesAt input 0 4)
    rw [Precompiled.bytesAt_length] at this
    exact this
  unfold Spec.Precompiled.gas
  split <;> (try split) <;> omega

/-- The charge that is compared with the gas of the message is the specified one, or both are larger. -/
theorem charge (num rev : Nat) (input : Bytes) (h1 : 1 ≤ num) (h9 : num ≤ 9) (hl : input.length < 2 ^ 48) (gas : Int)
    (h0 : 0 ≤ gas) (hg : gas < 2 ^ 62) :
    ∃ g, Precompiled.gas num input rev = .ok g ∧
      ((toInt64 g < 0 ∨ toInt64 g > gas) ↔
        gas < cost (decide (Revision.istanbul ≤ rev)) (decide (Revision.berlin ≤ rev)) num input) ∧
      (¬ (toInt64 g < 0 ∨ toInt64 g > gas) → g < 2 ^ 62 ∧
        toInt64 g = cost (decide (Revision.istanbul ≤ rev)) (decide (Revision.berlin ≤ rev)) num input) := by
  unfold cost
  by_cases h5 : num = 5
  · subst h5
    rw [if_pos rfl]
    obtain ⟨g, e1, e2, e3⟩ := c44_expmod_affordable rev input gas.toNat (by omega)
    have hlt : g < 2 ^ 64 := expmodGas_lt e1
    refine ⟨g, e1, ?_, ?_⟩
    all_goals
      generalize Spec.Precompiled.modexpGas _ input = c at e2 e3 ⊢
      unfold toInt64
      split
      · next h =>
        by_cases hgm : g ≤ gas.toNat
        · have := e3 hgm; omega
        · have hn : ¬ c ≤ gas.toNat := fun x => hgm (e2.mpr x)
          omega
      · have hn : ¬ g ≤ gas.toNat := by omega
        have hn' : ¬ c ≤ gas.toNat := fun x => hn (e2.mpr x)
        omega
  · rw [if_neg h5]
    refine ⟨_, c44_gas num rev input hl h1 h9 h5, ?_⟩
    have hs := gas_small (num := num) (i := decide (Revision.istanbul ≤ rev)) hl
    generalize Spec.Precompiled.gas num _ input = g at hs ⊢
    unfold toInt64
    rw [if_pos (by omega)]
    constructor
    · omega
    · intro _; exact ⟨hs, rfl⟩

theorem blake2Run_eq (c : Precompiled.Crypto) (input : Bytes) : Precompiled.blake2Run c input = blake2 c.blake2Compress input := by
  unfold Precompiled.blake2Run blake2
  by_cases hl : input.length = 213
  · rw [if_neg (by simpa using hl)]
    have hp : ∀ i, input.getD i 0 = input.getD i 0 := fun _ => rfl
    have hn : Spec.Precompiled.numberAt input 212 1 = (input.getD 212 0).toNat := by
      unfold Spec.Precompiled.numberAt Spec.Precompiled.bytesAt
      simp [Spec.Precompiled.number]
    rw [Precompiled.bytesAt_eq hp (off := 4) (len := 64) (by omega), Precompiled.bytesAt_eq hp (off := 68) (len := 128) (by omega),
      Precompiled.bytesAt_eq hp (off := 196) (len := 16) (by omega), Precompiled.numberAt_eq hp (off := 0) (len := 4) (by omega), hn]
    dsimp only
    generalize input.getD 212 0 = f
    have h0 : f = 0 ↔ f.toNat = 0 := ⟨fun h => by rw [h]; rfl, fun h => UInt8.toNat_inj.mp h⟩
    have h1 : f = 1 ↔ f.toNat = 1 := ⟨fun h => by rw [h]; rfl, fun h => UInt8.toNat_inj.mp h⟩
    by_cases hf : f ≠ 0 ∧ f ≠ 1
    · rw [if_pos hf, if_neg]
      intro hh
      rw [Ne, Ne, h0, h1] at hf
      omega
    · rw [if_neg hf, if_pos]
      · congr 2
        by_cases hz : f = 0
        · subst hz; rfl
        · have : f = 1 := by by_contra hx; exact hf ⟨hz, hx⟩
          subst this; rfl
      · refine ⟨hl, ?_⟩
        by_cases hz : f = 0
        · have := h0.mp hz; omega
        · have : f = 1 := by by_contra hx; exact hf ⟨hz, hx⟩
          have := h1.mp this; omega
  · rw [if_pos hl, if_neg (fun h => hl h.1)]

theorem run_returns (c : Precompiled.Crypto) (ok : Spec.Precompiled.RecoverOk c.recover) (num rev g : Nat) (input : Bytes)
    (h1 : 1 ≤ num) (h9 : num ≤ 9) (hg : Precompiled.gas num input rev = .ok g) (hm : g < 2 ^ 62) :
    ∃ out, Precompiled.run c num input = .ok out ∧ Returns c num input out := by
  have : num = 1 ∨ num = 2 ∨ num = 3 ∨ num = 4 ∨ num = 5 ∨ num = 6 ∨ num = 7 ∨ num = 8 ∨ num = 9 := by omega
  rcases this with h | h | h | h | h | h | h | h | h <;> subst h
  · exact ⟨_, c72_ecrecover c ok input, rfl⟩
  · exact ⟨_, rfl, rfl⟩
  · exact ⟨_, rfl, rfl⟩
  · exact ⟨_, rfl, rfl⟩
  · obtain ⟨out, h2, h3⟩ := c45_modexp rev input g hg hm
    exact ⟨_, h2, out, rfl, h3⟩
  · exact ⟨_, rfl, rfl⟩
  · exact ⟨_, rfl, rfl⟩
  · exact ⟨_, rfl, rfl⟩
  · exact ⟨_, rfl, blake2Run_eq c input⟩

/-- The result of a message to a contract that returns this. -/
def contractResult (msg : Message) (cost : Nat) (out : Option Bytes) : Result :=
  if msg.gas < cost then ⟨.outOfGas, 0, [], zeroAddress⟩
  else
    match out with
    | some o => ⟨.success, msg.gas - cost, o, zeroAddress⟩
    | none => ⟨.precompileFailure, 0, [], zeroAddress⟩

theorem enter_contract {env : Env} (ok : Spec.Precompiled.RecoverOk env.crypto.recover) {txn : Transaction}
    {sub : Message → Machine → Outcome Fault (Result × Machine)} {msg : Message} {r : Bytes} {m : Machine}
    (hc : ContractAt env msg.destination) (hl : msg.input.length < 2 ^ 48) (h0 : 0 ≤ msg.gas) (hg : msg.gas < 2 ^ 62) :
    ∃ out s, Returns env.crypto (beToNat msg.destination) msg.input out ∧
      enter env txn sub msg r m = .ok (contractResult msg (contractCost env msg) out, { m with state := s }) ∧
      ((contractResult msg (contractCost env msg) out).status = .success → s = transfer env msg r m.state) := by
  obtain ⟨h1, h9⟩ := hc.le
  have hmod : beToNat msg.destination % 256 = beToNat msg.destination := Nat.mod_eq_of_lt (by omega)
  obtain ⟨g, e1, e2, e3⟩ := charge (beToNat msg.destination) env.revision msg.input h1 h9 hl msg.gas h0 hg
  unfold enter
  dsimp only
  rw [if_pos ((c87_contracts env msg.destination).mpr hc)]
  unfold runPrecompiled
  dsimp only
  rw [hmod, okBind e1]
  by_cases ho : toInt64 g < 0 ∨ toInt64 g > msg.gas
  · rw [if_pos ho]
    have hc : msg.gas < (contractCost env msg : Int) := e2.mp ho
    have he : ∀ out, contractResult msg (contractCost env msg) out = ⟨.outOfGas, 0, [], zeroAddress⟩ := fun out => by
      unfold contractResult; rw [if_pos hc]
    obtain ⟨out, ho'⟩ : ∃ out, Returns env.crypto (beToNat msg.destination) msg.input out := by
      have hcase : beToNat msg.destination = 1 ∨ beToNat msg.destination = 2 ∨ beToNat msg.destination = 3 ∨
        beToNat msg.destination = 4 ∨ beToNat msg.destination = 5 ∨ beToNat msg.destination = 6 ∨ beToNat msg.destination = 7 ∨
        beToNat msg.destination = 8 ∨ beToNat msg.destination = 9 := by omega
      rcases hcase with h | h | h | h | h | h | h | h | h <;> rw [h]
      · exact ⟨_, rfl⟩
      · exact ⟨_, rfl⟩
      · exact ⟨_, rfl⟩
      · exact ⟨_, rfl⟩
      · refine ⟨_, beFixed (Spec.Precompiled.modulusLength msg.input)
          (if Spec.Precompiled.modulus msg.input = 0 then 0 else
            Spec.Precompiled.base msg.input ^ Spec.Precompiled.exponent msg.input % Spec.Precompiled.modulus msg.input), rfl,
          beFixed_length _ _, ?_⟩
        rw [Precompiled.number_eq, beToNat_beFixed]
        have hml : Spec.Precompiled.modulus msg.input < 256 ^ Spec.Precompiled.modulusLength msg.input := by
          unfold Spec.Precompiled.modulus Spec.Precompiled.numberAt
          rw [Precompiled.number_eq]
          have := beToNat_lt (Spec.Precompiled.bytesAt msg.input (96 + Spec.Precompiled.baseLength msg.input +
            Spec.Precompiled.exponentLength msg.input) (Spec.Precompiled.modulusLength msg.input))
          rwa [Precompiled.bytesAt_length] at this
        split
        · exact Nat.pow_pos (by decide)
        · next hz => exact Nat.lt_trans (Nat.mod_lt _ (Nat.pos_of_ne_zero hz)) hml
      · exact ⟨_, rfl⟩
      · exact ⟨_, rfl⟩
      · exact ⟨_, rfl⟩
      · exact ⟨_, rfl⟩
    refine ⟨out, (transfer env msg r m.state).revertToSnapshot m.state.takeSnapshot, ho', ?_, ?_⟩
    · rw [he]; rfl
    · rw [he]; intro hh; cases hh
  · rw [if_neg ho]
    obtain ⟨hs, hgc⟩ := e3 ho
    obtain ⟨out, r1, r2⟩ := run_returns env.crypto ok _ env.revision g msg.input h1 h9 e1 hs
    have hc : ¬ msg.gas < (contractCost env msg : Int) := fun hh => ho (e2.mpr hh)
    rw [okBind r1]
    have hgc : toInt64 g = (contractCost env msg : Int) := hgc
    cases out with
    | none =>
      refine ⟨none, (transfer env msg r m.state).revertToSnapshot m.state.takeSnapshot, r2, ?_, ?_⟩
      · unfold contractResult; rw [if_neg hc]; rfl
      · unfold contractResult; rw [if_neg hc]; intro hh; cases hh
    | some o =>
      refine ⟨some o, transfer env msg r m.state, r2, ?_, ?_⟩
      · unfold contractResult; rw [if_neg hc, hgc]; rfl
      · intro _; rfl

/-- C87: a message to a precompiled contract, whose sender can pay the value, takes exactly the specified cost and returns what
the contract is specified to return. If it costs more than the message has, or the contract fails, all gas is taken and
nothing is returned. (That nothing changes then, is C75.) -/
theorem c87_result (env : Env) (ok : Spec.Precompiled.RecoverOk env.crypto.recover) (txn : Transaction) (fuel : Nat) (msg : Message)
    (m m' : Machine) (r : Result) (hk : msg.kind ≠ .create ∧ msg.kind ≠ .create2) (hc : ContractAt env msg.destination)
    (hl : msg.input.length < 2 ^ 48) (h0 : 0 ≤ msg.gas) (hg : msg.gas < 2 ^ 62)
    (hv : msg.kind = .delegatecall ∨ msg.value ≤ balance env.db m.state msg.sender)
    (h : message env txn fuel msg m = .ok (r, m')) :
    ∃ out, Returns env.crypto (beToNat msg.destination) msg.input out ∧
      (msg.gas < contractCost env msg → r = ⟨.outOfGas, 0, [], zeroAddress⟩) ∧
      (contractCost env msg ≤ msg.gas →
        (∀ o, out = some o → r = ⟨.success, msg.gas - contractCost env msg, o, zeroAddress⟩) ∧
        (out = none → r = ⟨.precompileFailure, 0, [], zeroAddress⟩)) := by
  cases fuel with
  | zero => cases h
  | succ n =>
    unfold message at h
    rw [if_neg (fun hh => hh.elim hk.1 hk.2)] at h
    unfold call at h
    dsimp only at h
    rw [if_neg (by
      rintro ⟨h1, h2⟩
      rcases hv with hv | hv
      · exact h1 hv
      · rw [if_neg h1] at h2
        exact absurd hv (Nat.not_le.mpr h2))] at h
    obtain ⟨rc, _, h⟩ := Outcome.bind_eq_ok.mp h
    rw [if_neg (by rw [(c87_contracts env msg.destination).mpr hc]; exact fun hh => by cases hh.2.2)] at h
    obtain ⟨out, s, ho, he, _⟩ := enter_contract (txn := txn) (sub := message env txn n) (r := rc) (m := { m with state :=
      (if msg.kind = .delegatecall then (msg.value, m.state) else IntraBlockState.getBalance env.db m.state msg.sender).2 })
      ok hc hl h0 hg
    rw [he] at h
    have hr := (Prod.mk.inj (Outcome.ok.inj h)).1
    refine ⟨out, ho, fun hx => ?_, fun hx => ⟨fun o hoo => ?_, fun hoo => ?_⟩⟩ <;> rw [← hr] <;> unfold contractResult
    · rw [if_pos hx]
    · rw [if_neg (by omega), hoo]
    · rw [if_neg (by omega), hoo]

/-- C87: a call that is not static is answered, and if it succeeds it moves exactly the value. The total balance is
assumed to fit in 256 bits. -/
theorem c87_call (env : Env) (ok : Spec.Precompiled.RecoverOk env.crypto.recover) (txn : Transaction) (fuel : Nat) (msg : Message)
    (m : Machine) (T : Nat) (hk : msg.kind = .call) (hst : msg.isStatic = false) (hc : ContractAt env msg.destination)
    (hl : msg.input.length < 2 ^ 48) (h0 : 0 ≤ msg.gas) (hg : msg.gas < 2 ^ 62)
    (hT : T < 2 ^ 256) (ht : HasTotal (balance env.db m.state) T) (hv : msg.value ≤ balance env.db m.state msg.sender) :
    ∃ r s, message env txn (fuel + 1) msg m = .ok (r, { m with state := s }) ∧
      (r.status = .success → Moved env.db msg.sender msg.destination msg.value m.state s) := by
  have kd : msg.kind ≠ .delegatecall := by rw [hk]; decide
  have vb : view env.db (IntraBlockState.getBalance env.db m.state msg.sender).2 = view env.db m.state :=
    view_of_same (read_same (env := env) m.state (o := .getBalance msg.sender) rfl)
  have hv' : ¬ (IntraBlockState.getBalance env.db m.state msg.sender).1 < msg.value := Nat.not_lt.mpr hv
  unfold message
  rw [if_neg (by rw [hk]; exact fun hh => hh.elim (nomatch ·) (nomatch ·))]
  unfold call
  dsimp only
  rw [if_neg kd, if_neg (fun hh => hv' hh.2)]
  unfold recipient
  rw [hk]
  show ∃ r s, (if msg.value = 0 ∧ env.revision ≥ Revision.spuriousDragon ∧ env.isPrecompiled msg.destination = false then _ else _) = _ ∧ _
  rw [if_neg (by rw [(c87_contracts env msg.destination).mpr hc]; exact fun hh => by cases hh.2.2)]
  obtain ⟨out, s, ho, he, hs⟩ := enter_contract (txn := txn) (sub := message env txn fuel) (r := msg.destination)
    (m := { m with state := (IntraBlockState.getBalance env.db m.state msg.sender).2 }) ok hc hl h0 hg
  refine ⟨_, s, he, fun hh => ?_⟩
  rw [hs hh]
  unfold transfer
  rw [if_pos hk, hst, if_neg Bool.false_ne_true]
  have hbs : ∀ x, balance env.db (IntraBlockState.getBalance env.db m.state msg.sender).2 x = balance env.db m.state x :=
    fun x => by rw [balance_view, balance_view, vb]
  exact moved_of_same (moved_transfer (env := env) hT (ht.congr hbs) (by rw [hbs]; exact hv)) vb rfl

/-! ## Examples -/

/-- The identity of five bytes costs 18 of 1000 gas and moves 30; `ecrecover` costs too much; the compression function with
short input fails; before Istanbul there is no such contract, so that nothing is taken. -/
example :
    exMsgRun 9 (exMsg .call (beFixed 20 4) [1, 2, 3, 4, 5] 30) (beFixed 20 4) = some (.success, 982, [970, 3, 0, 30, 0]) ∧
    exMsgRun 9 (exMsg .call (beFixed 20 1) [1, 2, 3, 4, 5] 30) (beFixed 20 1) = some (.outOfGas, 0, [1000, 3, 0, 0, 0]) ∧
    exMsgRun 9 (exMsg .call (beFixed 20 9) [0, 0, 0, 4, 5] 30) (beFixed 20 9) = some (.precompileFailure, 0, [1000, 3, 0, 0, 0]) ∧
    exMsgRun 6 (exMsg .call (beFixed 20 9) [0, 0, 0, 4, 5] 30) (beFixed 20 9) = some (.success, 1000, [970, 3, 0, 30, 0]) := by
  decide +kernel

example : ContractAt (exMsgEnv 9) (beFixed 20 9) ∧ ¬ ContractAt (exMsgEnv 6) (beFixed 20 9) ∧ ContractAt (exMsgEnv 4) (beFixed 20 8) ∧
    ¬ ContractAt (exMsgEnv 3) (beFixed 20 5) ∧ ¬ ContractAt (exMsgEnv 9) (beFixed 20 0) ∧
    contractCost (exMsgEnv 9) (exMsg .call (beFixed 20 4) [1, 2, 3, 4, 5] 30) = 18 := by
  unfold ContractAt Present
  decide +kernel

end Silkworm.Properties
