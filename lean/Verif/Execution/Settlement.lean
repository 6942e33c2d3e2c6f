import Verif.Execution.TransactionLemmas

/-!
# What a transaction does to balances and nonces

Helper lemmas.
-/

namespace Silkworm.Spec.Execution

/-- A total is the sum of two parts. -/
theorem HasTotal.split {f : Bytes → Nat} {t : Nat} (h : HasTotal f t) (l : List Bytes) :
    ∃ d, d ≤ t ∧ HasTotal (fun a => if a ∈ l then f a else 0) d ∧ HasTotal (fun a => if a ∈ l then 0 else f a) (t - d) := by
  obtain ⟨m, h1, h2, h3⟩ := h
  have e : ∀ m : List Bytes, (m.map f).sum =
      (m.map fun a => if a ∈ l then f a else 0).sum + (m.map fun a => if a ∈ l then 0 else f a).sum := by
    intro m
    induction m with
    | nil => rfl
    | cons a m ih =>
      simp only [List.map_cons, List.sum_cons]
      rw [ih]
      split <;> omega
  have := e m
  refine ⟨(m.map fun a => if a ∈ l then f a else 0).sum, by omega, ⟨m, h1, fun a ha => ?_, rfl⟩,
    ⟨m, h1, fun a ha => ?_, by omega⟩⟩
  · dsimp only
    rw [h2 a ha]; split <;> rfl
  · dsimp only
    rw [h2 a ha]; split <;> rfl

end Silkworm.Spec.Execution

namespace Silkworm.Evm

open IntraBlockState
open Spec.Execution

variable {env : Env}

theorem hash_setNonce {db : StateReader} (s : IntraBlockState) (a : Bytes) (x : Nat) (b : Bytes) :
    (view db (setNonce db s a x)).hash b = (view db s).hash b := by
  rw [setNonce_view, View.hash_modify]
  split
  · next h => rw [View.hash_getD, h]
  · rfl

theorem hash_of_obj {v w : View} (h : v.obj = w.obj) (a : Bytes) : v.hash a = w.hash a := by
  unfold View.hash View.cur
  rw [h]

theorem beginTransaction_hash (env : Env) (txn : Transaction) (sender : Bytes) (price : Nat) (s : IntraBlockState) (b : Bytes) :
    (view env.db (beginTransaction env txn sender price s)).hash b = (view env.db s).hash b := by
  unfold beginTransaction
  dsimp only
  rw [hash_of_obj (warmAccessList_obj _ _)]
  have h0 : ∀ c, (view env.db (s.clearJournalAndSubstate.accessAccount sender).2).hash c = (view env.db s).hash c :=
    fun c => hash_of_obj (accessAccount_obj _ _) c
  cases txn.to with
  | none =>
    dsimp only
    rw [hash_subtractFromBalance, h0]
  | some rcp =>
    dsimp only
    rw [hash_setNonce, hash_of_obj (accessAccount_obj _ _), hash_subtractFromBalance, h0]

/-- Adding to a balance. -/
theorem add_total (s : IntraBlockState) (a : Bytes) (x T : Nat) (hT : T + x < 2 ^ 256) (ht : HasTotal (view env.db s).bal T) :
    HasTotal (view env.db (addToBalance env.db s a x)).bal (T + x) ∧
    ∀ b, (view env.db (addToBalance env.db s a x)).bal b = (view env.db s).bal b + (if b = a then x else 0) := by
  have ha := ht.le a
  have h : ∀ b, (view env.db (addToBalance env.db s a x)).bal b = (view env.db s).bal b + (if b = a then x else 0) := by
    intro b
    rw [bal_addToBalance]
    by_cases hb : b = a
    · subst hb
      rw [if_pos rfl, if_pos rfl]
      exact Nat.mod_eq_of_lt (by omega)
    · rw [if_neg hb, if_neg hb]; rfl
  refine ⟨?_, h⟩
  have := ht.change (g := (view env.db (addToBalance env.db s a x)).bal) a (fun b hb => by rw [h, if_neg hb]; rfl)
  rw [h, if_pos rfl] at this
  rwa [show T - (view env.db s).bal a + ((view env.db s).bal a + x) = T + x by omega] at this

theorem payGas_total (s : IntraBlockState) (sender : Bytes) (price fee back used T : Nat)
    (hT : T + back * price + used * fee < 2 ^ 256) (ht : HasTotal (view env.db s).bal T) :
    HasTotal (view env.db (payGas env sender price fee back used s)).bal (T + back * price + used * fee) ∧
    ∀ b, (view env.db (payGas env sender price fee back used s)).bal b = (view env.db s).bal b +
      (if b = sender then back * price else 0) + (if b = env.block.header.beneficiary then used * fee else 0) := by
  have e1 : mul256 back price = back * price := by unfold mul256; exact Nat.mod_eq_of_lt (by omega)
  have e2 : mul256 used fee = used * fee := by unfold mul256; exact Nat.mod_eq_of_lt (by omega)
  unfold payGas
  dsimp only
  rw [e1, e2]
  obtain ⟨h1, h2⟩ := add_total (env := env) s sender (back * price) T (by omega) ht
  obtain ⟨h3, h4⟩ := add_total (env := env) _ env.block.header.beneficiary (used * fee) _ hT h1
  exact ⟨h3, fun b => by rw [h4, h2]⟩

theorem payGas_frame (s : IntraBlockState) (sender : Bytes) (price fee back used : Nat) :
    Frame env.db s (payGas env sender price fee back used s) :=
  (addToBalance_frame env.db s sender _).trans (addToBalance_frame env.db _ _ _)

theorem payGas_nonce (s : IntraBlockState) (sender : Bytes) (price fee back used : Nat) (b : Bytes) :
    (view env.db (payGas env sender price fee back used s)).nonce b = (view env.db s).nonce b ∧
    (view env.db (payGas env sender price fee back used s)).hash b = (view env.db s).hash b := by
  unfold payGas
  exact ⟨by rw [nonce_addToBalance, nonce_addToBalance], by rw [hash_addToBalance, hash_addToBalance]⟩

/-- Prices. -/
theorem price_eq {txn : Transaction} {base price fee : Nat} (hm : txn.maxFeePerGas < 2 ^ 256)
    (h1 : txn.effectiveGasPrice base = .ok price) (h2 : txn.priorityFeePerGas base = .ok fee) :
    price = fee + base ∧ price ≤ txn.maxFeePerGas ∧ fee = min txn.maxPriorityFeePerGas (txn.maxFeePerGas - base) := by
  have hb : base ≤ txn.maxFeePerGas := by
    unfold Transaction.priorityFeePerGas at h2
    split at h2
    · assumption
    · cases h2
  obtain ⟨e1, e2⟩ := effectiveGasPrice_le hb hm
  rw [e1] at h2
  rw [e2] at h1
  have := Outcome.ok.inj h1
  have := Outcome.ok.inj h2
  omega

/-- The part before the EVM. -/
theorem begun_money {p : Processor} {txn : Transaction} {sender : Bytes} {price T : Nat} (hT : T < 2 ^ 256)
    (ht : HasTotal (view env.db p.state).bal T) (hb : txn.gasLimit * price ≤ (view env.db p.state).bal sender) :
    HasTotal (view env.db (begun env p txn sender price).state).bal (T - txn.gasLimit * price) ∧
    ∀ b, (view env.db (begun env p txn sender price).state).bal b + (if b = sender then txn.gasLimit * price else 0) =
      (view env.db p.state).bal b := by
  have hs := ht.le sender
  have e1 : mul256 txn.gasLimit price = txn.gasLimit * price := by unfold mul256; exact Nat.mod_eq_of_lt (by omega)
  have h : ∀ b, (view env.db (begun env p txn sender price).state).bal b =
      if b = sender then (view env.db p.state).bal sender - txn.gasLimit * price else (view env.db p.state).bal b := by
    intro b
    show (view env.db (beginTransaction env txn sender price p.state)).bal b = _
    rw [beginTransaction_bal, e1]
    by_cases hb : b = sender
    · rw [if_pos hb, if_pos hb]
      generalize txn.gasLimit * price = c at *
      generalize (view env.db p.state).bal sender = n at *
      clear ht
      omega
    · rw [if_neg hb, if_neg hb]
  constructor
  · have := ht.change (g := (view env.db (begun env p txn sender price).state).bal) sender (fun b hb => by rw [h, if_neg hb])
    rw [h, if_pos rfl] at this
    rwa [show T - (view env.db p.state).bal sender + ((view env.db p.state).bal sender - txn.gasLimit * price) =
      T - txn.gasLimit * price by omega] at this
  · intro b
    rw [h]
    by_cases hb : b = sender
    · subst hb; rw [if_pos rfl, if_pos rfl]; omega
    · rw [if_neg hb, if_neg hb]; rfl

/-- What is known about the guarded account when the EVM starts. -/
structure Guarded (env : Env) (p : Processor) (txn : Transaction) (sender : Bytes) (guard : Option Bytes) : Prop where
  code : ∀ x, guard = some x → codeHash env.db p.state x = kEmptyHash
  nonce : ∀ x, guard = some x → x ≠ sender → Spec.Execution.nonce env.db p.state x ≠ 0
  own : ∀ x, guard = some x → x = sender →
    Spec.Execution.nonce env.db p.state x = txn.nonce ∧ txn.nonce + 1 < 2 ^ 64

theorem Guarded.none {p : Processor} {txn : Transaction} {sender : Bytes} : Guarded env p txn sender none :=
  ⟨fun _ h => (nomatch h), fun _ h => (nomatch h), fun _ h => (nomatch h)⟩

theorem Guarded.pre {p : Processor} {txn : Transaction} {sender : Bytes} {guard : Option Bytes}
    (h : Guarded env p txn sender guard) (price : Nat) {gas : Nat} (hgas : gas < 2 ^ 63) :
    Pre env guard (transactionMessage txn sender gas) (begun env p txn sender price) := by
  refine transaction_pre guard hgas (fun x hx => ?_) (fun x hx => ?_) (fun ht hx => ?_)
  · have := h.code x hx
    rw [codeHash_view] at this ⊢
    show (view env.db (beginTransaction env txn sender price p.state)).hash x = _
    rw [beginTransaction_hash, this]
  · by_cases hxs : x = sender
    · cases ht : txn.to with
      | none => exact Or.inr ⟨rfl, hxs.symm⟩
      | some b =>
        refine Or.inl ?_
        rw [nonce_view]
        show (view env.db (beginTransaction env txn sender price p.state)).nonce x ≠ 0
        rw [beginTransaction_nonce, if_pos ⟨hxs, by rw [ht]; rfl⟩]
        have := (h.own x hx hxs).2
        omega
    · refine Or.inl ?_
      have := h.nonce x hx hxs
      rw [nonce_view] at this ⊢
      show (view env.db (beginTransaction env txn sender price p.state)).nonce x ≠ 0
      rw [beginTransaction_nonce, if_neg (fun hh => hxs hh.1)]
      exact this
  · obtain ⟨h1, h2⟩ := h.own sender hx rfl
    rw [nonce_view] at h1 ⊢
    show (view env.db (beginTransaction env txn sender price p.state)).nonce sender + 1 < 2 ^ 64
    rw [beginTransaction_nonce, if_neg (by rw [ht]; simp), h1]
    exact h2

/-- Everything about balances, nonces and code. -/
structure Balanced (env : Env) (p : Processor) (txn : Transaction) (p' : Processor) (sender : Bytes) (price fee : Nat)
    (m : Machine) (back used T : Nat) (guard : Option Bytes) : Prop where
  total : ∃ burnt destroyed, HasTotal (fun a => if a ∈ m.state.selfDestructs then
        (view env.db (payGas env sender price fee back used m.state)).bal a else 0) destroyed ∧
    env.block.header.baseFeePerGas.getD 0 * used + burnt + destroyed ≤ T ∧
    HasTotal (view env.db p'.state).bal (T - (env.block.header.baseFeePerGas.getD 0 * used + burnt + destroyed)) ∧
    (m.state.selfDestructs = [] → burnt = 0)
  settle : ∀ b, (view env.db p'.state).bal b = if b ∈ m.state.selfDestructs then 0 else (view env.db m.state).bal b +
      (if b = sender then back * price else 0) + (if b = env.block.header.beneficiary then used * fee else 0)
  guarded : ∀ x, guard = some x → x ∉ m.state.selfDestructs ∧
    (view env.db p'.state).hash x = kEmptyHash ∧
    (view env.db p'.state).nonce x = (view env.db p.state).nonce x + (if x = sender then 1 else 0) ∧
    (view env.db p.state).bal x ≤ (view env.db p'.state).bal x + (if x = sender then used * price + txn.value else 0)

theorem Ran.settled (hi : InterpreterOk env.interpreter) {p p' : Processor} {txn : Transaction} {receipt : Receipt} {sender : Bytes}
    {price fee : Nat} {r : CallResult} {m : Machine} {refund used : Nat}
    (h : Ran env p txn receipt p' sender price fee r m refund used) (hl : txn.gasLimit < 2 ^ 63)
    (hm : txn.maxFeePerGas < 2 ^ 256) {T : Nat} (hT : T < 2 ^ 256) (ht : HasTotal (view env.db p.state).bal T)
    (hb : txn.gasLimit * txn.maxFeePerGas + txn.value ≤ (view env.db p.state).bal sender)
    {guard : Option Bytes} (hgd : Guarded env p txn sender guard) :
    Balanced env p txn p' sender price fee m (r.gasLeft + refund) used T guard := by
  obtain ⟨q1, q2, q3⟩ := price_eq hm h.hasPrice h.hasFee
  have hcost : txn.gasLimit * price ≤ txn.gasLimit * txn.maxFeePerGas := Nat.mul_le_mul_left _ q2
  have hTs := ht.le sender
  obtain ⟨b1, b2⟩ := begun_money (env := env) (p := p) (txn := txn) (sender := sender) (price := price) hT ht (by omega)
  obtain ⟨hleads, _, _⟩ := execute_ok hi guard h.hasSender (by omega) (hgd.pre price (by omega)) h.run
  obtain ⟨A', he, hspent, hbumps⟩ := hleads ⟨0, 0⟩
  have hmoney := he.money _ (by omega) b1
  obtain ⟨⟨loss, l1, l2, l3⟩, _, hsp, hdes⟩ := hmoney
  have hframe := beginTransaction_frame (env := env) txn sender price p.state
  have hsd0 : (begun env p txn sender price).state.selfDestructs = [] := hframe.selfDestructs
  have hsum := h.sum
  have hmul : used * price + (r.gasLeft + refund) * price = txn.gasLimit * price := by
    rw [← Nat.add_mul, hsum]
  have hfee : used * price = used * fee + used * env.block.header.baseFeePerGas.getD 0 := by
    rw [q1, Nat.mul_add]
  have hcomm : env.block.header.baseFeePerGas.getD 0 * used = used * env.block.header.baseFeePerGas.getD 0 := Nat.mul_comm _ _
  obtain ⟨p1, p2⟩ := payGas_total (env := env) m.state sender price fee (r.gasLeft + refund) used
    (T - txn.gasLimit * price - loss) (by omega) l2
  have hpf := payGas_frame (env := env) m.state sender price fee (r.gasLeft + refund) used
  have hend := endTransaction_account (env := env) (payGas env sender price fee (r.gasLeft + refund) used m.state)
  rw [hpf.selfDestructs] at hend
  have hst := h.state
  refine ⟨?_, fun b => ?_, fun x hx => ?_⟩
  · obtain ⟨d, d1, d2, d3⟩ := p1.split m.state.selfDestructs
    refine ⟨loss, d, d2, by omega, ?_, l3⟩
    refine HasTotal.congr (f := fun a => if a ∈ m.state.selfDestructs then 0 else
      (view env.db (payGas env sender price fee (r.gasLeft + refund) used m.state)).bal a) ?_ fun b => ?_
    · rwa [show T - (env.block.header.baseFeePerGas.getD 0 * used + loss + d) =
        T - txn.gasLimit * price - loss + (r.gasLeft + refund) * price + used * fee - d by omega]
    · rw [hst, (hend b).1]
  · rw [hst, (hend b).1]
    split
    · rfl
    · exact p2 b
  · have hnd : x ∉ m.state.selfDestructs := hdes x hx (by rw [hsd0]; exact List.not_mem_nil)
    subst hx
    obtain ⟨g1, g2, _⟩ := he.guarded
    have hc := hgd.code x rfl
    rw [codeHash_view] at hc
    obtain ⟨n1, n2⟩ := payGas_nonce (env := env) m.state sender price fee (r.gasLeft + refund) used x
    refine ⟨hnd, ?_, ?_, ?_⟩
    · rw [hst, (hend x).2.2, if_neg hnd, n2, g2]
      show (view env.db (beginTransaction env txn sender price p.state)).hash x = _
      rw [beginTransaction_hash, hc]
    · rw [hst, (hend x).2.1, if_neg hnd, n1]
      have g1 : (view env.db m.state).nonce x + 0 =
        (view env.db (beginTransaction env txn sender price p.state)).nonce x + A'.bumps := g1
      rw [beginTransaction_nonce] at g1
      have hbumps : A'.bumps = 0 + bumps env (some x) (transactionMessage txn sender (txn.gasLimit - upfront env txn))
        (begun env p txn sender price).state := hbumps
      unfold bumps at hbumps
      by_cases hxs : x = sender
      · subst hxs
        obtain ⟨o1, o2⟩ := hgd.own x rfl rfl
        rw [nonce_view] at o1
        rw [if_pos rfl]
        cases hto : txn.to with
        | none =>
          have hcr : (transactionMessage txn x (txn.gasLimit - upfront env txn)).isCreate := by
            unfold Message.isCreate transactionMessage
            dsimp only
            rw [hto]
            exact Or.inl rfl
          have hval : (transactionMessage txn x (txn.gasLimit - upfront env txn)).value ≤
              balance env.db (begun env p txn x price).state (transactionMessage txn x (txn.gasLimit - upfront env txn)).sender := by
            show txn.value ≤ balance env.db (begun env p txn x price).state x
            have := b2 x
            rw [if_pos rfl] at this
            rw [balance_view]
            omega
          rw [if_pos ⟨hcr, rfl, hval⟩] at hbumps
          rw [if_neg (by rw [hto]; simp)] at g1
          omega
        | some c =>
          have hcr : ¬ (transactionMessage txn x (txn.gasLimit - upfront env txn)).isCreate := by
            unfold Message.isCreate transactionMessage
            dsimp only
            rw [hto]
            rintro (hh | hh) <;> cases hh
          rw [if_neg (fun hh => hcr hh.1)] at hbumps
          rw [if_pos ⟨rfl, by rw [hto]; rfl⟩] at g1
          omega
      · rw [if_neg (fun hh => hxs (Option.some.inj hh.2.1))] at hbumps
        rw [if_neg (fun hh => hxs hh.1)] at g1
        rw [if_neg hxs]
        omega
    · have hsp := hsp x rfl
      have hb2 := b2 x
      rw [hst, (hend x).1, if_neg hnd, p2]
      have hspent : A'.spent ≤ 0 + spend (some x) (transactionMessage txn sender (txn.gasLimit - upfront env txn)) := hspent
      have hsp : (view env.db (begun env p txn sender price).state).bal x + 0 ≤ (view env.db m.state).bal x + A'.spent := hsp
      unfold spend at hspent
      by_cases hxs : x = sender
      · subst hxs
        rw [if_pos rfl] at hb2 ⊢
        rw [if_pos rfl]
        have hv : (if (transactionMessage txn x (txn.gasLimit - upfront env txn)).kind ≠ Kind.delegatecall ∧
          some x = some (transactionMessage txn x (txn.gasLimit - upfront env txn)).sender then
          (transactionMessage txn x (txn.gasLimit - upfront env txn)).value else 0) ≤ txn.value := by
          split
          · exact Nat.le_refl _
          · exact Nat.zero_le _
        omega
      · rw [if_neg hxs] at hb2 ⊢
        rw [if_neg (fun hh => hxs (Option.some.inj hh.2))] at hspent
        rw [if_neg hxs]
        omega

end Silkworm.Evm
