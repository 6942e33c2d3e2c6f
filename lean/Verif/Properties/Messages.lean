import Verif.Execution.Messages
import Verif.Rlp.Lemmas
import Verif.Properties.Metering

/-!
# Properties C75–C80: messages
-/

namespace Silkworm.Properties

open Evm
open Spec.Execution
open IntraBlockState (view balance_view nonce_view codeHash_view live_view setNonce_view accessAccount_view
  setNonce bal_setNonce nonce_setNonce view_of_same)

/-! ## C75: failure -/

/-- C75: a call that fails, for whatever reason and however much code ran before, leaves accounts, storage, logs, the list of
destroyed accounts and the refund counter as they were. It takes all gas, unless code reverted or the sender cannot pay the
value; then nothing ran. -/
theorem c75_call (env : Env) (hi : InterpreterOk env.interpreter) (txn : Transaction) (fuel : Nat) (msg : Message) (m m' : Machine)
    (r : Result) (hk : msg.kind ≠ .create ∧ msg.kind ≠ .create2) (hg : 0 ≤ msg.gas)
    (hcc : msg.kind = .callcode → live env.db m.state msg.sender = true)
    (hdc : msg.kind = .delegatecall → ∀ top rest, m.addressStack = top :: rest → live env.db m.state top = true)
    (h : message env txn fuel msg m = .ok (r, m')) (hf : r.status ≠ .success) :
    SameWorld env.db m.state m'.state ∧ m'.addressStack = m.addressStack ∧
      (r.status = .revert ∨ r.gasLeft = 0 ∨
        (r.status = .insufficientBalance ∧ balance env.db m.state msg.sender < msg.value)) ∧
      0 ≤ r.gasLeft ∧ r.gasLeft ≤ msg.gas := by
  have hic : ¬ msg.isCreate := fun hh => hh.elim hk.1 hk.2
  have hpost := message_ok (guard := none) (txn := txn) hi fuel msg m (r, m') ⟨hg, fun _ => hic,
    fun hh => ⟨hcc hh, fun hx => by cases hx⟩, fun hh top rest hs => ⟨hdc hh top rest hs, fun hx => by cases hx⟩,
    (fun _ hx => by cases hx), (fun _ hx => by cases hx), (fun hx => absurd hx hic)⟩ h
  refine ⟨(hpost.failed hf hic).sameWorld, hpost.stack, ?_, hpost.gas.1, hpost.gas.2⟩
  cases fuel with
  | zero => cases h
  | succ n =>
    unfold message at h
    rw [if_neg (show ¬ (msg.kind = .create ∨ msg.kind = .create2) from hic)] at h
    exact (call_gas h).resolve_left hf

/-- C75: a creation that fails leaves no trace but the increased nonce of the sender, and takes all gas unless the code
reverted. If the sender cannot pay the value, not even that happens and no gas is taken. -/
theorem c75_create (env : Env) (hi : InterpreterOk env.interpreter) (txn : Transaction) (fuel : Nat) (msg : Message) (m m' : Machine)
    (r : Result) (hk : msg.kind = .create ∨ msg.kind = .create2) (hg : 0 ≤ msg.gas)
    (h : message env txn fuel msg m = .ok (r, m')) (hf : r.status ≠ .success) :
    (balance env.db m.state msg.sender < msg.value ∧ r.status = .insufficientBalance ∧ r.gasLeft = msg.gas ∧
      SameWorld env.db m.state m'.state) ∨
    (msg.value ≤ balance env.db m.state msg.sender ∧ (r.status = .revert ∨ r.gasLeft = 0) ∧
      (∀ a, balance env.db m'.state a = balance env.db m.state a) ∧
      (∀ a, nonce env.db m'.state a =
        if a = msg.sender then (nonce env.db m.state msg.sender + 1) % 2 ^ 64 else nonce env.db m.state a) ∧
      (∀ a, codeHash env.db m'.state a = codeHash env.db m.state a) ∧
      (∀ a, live env.db m'.state a = (live env.db m.state a || a == msg.sender)) ∧
      (∀ a k, live env.db m.state a = true → slot env.db m'.state a k = slot env.db m.state a k ∧
        originalSlot env.db m'.state a k = originalSlot env.db m.state a k) ∧
      m'.state.logs = m.state.logs ∧ m'.state.selfDestructs = m.state.selfDestructs ∧ m'.state.refund = m.state.refund) := by
  cases fuel with
  | zero => cases h
  | succ n =>
    unfold message at h
    rw [if_pos hk] at h
    rcases create_cases h with ⟨h1, h2, h3⟩ | ⟨h1, s, hv, h2⟩
    · have h2 : r = _ := h2
      refine Or.inl ⟨h1, by rw [h2], by rw [h2], ?_⟩
      have hv := view_of_same h3
      exact SameWorld.of_view (by rw [hv]) (by rw [hv]) (by rw [hv]) (congrArg IntraBlockState.View.logs hv) (congrArg IntraBlockState.View.selfDestructs hv)
        (congrArg IntraBlockState.View.refund hv)
    · refine Or.inr ⟨h1, ?_⟩
      have key : SameWorld env.db s m'.state ∧ (r.status = .revert ∨ r.gasLeft = 0) := by
        rcases h2 with ⟨_, h2⟩ | ⟨hn, hc, h2⟩
        · obtain ⟨e1, e2⟩ := Prod.mk.inj h2
          subst e1 e2
          exact ⟨⟨fun _ => rfl, fun _ => rfl, fun _ => rfl, fun _ => rfl, fun _ _ => rfl, fun _ _ => rfl, rfl, rfl, rfl⟩, Or.inr rfl⟩
        · have hb : msg.value ≤ balance env.db s msg.sender := by
            rw [balance_view, hv, ← balance_view, balance_view]
            have : (view env.db ((setNonce env.db m.state msg.sender ((nonce env.db m.state msg.sender + 1) % 2 ^ 64)).accessAccount
              (contractAddress env msg (nonce env.db m.state msg.sender))).2).bal msg.sender =
              (view env.db (setNonce env.db m.state msg.sender ((nonce env.db m.state msg.sender + 1) % 2 ^ 64))).bal msg.sender := by
              rw [accessAccount_view]; rfl
            rw [this, bal_setNonce, ← balance_view]
            exact h1
          obtain ⟨d1, _⟩ := deploy_ok (message_ok (guard := none) (txn := txn) hi n) hi hg
            (m := { m with state := s }) hb hn hc h2
          obtain ⟨d1, d2⟩ := d1 hf
          exact ⟨d1.sameWorld, d2⟩
      obtain ⟨w, hgas⟩ := key
      have hcur : ∀ a, (view env.db s).cur a = (view env.db (setNonce env.db m.state msg.sender
          ((nonce env.db m.state msg.sender + 1) % 2 ^ 64))).cur a := by
        intro a; rw [hv, accessAccount_view]; rfl
      have fr := (setNonce_frame env.db m.state msg.sender ((nonce env.db m.state msg.sender + 1) % 2 ^ 64)).trans
        (accessAccount_frame env.db _ (contractAddress env msg (nonce env.db m.state msg.sender)))
      have hlive : ∀ a, live env.db s a = (live env.db m.state a || a == msg.sender) := by
        intro a
        rw [live_view, hcur, ← live_view, live_view, setNonce_view, IntraBlockState.View.cur_modify, live_view]
        by_cases ha : a = msg.sender
        · rw [if_pos ha, ha]; simp
        · rw [if_neg ha]
          rw [show (a == msg.sender) = false from by simpa using ha, Bool.or_false]
      refine ⟨hgas, fun a => ?_, fun a => ?_, fun a => ?_, fun a => ?_, fun a k ha => ?_, ?_, ?_, ?_⟩
      · rw [w.balance, balance_view, IntraBlockState.View.bal_getD, hcur, ← IntraBlockState.View.bal_getD, bal_setNonce, ← balance_view]
      · rw [w.nonce, nonce_view, IntraBlockState.View.nonce_getD, hcur, ← IntraBlockState.View.nonce_getD, nonce_setNonce, ← nonce_view]
      · rw [w.codeHash, codeHash_view, IntraBlockState.View.hash_getD, hcur, ← IntraBlockState.View.hash_getD, hash_setNonce, ← codeHash_view]
      · rw [w.live, hlive]
      · have hb : live env.db s a = true := by rw [hlive, ha]; rfl
        rw [w.slot, w.originalSlot]
        rw [live_view] at ha hb
        rw [slot_view, slot_view, originalSlot_view, originalSlot_view]
        rw [Option.isSome_iff_exists] at ha hb
        obtain ⟨c, hc⟩ := ha
        obtain ⟨c', hc'⟩ := hb
        rw [hc, hc', hv, fr.curv, fr.orig]
        exact ⟨rfl, rfl⟩
      · rw [w.logs]; exact (congrArg IntraBlockState.View.logs hv).trans fr.logs
      · rw [w.destroyed]; exact (congrArg IntraBlockState.View.selfDestructs hv).trans fr.selfDestructs
      · rw [w.refund]; exact (congrArg IntraBlockState.View.refund hv).trans fr.refund

/-! ## C76: static calls -/

/-- C76: a static message, whatever it calls and whether it succeeds or fails, changes no balance, nonce, code or storage,
logs nothing, destroys nothing and refunds nothing. -/
theorem c76_static (env : Env) (hi : InterpreterOk env.interpreter) (txn : Transaction) (fuel : Nat) (msg : Message) (m m' : Machine)
    (r : Result) (hk : msg.kind ≠ .create ∧ msg.kind ≠ .create2) (hs : msg.isStatic = true) (hg : 0 ≤ msg.gas)
    (hcc : msg.kind = .callcode → live env.db m.state msg.sender = true)
    (hdc : msg.kind = .delegatecall → ∀ top rest, m.addressStack = top :: rest → live env.db m.state top = true)
    (h : message env txn fuel msg m = .ok (r, m')) : SameWorld env.db m.state m'.state := by
  have hic : ¬ msg.isCreate := fun hh => hh.elim hk.1 hk.2
  have hpost := message_ok (guard := none) (txn := txn) hi fuel msg m (r, m') ⟨hg, fun _ => hic,
    fun hh => ⟨hcc hh, fun hx => by cases hx⟩, fun hh top rest hs => ⟨hdc hh top rest hs, fun hx => by cases hx⟩,
    (fun _ hx => by cases hx), (fun _ hx => by cases hx), (fun hx => absurd hx hic)⟩ h
  obtain ⟨A', he, _⟩ := hpost.leads ⟨0, 0⟩
  obtain ⟨h1, h2, h3, h4, h5, h6⟩ := he.static hs
  exact SameWorld.of_view h1 h2 h3 h4 h5 h6

/-! ## C77: creation -/

/-- C77: a creation that succeeds reports the address of the contract, which was free (no nonce and no code); from Homestead on
the code of the new account is the output, of at most 24576 bytes from Spurious Dragon on and not beginning with 0xEF from London
on, and 200 gas per byte have been paid for it. -/
theorem c77_created (env : Env) (hi : InterpreterOk env.interpreter) (txn : Transaction) (fuel : Nat) (msg : Message) (m m' : Machine)
    (r : Result) (hk : msg.kind = .create ∨ msg.kind = .create2) (hg : 0 ≤ msg.gas)
    (h : message env txn fuel msg m = .ok (r, m')) (hs : r.status = .success) :
    r.createAddress = contractAddress env msg (nonce env.db m.state msg.sender) ∧
    live env.db m'.state r.createAddress = true ∧ codeHash env.db m.state r.createAddress = kEmptyHash ∧
    (r.createAddress ≠ msg.sender → nonce env.db m.state r.createAddress = 0) ∧
    (env.revision ≥ Revision.homestead →
      codeHash env.db m'.state r.createAddress = env.crypto.keccak r.output ∧
      (env.revision ≥ Revision.spuriousDragon → r.output.length ≤ 24576) ∧
      (env.revision ≥ Revision.london → r.output.head? ≠ some 0xEF) ∧
      (r.output.length < 2 ^ 56 → r.gasLeft + 200 * r.output.length ≤ msg.gas)) := by
  cases fuel with
  | zero => cases h
  | succ n =>
    unfold message at h
    rw [if_pos hk] at h
    rcases create_cases h with ⟨_, h2, _⟩ | ⟨h1, s, hv, h2⟩
    · have h2 : r = _ := h2
      rw [h2] at hs; cases hs
    · rcases h2 with ⟨_, h2⟩ | ⟨hn, hc, h2⟩
      · rw [(Prod.mk.inj h2).1] at hs; cases hs
      · have hcur : ∀ a, (view env.db s).cur a = (view env.db (setNonce env.db m.state msg.sender
            ((nonce env.db m.state msg.sender + 1) % 2 ^ 64))).cur a := by
          intro a; rw [hv, accessAccount_view]; rfl
        have hb : msg.value ≤ balance env.db s msg.sender := by
          rw [balance_view, IntraBlockState.View.bal_getD, hcur, ← IntraBlockState.View.bal_getD, bal_setNonce, ← balance_view]
          exact h1
        obtain ⟨_, d2⟩ := deploy_ok (message_ok (guard := none) (txn := txn) hi n) hi hg
          (m := { m with state := s }) hb hn hc h2
        obtain ⟨d1, d2, d3⟩ := d2 hs
        have d1 : r.createAddress = _ := d1
        rw [← d1] at hc hn d2 d3
        refine ⟨d1, d2, ?_, fun ha => ?_, d3⟩
        · rw [codeHash_view, IntraBlockState.View.hash_getD, hcur, ← IntraBlockState.View.hash_getD, hash_setNonce, ← codeHash_view] at hc
          exact hc
        · rw [nonce_view, IntraBlockState.View.nonce_getD, hcur, ← IntraBlockState.View.nonce_getD, nonce_setNonce, if_neg ha, ← nonce_view] at hn
          exact hn

/-- C77: a creation at an address with a nonce or with code fails and takes all gas. -/
theorem c77_collision (env : Env) (txn : Transaction) (fuel : Nat) (msg : Message) (m m' : Machine)
    (r : Result) (hk : msg.kind = .create ∨ msg.kind = .create2)
    (hv : msg.value ≤ balance env.db m.state msg.sender)
    (hx : nonce env.db m.state (contractAddress env msg (nonce env.db m.state msg.sender)) ≠ 0 ∨
      codeHash env.db m.state (contractAddress env msg (nonce env.db m.state msg.sender)) ≠ kEmptyHash)
    (hne : contractAddress env msg (nonce env.db m.state msg.sender) ≠ msg.sender)
    (h : message env txn fuel msg m = .ok (r, m')) : r = ⟨.invalidInstruction, 0, [], zeroAddress⟩ := by
  cases fuel with
  | zero => cases h
  | succ n =>
    unfold message at h
    rw [if_pos hk] at h
    rcases create_cases h with ⟨h1, _⟩ | ⟨_, s, hvs, h2⟩
    · omega
    · rcases h2 with ⟨_, h2⟩ | ⟨hn, hc, _⟩
      · exact (Prod.mk.inj h2).1
      · exfalso
        have hcur : ∀ a, (view env.db s).cur a = (view env.db (setNonce env.db m.state msg.sender
            ((nonce env.db m.state msg.sender + 1) % 2 ^ 64))).cur a := by
          intro a; rw [hvs, accessAccount_view]; rfl
        rw [nonce_view, IntraBlockState.View.nonce_getD, hcur, ← IntraBlockState.View.nonce_getD, nonce_setNonce, if_neg hne, ← nonce_view] at hn
        rw [codeHash_view, IntraBlockState.View.hash_getD, hcur, ← IntraBlockState.View.hash_getD, hash_setNonce, ← codeHash_view] at hc
        exact hx.elim (fun hx => hx hn) (fun hx => hx hc)

/-! ## C78: addresses -/

/-- C78: the address of a contract is the last 20 bytes of the hash of the RLP of the sender's address and nonce (Yellow
Paper, section 7). -/
theorem c78_create (keccak : Bytes → Bytes) (hk : ∀ b, (keccak b).length = 32) (caller : Bytes) (hc : caller.length = 20)
    (nonce : Nat) (hn : nonce < 2 ^ 64) :
    createAddress keccak caller nonce = (keccak (Spec.rlp (.list [.str caller, Spec.num nonce]))).drop 12 ∧
    (createAddress keccak caller nonce).length = 20 := by
  have e2 : Rlp.encodeUint 8 nonce = Spec.rlp (Spec.num nonce) := Rlp.encodeUint_spec (by decide) hn
  have e1 : Rlp.encodeBytes caller = Spec.rlpStr caller := Rlp.encodeBytes_spec (by omega)
  have el : Rlp.lengthUint 8 nonce = (Spec.rlp (Spec.num nonce)).length := by rw [Rlp.lengthUint_eq hn, e2]
  have l1 : (Spec.rlpStr caller).length = 21 := by
    rcases caller with _ | ⟨x, _ | ⟨y, l⟩⟩
    · cases hc
    · cases hc
    · show (Spec.lenPrefix 128 (x :: y :: l).length ++ (x :: y :: l)).length = 21
      rw [hc, List.length_append, hc]; rfl
  have l2 : (Spec.rlp (Spec.num nonce)).length ≤ 9 := by
    rw [← e2, ← Rlp.lengthUint_eq hn]
    unfold Rlp.lengthUint
    split <;> omega
  have e : Rlp.encodeHeader ⟨true, 1 + 20 + Rlp.lengthUint 8 nonce⟩ ++ Rlp.encodeBytes caller ++ Rlp.encodeUint 8 nonce =
      Spec.rlp (.list [.str caller, Spec.num nonce]) := by
    rw [Rlp.encodeHeader_spec (by show 1 + 20 + Rlp.lengthUint 8 nonce < 2 ^ 64; omega), e1, e2]
    show Spec.lenPrefix 192 (1 + 20 + Rlp.lengthUint 8 nonce) ++ Spec.rlpStr caller ++ Spec.rlp (Spec.num nonce) =
      Spec.lenPrefix 192 (Spec.rlpStr caller ++ (Spec.rlp (Spec.num nonce) ++ [])).length ++
        (Spec.rlpStr caller ++ (Spec.rlp (Spec.num nonce) ++ []))
    rw [List.append_nil, List.length_append, l1, el, List.append_assoc]
  have hd : ∀ b, ((keccak b).drop 12).length = 20 := fun b => by rw [List.length_drop, hk]
  unfold createAddress
  dsimp only
  rw [e, List.take_of_length_le (by rw [hd])]
  exact ⟨rfl, hd _⟩

/-- C78: and with `CREATE2` those of the hash of 0xff, the sender's address, the salt and the hash of the code (EIP-1014). -/
theorem c78_create2 (keccak : Bytes → Bytes) (hk : ∀ b, (keccak b).length = 32) (caller salt code : Bytes) :
    create2Address keccak caller salt (keccak code) = (keccak (0xff :: (caller ++ (salt ++ keccak code)))).drop 12 ∧
    (create2Address keccak caller salt (keccak code)).length = 20 := by
  have hd : ∀ b, ((keccak b).drop 12).length = 20 := fun b => by rw [List.length_drop, hk]
  have e : create2Address keccak caller salt (keccak code) = (keccak (0xff :: (caller ++ (salt ++ keccak code)))).drop 12 := by
    unfold create2Address
    rw [List.append_assoc, List.append_assoc, List.take_of_length_le (by rw [hd])]
    rfl
  exact ⟨e, by rw [e]; exact hd _⟩

/-- C78: the addresses used by messages. -/
theorem c78_message (env : Env) (hk : ∀ b, (env.crypto.keccak b).length = 32) (msg : Message) (nonce : Nat) (hn : nonce < 2 ^ 64)
    (hs : msg.sender.length = 20) :
    (msg.kind = .create → contractAddress env msg nonce =
      (env.crypto.keccak (Spec.rlp (.list [.str msg.sender, Spec.num nonce]))).drop 12) ∧
    (msg.kind = .create2 → contractAddress env msg nonce =
      (env.crypto.keccak (0xff :: (msg.sender ++ (msg.salt ++ env.crypto.keccak msg.input)))).drop 12) := by
  unfold contractAddress
  refine ⟨fun h => ?_, fun h => ?_⟩
  · rw [h]; exact (c78_create _ hk _ hs _ hn).1
  · rw [h]; exact (c78_create2 _ hk _ _ _).1

/-! ## C80: transfers -/

/-- C80: a call to an account without code, which is not a precompiled contract, succeeds if the sender can pay the value; it
costs no gas, moves exactly the value and does nothing else. The total balance is assumed to fit in 256 bits. -/
theorem c80_transfer (env : Env) (txn : Transaction) (fuel : Nat) (msg : Message) (m : Machine) (T : Nat)
    (hk : msg.kind = .call) (hst : msg.isStatic = false)
    (hp : ¬ (1 ≤ beToNat msg.destination ∧ beToNat msg.destination ≤ Precompiled.number env.revision))
    (hc : codeHash env.db m.state msg.destination = kEmptyHash) (hT : T < 2 ^ 256) (ht : HasTotal (balance env.db m.state) T)
    (hv : msg.value ≤ balance env.db m.state msg.sender) :
    ∃ s, message env txn (fuel + 1) msg m = .ok (⟨.success, msg.gas, [], zeroAddress⟩, { m with state := s }) ∧
      Moved env.db msg.sender msg.destination msg.value m.state s := by
  have hp' : env.isPrecompiled msg.destination = false := by
    unfold Env.isPrecompiled
    by_cases hz : beToNat msg.destination = 0
    · rw [hz]; rfl
    · have : ¬ beToNat msg.destination ≤ Precompiled.number env.revision := fun hh => hp ⟨by omega, hh⟩
      rw [decide_eq_false this, Bool.and_false]
  unfold message
  rw [if_neg (by rw [hk]; exact fun hh => hh.elim (nomatch ·) (nomatch ·))]
  exact plain_call hk hst hp' hc hT ht hv

/-! ## C81: queries of the host -/

/-- C81: `EXTCODEHASH` is zero for accounts that do not exist or are empty (EIP-1052, EIP-161), and the hash of the code of
others; `accountExists` is, from Spurious Dragon on, the negation of being empty or absent, and before whether there is one. -/
theorem c81_accounts (env : Env) (s : IntraBlockState) (a : Bytes) :
    (getCodeHash env s a).1 = (if isEmptyOrAbsent env.db s a then zero32 else codeHash env.db s a) ∧
    (accountExists env s a).1 =
      (if env.revision ≥ Revision.spuriousDragon then !isEmptyOrAbsent env.db s a else live env.db s a) := by
  obtain ⟨s', e, hs⟩ := IntraBlockState.isDead_eq (db := env.db) s a
  have hd : IntraBlockState.deadAcc (IntraBlockState.curOf env.db s a) = isEmptyOrAbsent env.db s a := by
    unfold isEmptyOrAbsent
    rw [live_view, balance_view, nonce_view, codeHash_view]
    unfold IntraBlockState.View.bal IntraBlockState.View.nonce IntraBlockState.View.hash
    show _ = (!(IntraBlockState.curOf env.db s a).isSome || decide (((IntraBlockState.curOf env.db s a).map (·.balance)).getD 0 = 0 ∧
      ((IntraBlockState.curOf env.db s a).map (·.nonce)).getD 0 = 0 ∧
      ((IntraBlockState.curOf env.db s a).map (·.codeHash)).getD kEmptyHash = kEmptyHash))
    cases IntraBlockState.curOf env.db s a with
    | none => rfl
    | some c =>
      unfold IntraBlockState.deadAcc
      simp [and_comm, and_assoc, and_left_comm]
      try grind
  refine ⟨?_, ?_⟩
  · unfold getCodeHash
    dsimp only
    rw [e, ← hd]
    dsimp only
    split
    · rfl
    · exact codeHash_of_same hs a
  · unfold accountExists
    split
    · dsimp only; rw [e, ← hd]
    · rfl

/-- C81: copied code is the part of the code from `offset` on, at most `size` bytes. -/
theorem c81_copyCode (env : Env) (s : IntraBlockState) (a : Bytes) (offset size : Nat) :
    (copyCode env s a offset size).1 = ((IntraBlockState.getCode env.db s a).1.drop offset).take size := by
  unfold copyCode
  dsimp only
  split
  · next h => rw [List.drop_of_length_le h, List.take_nil]
  · dsimp only
    rw [← List.length_drop, List.take_eq_take_iff]
    omega

/-- C81: precompiled contracts are always warm; other accounts are cold if they have not been accessed, and warm from then
on. Storage slots likewise. -/
theorem c81_access (env : Env) (s : IntraBlockState) (a k : Bytes) :
    ((accessAccount env s a).1 = true ↔
      ¬ (1 ≤ beToNat a ∧ beToNat a ≤ Precompiled.number env.revision) ∧ a ∉ s.accessedAddresses) ∧
    (∀ b, b ∈ (accessAccount env s a).2.accessedAddresses ↔ b ∈ s.accessedAddresses ∨
      (b = a ∧ ¬ (1 ≤ beToNat a ∧ beToNat a ≤ Precompiled.number env.revision))) ∧
    ((s.accessStorage a k).1 = true ↔ ¬ warmSlot s a k) ∧
    (∀ b l, warmSlot (s.accessStorage a k).2 b l ↔ warmSlot s b l ∨ (b = a ∧ l = k)) := by
  have hp : env.isPrecompiled a = true ↔ 1 ≤ beToNat a ∧ beToNat a ≤ Precompiled.number env.revision := by
    unfold Env.isPrecompiled
    simp only [Bool.and_eq_true, bne_iff_ne, decide_eq_true_eq]
    constructor <;> rintro ⟨h1, h2⟩ <;> exact ⟨by omega, h2⟩
  refine ⟨?_, fun b => ?_, ?_, fun b l => ?_⟩
  · unfold accessAccount
    rw [← hp]
    split
    · next h => simp [h]
    · next h =>
      unfold IntraBlockState.accessAccount
      split
      · next hc => simp [List.contains_iff_mem.mp hc]
      · next hc =>
        have : a ∉ s.accessedAddresses := fun hh => hc (List.contains_iff_mem.mpr hh)
        simp [this, h]
  · unfold accessAccount
    rw [← hp]
    split
    · next h => simp [h]
    · next h =>
      have e : ((s.accessAccount a).2).accessedAddresses = setInsert s.accessedAddresses a :=
        congrArg IntraBlockState.View.accessedAddresses (accessAccount_view (db := env.db) s a)
      rw [e, mem_setInsert]
      simp only [h]
      constructor
      · rintro (h | h)
        · exact Or.inr ⟨h, fun h => by cases h⟩
        · exact Or.inl h
      · rintro (h | h)
        · exact Or.inr h
        · exact Or.inl h.1
  · unfold IntraBlockState.accessStorage warmSlot
    dsimp only
    split
    · next hc => simp [List.contains_iff_mem.mp hc]
    · next hc =>
      exact ⟨fun _ hh => hc (List.contains_iff_mem.mpr hh), fun _ => rfl⟩
  · have e := congrArg (fun v => IntraBlockState.View.keys v b) (IntraBlockState.accessStorage_view (db := env.db) s a k)
    have e : ((s.accessStorage a k).2.accessedStorageKeys.get? b).getD [] =
      IntraBlockState.upd (view env.db s).keys a (setInsert ((view env.db s).keys a) k) b := e
    unfold warmSlot
    rw [e]
    unfold IntraBlockState.upd
    split
    · next h =>
      subst h
      show l ∈ setInsert ((s.accessedStorageKeys.get? b).getD []) k ↔ _
      rw [mem_setInsert]
      simp [or_comm]
    · next h =>
      show l ∈ (s.accessedStorageKeys.get? b).getD [] ↔ _
      simp [h]

theorem warm_list (l : List AccessListEntry) (s : IntraBlockState) (a k : Bytes) :
    (a ∈ (warmAccessList s l).accessedAddresses ↔ a ∈ s.accessedAddresses ∨ ∃ e ∈ l, e.account = a) ∧
    (warmSlot (warmAccessList s l) a k ↔ warmSlot s a k ∨ ∃ e ∈ l, e.account = a ∧ k ∈ e.storageKeys) := by
  have acc : ∀ (s : IntraBlockState) (b : Bytes), ((s.accessAccount b).2).accessedAddresses = setInsert s.accessedAddresses b :=
    fun s b => congrArg IntraBlockState.View.accessedAddresses (accessAccount_view (db := exMeterDb) s b)
  have accK : ∀ (s : IntraBlockState) (b c l : Bytes), warmSlot (s.accessAccount b).2 c l ↔ warmSlot s c l := by
    intro s b c l
    unfold IntraBlockState.accessAccount
    split <;> rfl
  have keys : ∀ (ks : List Bytes) (s : IntraBlockState) (b : Bytes),
      (ks.foldl (fun s k => (s.accessStorage b k).2) s).accessedAddresses = s.accessedAddresses ∧
      (warmSlot (ks.foldl (fun s k => (s.accessStorage b k).2) s) a k ↔ warmSlot s a k ∨ (b = a ∧ k ∈ ks)) := by
    intro ks
    induction ks with
    | nil => intro s b; simp
    | cons c ks ih =>
      intro s b
      obtain ⟨i1, i2⟩ := ih (s.accessStorage b c).2 b
      have e : (s.accessStorage b c).2.accessedAddresses = s.accessedAddresses :=
        congrArg IntraBlockState.View.accessedAddresses (IntraBlockState.accessStorage_view (db := exMeterDb) s b c)
      refine ⟨i1.trans e, i2.trans ?_⟩
      rw [((c81_access (exMeterEnv 8) s b c).2.2.2 a k), List.mem_cons]
      constructor
      · rintro ((h | h) | h)
        · exact Or.inl h
        · exact Or.inr ⟨h.1.symm, Or.inl h.2⟩
        · exact Or.inr ⟨h.1, Or.inr h.2⟩
      · rintro (h | ⟨h1, h2 | h2⟩)
        · exact Or.inl (Or.inl h)
        · exact Or.inl (Or.inr ⟨h1.symm, h2⟩)
        · exact Or.inr ⟨h1, h2⟩
  induction l generalizing s with
  | nil => unfold warmAccessList; simp
  | cons e l ih =>
    obtain ⟨i1, i2⟩ := ih (e.storageKeys.foldl (fun s k => (s.accessStorage e.account k).2) (s.accessAccount e.account).2)
    obtain ⟨k1, k2⟩ := keys e.storageKeys (s.accessAccount e.account).2 e.account
    have hunf : warmAccessList s (e :: l) =
      warmAccessList (e.storageKeys.foldl (fun s k => (s.accessStorage e.account k).2) (s.accessAccount e.account).2) l := rfl
    rw [hunf]
    refine ⟨i1.trans ?_, i2.trans ?_⟩
    · rw [k1, acc, mem_setInsert]
      simp only [List.mem_cons, exists_eq_or_imp]
      constructor
      · rintro ((h | h) | h)
        · exact Or.inr (Or.inl h.symm)
        · exact Or.inl h
        · exact Or.inr (Or.inr h)
      · rintro (h | h | h)
        · exact Or.inl (Or.inr h)
        · exact Or.inl (Or.inl h.symm)
        · exact Or.inr h
    · rw [k2, accK]
      simp only [List.mem_cons, exists_eq_or_imp]
      exact or_assoc

/-- C81: when a transaction begins, exactly its sender, its recipient and the accounts of its access list are warm, and
exactly the storage slots of its access list (EIP-2929, EIP-2930), whatever was accessed before. -/
theorem c81_warm (env : Env) (txn : Transaction) (sender : Bytes) (price : Nat) (s : IntraBlockState) (a k : Bytes) :
    (a ∈ (beginTransaction env txn sender price s).accessedAddresses ↔
      a = sender ∨ txn.to = some a ∨ ∃ e ∈ txn.accessList, e.account = a) ∧
    (warmSlot (beginTransaction env txn sender price s) a k ↔
      ∃ e ∈ txn.accessList, e.account = a ∧ k ∈ e.storageKeys) := by
  have keysView : ∀ (t : IntraBlockState), warmSlot t a k ↔ k ∈ (view env.db t).keys a := fun t => Iff.rfl
  unfold beginTransaction
  dsimp only
  generalize hs1 : (s.clearJournalAndSubstate.accessAccount sender).2 = s1
  have a1 : s1.accessedAddresses = [sender] := by
    rw [← hs1]
    exact (congrArg IntraBlockState.View.accessedAddresses (accessAccount_view (db := env.db) s.clearJournalAndSubstate sender))
  have k1 : ¬ warmSlot s1 a k := by
    rw [← hs1]
    unfold IntraBlockState.accessAccount warmSlot
    split <;> exact List.not_mem_nil
  have touch : ∀ (v : IntraBlockState.View) c, (v.touch c).accessedAddresses = v.accessedAddresses ∧ (v.touch c).keys = v.keys := by
    intro v c; unfold IntraBlockState.View.touch; split <;> exact ⟨rfl, rfl⟩
  generalize hs2 : IntraBlockState.subtractFromBalance env.db s1 sender (mul256 txn.gasLimit price) = s2
  have v2 := IntraBlockState.subtractFromBalance_view (db := env.db) s1 sender (mul256 txn.gasLimit price)
  rw [hs2] at v2
  have a2 : s2.accessedAddresses = [sender] := by
    refine (congrArg IntraBlockState.View.accessedAddresses v2).trans ?_
    rw [(touch _ _).1]; exact a1
  have k2 : ¬ warmSlot s2 a k := by
    rw [keysView, v2, (touch _ _).2]; exact k1
  cases txn.to with
  | none =>
    dsimp only
    rw [(warm_list txn.accessList _ a k).1, (warm_list txn.accessList _ a k).2, a2]
    refine ⟨?_, ?_⟩
    · simp
    · simp [k2]
  | some c =>
    dsimp only
    rw [(warm_list txn.accessList _ a k).1, (warm_list txn.accessList _ a k).2]
    have v3 := setNonce_view (db := env.db) (s2.accessAccount c).2 sender ((txn.nonce + 1) % 2 ^ 64)
    have v3' := accessAccount_view (db := env.db) s2 c
    rw [v3'] at v3
    refine ⟨?_, ?_⟩
    · rw [show (setNonce env.db (s2.accessAccount c).2 sender ((txn.nonce + 1) % 2 ^ 64)).accessedAddresses =
        setInsert s2.accessedAddresses c from congrArg IntraBlockState.View.accessedAddresses v3, mem_setInsert, a2]
      simp only [List.mem_singleton, Option.some.injEq]
      constructor
      · rintro ((h | h) | h)
        · exact Or.inr (Or.inl h.symm)
        · exact Or.inl h
        · exact Or.inr (Or.inr h)
      · rintro (h | h | h)
        · exact Or.inl (Or.inr h)
        · exact Or.inl (Or.inl h.symm)
        · exact Or.inr h
    · have : ¬ warmSlot (setNonce env.db (s2.accessAccount c).2 sender ((txn.nonce + 1) % 2 ^ 64)) a k := by
        rw [keysView, v3]; exact k2
      exact ⟨fun h => h.resolve_left this, Or.inr⟩

/-! ## Examples -/

/-- Contracts at addresses of sevens and eights, with codes 1 and 2, and a rich account. -/
def exMsgDb : StateReader where
  readAccount a :=
    if a = List.replicate 20 7 then some { nonce := 1, codeHash := beFixed 32 1, incarnation := 1 }
    else if a = List.replicate 20 8 then some { nonce := 1, codeHash := beFixed 32 2, incarnation := 1 }
    else if a = List.replicate 20 1 then some { nonce := 3, balance := 1000 }
    else none
  readCode h := [h.getLast?.getD 0]
  readStorage _ _ _ := zero32
  previousIncarnation _ := 0

/-- Code 1 stores and logs; code 2 does the same and reverts; code 3 returns what follows. -/
def exMsgInterpreter (_ : Nat) (msg : Message) (code : Bytes) : Program :=
  if code.head? = some 3 then .done { status := .success, gasLeft := msg.gas, output := code.tail }
  else if msg.isStatic then .done { status := .outOfGas, gasLeft := 0 }
  else .ask (.setStorage msg.destination (beFixed 32 1) (beFixed 32 5)) fun _ =>
    .ask (.emitLog msg.destination [1, 2] []) fun _ =>
      .done { status := if code.head? = some 2 then .revert else .success, gasLeft := msg.gas - min msg.gas 10 }

theorem exMsgInterpreter_ok : InterpreterOk exMsgInterpreter := by
  intro rev msg code hg
  unfold exMsgInterpreter
  split
  · exact .done hg (Int.le_refl _)
  · split
    · exact .done (Int.le_refl _) hg
    · next h =>
      have h : msg.isStatic = false := by simpa using h
      refine .ask ⟨rfl, h⟩ fun _ _ => .ask ⟨rfl, h⟩ fun _ _ => .done ?_ ?_
      · show 0 ≤ msg.gas - min msg.gas 10
        omega
      · show msg.gas - min msg.gas 10 ≤ msg.gas
        omega

/-- An environment in which the given fork is the last. -/
def exMsgEnv (rev : Nat) : Env where
  crypto := { exMeterCrypto with keccak := fun b => beFixed 32 (b.length + 256 * beToNat (b.take 20)) }
  db := exMsgDb
  readHeader _ _ := none
  config := { chainId := 1, forkBlocks := List.replicate rev (some 0) ++ List.replicate (10 - rev) none }
  block := { header := { number := 5 }, transactions := [], ommers := [] }
  interpreter := exMsgInterpreter

/-- A message of the rich account. -/
def exMsg (kind : Kind) (destination : Bytes) (input : Bytes) (value : Nat) : Message :=
  { kind := kind, gas := 1000, destination := destination, sender := List.replicate 20 1, input := input, value := value }

/-- Status, gas, and from the state after it: balance and nonce of the sender, slot 1 and the balance of the account, the
number of logs. -/
def exMsgRun (rev : Nat) (msg : Message) (a : Bytes) : Option (Status × Int × List Nat) :=
  match message (exMsgEnv rev) {} 3 msg { state := {} } with
  | .ok (r, m) =>
    some (r.status, r.gasLeft, [balance exMsgDb m.state (List.replicate 20 1), nonce exMsgDb m.state (List.replicate 20 1),
      beToNat (slot exMsgDb m.state a (beFixed 32 1)), balance exMsgDb m.state a, m.state.logs.length])
  | _ => none

/-- C75, C76: success and failure of calls; a static one. -/
example :
    exMsgRun 9 (exMsg .call (List.replicate 20 7) [] 30) (List.replicate 20 7) = some (.success, 990, [970, 3, 5, 30, 1]) ∧
    exMsgRun 9 (exMsg .call (List.replicate 20 8) [] 30) (List.replicate 20 8) = some (.revert, 990, [1000, 3, 0, 0, 0]) ∧
    exMsgRun 9 (exMsg .call (List.replicate 20 8) [] 3000) (List.replicate 20 8) =
      some (.insufficientBalance, 1000, [1000, 3, 0, 0, 0]) ∧
    exMsgRun 9 { exMsg .call (List.replicate 20 7) [] 0 with isStatic := true } (List.replicate 20 7) =
      some (.outOfGas, 0, [1000, 3, 0, 0, 0]) := by decide +kernel

/-- The address of the contract created by the sender. -/
def exMsgAddress (rev : Nat) : Bytes := createAddress (exMsgEnv rev).crypto.keccak (List.replicate 20 1) 3

/-- C75, C77: two bytes of code cost 400 gas; code may not begin with 0xEF in London, but before; too much code; code that
reverts. -/
example :
    exMsgRun 9 (exMsg .create zeroAddress [3, 0x60, 0] 30) (exMsgAddress 9) = some (.success, 600, [970, 4, 0, 30, 0]) ∧
    exMsgRun 9 (exMsg .create zeroAddress [3, 0xEF, 0] 30) (exMsgAddress 9) = some (.contractValidationFailure, 0, [1000, 4, 0, 0, 0]) ∧
    exMsgRun 8 (exMsg .create zeroAddress [3, 0xEF, 0] 30) (exMsgAddress 8) = some (.success, 600, [970, 4, 0, 30, 0]) ∧
    exMsgRun 8 (exMsg .create zeroAddress (3 :: List.replicate 6 0) 30) (exMsgAddress 8) = some (.outOfGas, 0, [1000, 4, 0, 0, 0]) ∧
    exMsgRun 8 (exMsg .create zeroAddress [2] 30) (exMsgAddress 8) = some (.revert, 990, [1000, 4, 0, 0, 0]) := by decide +kernel

/-- C78: the RLP that is hashed for an address. -/
example : Spec.rlp (.list [.str (List.replicate 20 1), Spec.num 300]) =
    [0xd8, 0x94] ++ List.replicate 20 1 ++ [0x82, 1, 44] := by
  simp [Spec.rlp, Spec.rlpItems, Spec.rlpStr, Spec.lenPrefix, Spec.num, Spec.be, List.replicate]

/-- C80: a transfer. -/
example : exMsgRun 9 (exMsg .call (List.replicate 20 5) [1, 2, 3] 30) (List.replicate 20 5) =
    some (.success, 1000, [970, 3, 0, 30, 0]) := by decide +kernel

/-- C81: a contract, an account without code and an absent one; a part of a code; warm accounts. -/
example :
    (getCodeHash (exMsgEnv 9) {} (List.replicate 20 7)).1 = beFixed 32 1 ∧
    (getCodeHash (exMsgEnv 9) {} (List.replicate 20 1)).1 = kEmptyHash ∧
    (getCodeHash (exMsgEnv 9) {} (List.replicate 20 3)).1 = zero32 ∧
    (copyCode (exMsgEnv 9) {} (List.replicate 20 7) 0 5).1 = [1] ∧ (copyCode (exMsgEnv 9) {} (List.replicate 20 7) 1 5).1 = [] ∧
    (accessAccount (exMsgEnv 9) {} (beFixed 20 9)).1 = false ∧ (accessAccount (exMsgEnv 9) {} (beFixed 20 10)).1 = true ∧
    (accessAccount (exMsgEnv 9) (accessAccount (exMsgEnv 9) {} (beFixed 20 10)).2 (beFixed 20 10)).1 = false := by
  decide +kernel

end Silkworm.Properties
