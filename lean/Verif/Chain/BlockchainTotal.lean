import Verif.Chain.BlockchainState

/-!
# The model of `Blockchain` does not run into undefined behaviour
-/

namespace Silkworm.Blockchain

open Silkworm.Spec (ChainTo CanonicalChain SameContents RecordsInitial)

variable {env : ChainEnv} {start : MemoryBuffer}

theorem okb {ε α β : Type} (a : α) (f : α → Outcome ε β) : (Outcome.ok a).bind f = f a := rfl

theorem ex_ok {ε α : Type} (a : α) : ∃ q, (Outcome.ok a : Outcome ε α) = .ok q := ⟨a, rfl⟩


/-- The parent of an accepted block other than the genesis block is accepted. -/
theorem Inv.parent {H : BlockHeader → Bytes} {g : BlockHeader} {A : List BlockHeader} {b : MemoryBuffer} (i : Inv H g A b)
    (hg : g ∈ A) (hg0 : g.number = 0) (inj : ∀ x ∈ A, ∀ y ∈ A, H x = H y → x = y) {x : BlockHeader} (hx : x ∈ A) {n : Nat}
    (hn : x.number = n + 1) : ∃ p ∈ A, H p = x.parentHash ∧ p.number = n := by
  obtain ⟨d, _, ch⟩ := i.td x hx
  generalize hh : H x = h at ch
  generalize hm : x.number = m at ch
  cases ch with
  | genesis => omega
  | step p d k y ch hy hp hk =>
    have := inj x hx y hy hh
    subst this
    obtain ⟨z, hz, h1, h2⟩ := ChainTo.last hg ch
    exact ⟨z, hz, h1.trans hp.symm, by omega⟩

theorem canonicalAncestor_total {H : BlockHeader → Bytes} {g : BlockHeader} {A : List BlockHeader} {b : MemoryBuffer}
    (i : Inv H g A b) (hA : ∀ x ∈ A, x.number < 2 ^ 64 - 1) (hg : g ∈ A) (hg0 : g.number = 0)
    (inj : ∀ x ∈ A, ∀ y ∈ A, H x = H y → x = y) (fuel : Nat) {x : BlockHeader} (hx : x ∈ A) (hf : x.number < fuel) :
    ∃ a, canonicalAncestor b fuel x (H x) = .ok a := by
  induction fuel generalizing x with
  | zero => omega
  | succ fuel ih =>
    unfold canonicalAncestor
    by_cases hc : b.canonicalHash x.number = some (H x)
    · rw [if_pos hc]; exact ⟨_, rfl⟩
    · rw [if_neg hc]
      rcases Nat.eq_zero_or_pos x.number with h0 | h0
      · exfalso
        apply hc
        obtain ⟨d, _, ch⟩ := i.td x hx
        generalize hh : H x = h at ch
        generalize hm : x.number = m at ch
        cases ch with
        | genesis =>
          unfold MemoryBuffer.canonicalHash
          rw [hg0]
          exact i.canon.genesis
        | step p d k y ch hy hp hk =>
          omega
      · obtain ⟨m, hm⟩ : ∃ m, x.number = m + 1 := ⟨x.number - 1, by omega⟩
        obtain ⟨p, hp, h1, h2⟩ := i.parent hg hg0 inj hx hm
        have := hA x hx
        rw [hm, sub64_succ m (by omega), (i.headers m x.parentHash p).mpr ⟨hp, h2.symm, h1.symm⟩]
        dsimp only
        rw [← h1]
        exact ih hp (by omega)

theorem storedBlock_total {H : BlockHeader → Bytes} {g : BlockHeader} {A : List BlockHeader} {b : MemoryBuffer}
    (i : Inv H g A b) {x : BlockHeader} (hx : x ∈ A) : ∃ y, storedBlock b x.number (H x) = .ok y ∧ y.header = x := by
  have h1 := (i.headers _ _ _).mpr ⟨hx, rfl, rfl⟩
  have h2 := i.bodies x.number (H x)
  rw [h1] at h2
  obtain ⟨body, hb⟩ := Option.isSome_iff_exists.mp h2
  unfold storedBlock
  rw [h1, hb]
  exact ⟨_, rfl, rfl⟩

theorem chainBack_total {H : BlockHeader → Bytes} {g : BlockHeader} {A : List BlockHeader} {b : MemoryBuffer}
    (i : Inv H g A b) (hg : g ∈ A) (hg0 : g.number = 0) (inj : ∀ x ∈ A, ∀ y ∈ A, H x = H y → x = y) (count : Nat)
    {x : BlockHeader} (hx : x ∈ A) (hc : count ≤ x.number) : ∃ L, chainBack b count x.number (H x) = .ok L := by
  induction count generalizing x with
  | zero => exact ⟨[], rfl⟩
  | succ count ih =>
    obtain ⟨m, hm⟩ : ∃ m, x.number = m + 1 := ⟨x.number - 1, by omega⟩
    obtain ⟨p, hp, h1, h2⟩ := i.parent hg hg0 inj hx hm
    obtain ⟨y, hy, rfl⟩ := storedBlock_total i hx
    obtain ⟨L, hL⟩ := ih hp (by omega)
    unfold chainBack
    rw [hy, hm, Nat.add_sub_cancel]
    rw [okb, ← h1, ← h2, hL, okb]
    exact ex_ok _

theorem executeChain_total (hu : ∀ b x, env.execute b x ≠ .ub) (C : List (Block × Bytes)) (b : MemoryBuffer) :
    ∃ r, executeChain env false b C = .ok r := by
  induction C generalizing b with
  | nil => exact ⟨_, rfl⟩
  | cons x C ih =>
    unfold executeChain executeBlock
    cases hx : env.execute b x.1 with
    | ub => exact absurd hx (hu b x.1)
    | err e => exact ⟨_, rfl⟩
    | ok calls =>
      obtain ⟨r, hr⟩ := ih (b.applyAll calls)
      dsimp only
      simp only [Bool.false_eq_true, if_false]
      rw [okb]
      dsimp only
      rw [hr, okb]
      exact ex_ok _

set_option maxHeartbeats 1000000 in
theorem process_total (he : ExecOk env.execute) (hu : ∀ b x, env.execute b x ≠ .ub) {g : BlockHeader} {A : List BlockHeader}
    {c : Blockchain} {x : Block} {p : BlockHeader} (i : Inv (·.hash env.keccak) g A c.state)
    (hA : ∀ y ∈ A, y.number < 2 ^ 64 - 1) (hg : g ∈ A) (hg0 : g.number = 0)
    (injA : ∀ y ∈ A, ∀ z ∈ A, y.hash env.keccak = z.hash env.keccak → y = z)
    (hp : p ∈ A) (hn : x.header.number = p.number + 1) (hph : x.header.parentHash = p.hash env.keccak)
    (inj : ∀ y ∈ A, y.hash env.keccak = x.header.hash env.keccak → y = x.header)
    (htd : ∀ h d n, ChainTo (·.hash env.keccak) g (x.header :: A) h d n → d < 2 ^ 256)
    (hk : Kept env start c.state) : ∃ q, process env c x (x.header.hash env.keccak) false = .ok q := by
  obtain ⟨fs, s, t, gd, st⟩ := hk
  obtain ⟨h0, hcan0⟩ := st.1
  have hpn := hA p hp
  have hlenc : c.state.canonicalHashes.length = fs.length + 1 := by rw [hcan0]; simp
  have hcur : c.state.currentCanonicalBlock = fs.length := by
    obtain ⟨z, hz, D, z1, _⟩ := i.heavy
    have := hA z hz
    unfold MemoryBuffer.currentCanonicalBlock
    rw [hlenc]
    rw [hlenc] at z1
    omega
  have hpar : c.state.readHeader (sub64 x.header.number 1) x.header.parentHash = some p := by
    rw [hn, sub64_succ p.number (by omega)]
    exact (i.headers _ _ _).mpr ⟨hp, rfl, hph⟩
  have unw : ∀ a, a ≤ fs.length → unwindLast c.state a c.state.currentCanonicalBlock =
      .ok ((List.range' (a + 1) (fs.length - a)).reverse.foldl (fun b n => b.unwindStateChanges n) c.state) := by
    intro a ha
    unfold unwindLast
    rw [hcur, if_neg (by omega)]
  by_cases hcan : c.state.canonicalHash x.header.number = some (x.header.hash env.keccak)
  · have hlt : x.header.number ≤ fs.length := by
      have := (List.getElem?_eq_some_iff.mp hcan).1
      omega
    have ea : canonicalAncestor c.state (x.header.number + 1) x.header (x.header.hash env.keccak) = .ok x.header.number := by
      unfold canonicalAncestor
      rw [if_pos hcan]
    unfold process
    rw [ea, okb]
    dsimp only
    rw [unw _ hlt, okb, show sub64 x.header.number 1 = p.number by rw [hn, sub64_succ p.number (by omega)],
      if_pos (show p.number < x.header.number by omega)]
    exact ex_ok _
  · obtain ⟨a, ea⟩ := canonicalAncestor_total i hA hg hg0 injA x.header.number hp (by omega)
    obtain ⟨ha, q, hq, hlink⟩ := ancestor_link i hA _ hp ea
    have hafs : a ≤ fs.length := by
      have := (List.getElem?_eq_some_iff.mp hq).1
      omega
    have hta : (fs.take a).length = a := by rw [List.length_take]; omega
    have ea' : canonicalAncestor c.state (x.header.number + 1) x.header (x.header.hash env.keccak) = .ok a := by
      unfold canonicalAncestor
      rw [if_neg hcan, hpar]
      dsimp only
      rw [hph]
      exact ea
    unfold process
    rw [ea', okb]
    dsimp only
    rw [unw a hafs, okb, show sub64 x.header.number 1 = p.number by rw [hn, sub64_succ p.number (by omega)],
      if_neg (show ¬ p.number < a by omega), hph]
    obtain ⟨sa, ta, ga⟩ := Good.unwinds a (fs.length - a) t gd (by omega)
    have hsb := same_unwinds (List.range' (a + 1) (fs.length - a)).reverse c.state
    generalize (List.range' (a + 1) (fs.length - a)).reverse.foldl (fun b n => b.unwindStateChanges n) c.state = b at *
    obtain ⟨L, eL⟩ := chainBack_total (i.same hsb) hg hg0 injA (p.number - a) hp (by omega)
    have eL' : chainBack c.state (p.number - a) p.number (p.hash env.keccak) = .ok L := by
      rw [← eL]
      have : ∀ k n h, chainBack c.state k n h = chainBack b k n h := by
        intro k
        induction k with
        | zero => intro n h; rfl
        | succ k ih =>
          intro n h
          unfold chainBack
          rw [storedBlock_same hsb]
          simp only [ih]
      exact this _ _ _
    rw [eL, okb]
    obtain ⟨l1, l2⟩ := hlink L eL'
    have hlk : Link (·.hash env.keccak) (x.header :: A) q a (L ++ [(x, x.header.hash env.keccak)])
        (x.header.hash env.keccak) :=
      Link.snoc (H := (·.hash env.keccak)) L _ x (Link.mono (fun y hy => List.mem_cons_of_mem _ hy) l1) List.mem_cons_self
        hph (by rw [l2]; omega)
    have hnum := Link.numbers hlk
    obtain ⟨⟨b2, k, o⟩, ex⟩ := executeChain_total hu (L ++ [(x, x.header.hash env.keccak)]) b
    obtain ⟨gs, s2, t2, g2, gl, gm, gn⟩ := executeChain_good he (L ++ [(x, x.header.hash env.keccak)]) ta ga
      (fun i y hy => by rw [(hnum i y hy).1, hta]) ex
    dsimp only at g2 gl gm gn
    have hs2 : Same c.state b2 := hsb.trans (same_executeChain _ ex)
    rw [ex, okb]
    unfold conclude
    rw [hcur]
    cases o with
    | some err =>
      obtain ⟨b4, e6, g6⟩ := restore_good he a t t2 g2 hafs (st.same hs2)
      dsimp only
      rw [← gl, e6, okb]
      exact ex_ok _
    | none =>
      dsimp only
      obtain ⟨n1, n2, n3, n4⟩ := (i.same hs2).insert hp hn hph inj htd
      obtain ⟨z, hz, D, z1, z2, z3, z4⟩ := i.heavy
      obtain ⟨D', hD, _⟩ := n3 z (List.mem_cons_of_mem _ hz)
      have hzl : z.number = fs.length := by omega
      have hcan3 : (b2.insertBlock x (x.header.hash env.keccak)).canonicalHashes = c.state.canonicalHashes := hs2.2.2.2
      have hhd : headDifficulty (b2.insertBlock x (x.header.hash env.keccak)) fs.length = .ok D' := by
        unfold headDifficulty MemoryBuffer.canonicalHash
        rw [hcan3, ← hzl, z2]
        dsimp only
        rw [hD]
      rw [hhd, okb]
      have g3 : Good (b2.insertBlock x (x.header.hash env.keccak)) (fs.take a ++ gs) s2 := g2.fields rfl rfl rfl rfl
      have st3 : Stored (b2.insertBlock x (x.header.hash env.keccak)) fs := by
        refine ⟨by rw [hcan3]; exact st.1, fun j f hf => ?_⟩
        rw [storedBlock_insert, storedBlock_same hs2]
        · exact st.2 j f hf
        · rintro ⟨h1, h2⟩
          apply hcan
          unfold MemoryBuffer.canonicalHash
          rw [hcan0, ← h1, List.getElem?_cons_succ, List.getElem?_map, hf, ← h2]
          rfl
      obtain ⟨b5, e7, _⟩ := restore_good he a t t2 g3 hafs st3
      generalize b2.insertBlock x (x.header.hash env.keccak) = b3 at *
      by_cases hgt : optionGreater (b3.totalDifficulty x.header.number (x.header.hash env.keccak)) D' = true
      · rw [if_pos hgt]; exact ex_ok _
      · rw [if_neg hgt, ← gl, e7, okb]
        exact ex_ok _

theorem insertBlock_total (he : ExecOk env.execute) (hu : ∀ b x, env.execute b x ≠ .ub) {g : BlockHeader}
    {A : List BlockHeader} {c : Blockchain} {x : Block} (i : Inv (·.hash env.keccak) g A c.state)
    (hA : ∀ y ∈ A, y.number < 2 ^ 64 - 1) (hg : g ∈ A) (hg0 : g.number = 0)
    (injA : ∀ y ∈ A, ∀ z ∈ A, y.hash env.keccak = z.hash env.keccak → y = z) (hx : x.header.number < 2 ^ 64 - 1)
    (inj : ∀ y ∈ A, y.hash env.keccak = x.header.hash env.keccak → y = x.header)
    (htd : ∀ h d n, ChainTo (·.hash env.keccak) g (x.header :: A) h d n → d < 2 ^ 256)
    (hk : Kept env start c.state)
    (hv : preValidateBlock env.keccak env.listRoot env.sealOk x c.state.headerStore env.config ≠ .ub) :
    ∃ q, insertBlock env c x false = .ok q := by
  unfold insertBlock
  cases hv' : preValidateBlock env.keccak env.listRoot env.sealOk x c.state.headerStore env.config with
  | ub => exact absurd hv' hv
  | err er => exact ⟨_, rfl⟩
  | ok u =>
    dsimp only
    cases hbad : c.badBlocks.get? (x.header.hash env.keccak) with
    | some er => exact ⟨_, rfl⟩
    | none =>
      dsimp only
      unfold preValidateBlock at hv'
      obtain ⟨_, hv1, _⟩ := Outcome.bind_eq_ok.mp hv'
      obtain ⟨p, hp⟩ := validateBlockHeader_parent hv1
      obtain ⟨q1, q2, q3⟩ := (i.headers _ _ _).mp hp
      have hpn := hA p q1
      have hnum : x.header.number = p.number + 1 := by
        rcases Nat.eq_zero_or_pos x.header.number with h0 | h0
        · rw [h0] at q2
          have : sub64 0 1 = 2 ^ 64 - 1 := by decide
          omega
        · obtain ⟨m, hm⟩ : ∃ m, x.header.number = m + 1 := ⟨x.header.number - 1, by omega⟩
          rw [hm, sub64_succ m (by omega)] at q2
          omega
      exact process_total (x := recoverSenders env x) he hu i hA hg hg0 injA q1 hnum q3 inj htd hk

end Silkworm.Blockchain
