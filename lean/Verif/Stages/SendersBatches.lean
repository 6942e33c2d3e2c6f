import Verif.Stages.SendersLemmas

/-!
# Recovering senders in several batches
-/

namespace Silkworm.Stages

open Silkworm.Db Silkworm.Spec Silkworm.Etl

theorem packagesFrom_append (farm : Farm) (n : Nat) (xs ys : List Listed) :
    packagesFrom farm n (xs ++ ys) = packagesFrom farm n xs ++ packagesFrom farm (n + xs.length) ys := by
  induction xs generalizing n with
  | nil => rfl
  | cons x xs ih =>
    rw [List.cons_append, packagesFrom, packagesFrom, ih, List.append_assoc, List.length_cons]
    congr 3
    omega

theorem nonemptyFrom_append (n : Nat) (xs ys : List Listed) :
    nonemptyFrom n (xs ++ ys) = nonemptyFrom n xs ++ nonemptyFrom (n + xs.length) ys := by
  induction xs generalizing n with
  | nil => rfl
  | cons x xs ih =>
    rw [List.cons_append, nonemptyFrom, nonemptyFrom, ih, List.length_cons, show n + 1 + xs.length = n + (xs.length + 1) by omega]
    split
    · rfl
    · rfl

theorem countAll_append (xs ys : List Listed) : countAll (xs ++ ys) = countAll xs + countAll ys := by
  unfold countAll
  rw [List.map_append, List.sum_append]

theorem nonemptyFrom_none (n : Nat) (bs : List Listed) (h : countAll bs = 0) : nonemptyFrom n bs = [] := by
  by_contra hne
  obtain ⟨x, hx⟩ := List.exists_mem_of_ne_nil _ hne
  obtain ⟨-, -, h1, b, hb, h2⟩ := nonemptyFrom_mem n bs x hx
  have := count_le hb
  rw [h2] at this
  have := List.length_pos_iff.mpr h1
  omega

/-- The batches for these groups of blocks. -/
def packs (farm : Farm) : Nat → List (List Listed) → List (List Package)
  | _, [] => []
  | n, g :: gs => packagesFrom farm n g :: packs farm (n + g.length) gs

theorem packs_append (farm : Farm) (n : Nat) (gs : List (List Listed)) (g : List Listed) :
    packs farm n (gs ++ [g]) = packs farm n gs ++ [packagesFrom farm (n + gs.flatten.length) g] := by
  induction gs generalizing n with
  | nil => rfl
  | cons x gs ih =>
    rw [List.cons_append, packs, packs, ih, List.flatten_cons, List.length_append, List.cons_append, Nat.add_assoc]

/-- These blocks were put into batches, each of which fits, is not empty, and has whole blocks. -/
structure SplitAs (farm : Farm) (n : Nat) (bs : List Listed) (sent : List (List Package)) (batch : List Package)
    (gs : List (List Listed)) (cur : List Listed) : Prop where
  blocks : bs = gs.flatten ++ cur
  sent : sent = packs farm n gs
  batch : batch = packagesFrom farm (n + gs.flatten.length) cur
  groups : ∀ g ∈ gs, countAll g ≤ farm.maxBatch ∧ packagesFrom farm 0 g ≠ []
  bound : countAll cur ≤ farm.maxBatch

/-- These blocks were put into batches. -/
def Split (farm : Farm) (n : Nat) (bs : List Listed) (sent : List (List Package)) (batch : List Package) : Prop :=
  ∃ gs cur, SplitAs farm n bs sent batch gs cur

theorem packagesFrom_ne (farm : Farm) (n m : Nat) (bs : List Listed) (h : packagesFrom farm n bs ≠ []) : packagesFrom farm m bs ≠ [] := by
  intro hh
  have h1 := packagesFrom_length farm n bs
  have h2 := packagesFrom_length farm m bs
  rw [hh, List.length_nil] at h2
  rw [← h2] at h1
  exact h (List.length_eq_zero_iff.mp h1)

theorem Split.le {farm : Farm} {n : Nat} {bs : List Listed} {sent : List (List Package)} {batch : List Package}
    (h : Split farm n bs sent batch) : batch.length ≤ farm.maxBatch := by
  obtain ⟨gs, cur, h⟩ := h
  rw [h.batch, packagesFrom_length]
  exact h.bound

theorem split_fill {farm : Farm} {n : Nat} {pre : List Listed} {sent : List (List Package)} {batch : List Package} {b : Listed}
    {ps : List Package} (h : Split farm n pre sent batch) (hps : ps = b.2.map (packageOf farm (n + pre.length)))
    (hl : batch.length + b.2.length ≤ farm.maxBatch) : Split farm n (pre ++ [b]) sent (batch ++ ps) := by
  obtain ⟨gs, cur, h⟩ := h
  have hb := packagesFrom_length farm (n + gs.flatten.length) cur
  rw [← h.batch] at hb
  refine ⟨gs, cur ++ [b], by rw [h.blocks, List.append_assoc], h.sent, ?_, h.groups, ?_⟩
  · rw [packagesFrom_append, ← h.batch, hps, h.blocks, List.length_append, Nat.add_assoc]
    congr 1
    unfold packagesFrom packagesFrom
    rw [List.append_nil]
  · rw [countAll_append]
    have : countAll [b] = b.2.length := by unfold countAll; simp
    omega

theorem split_dispatch {farm : Farm} {n : Nat} {pre : List Listed} {sent : List (List Package)} {batch : List Package}
    {q : List (List Package) × List Package} (h : Split farm n pre sent batch) (hq : dispatchBatch farm sent batch = .ok q) :
    Split farm n pre q.1 q.2 ∧ q.2 = [] := by
  unfold dispatchBatch at hq
  split at hq
  · rename_i hb
    rw [← Outcome.ok.inj hq]
    exact ⟨h, hb⟩
  · rename_i hb
    split at hq
    · rw [← Outcome.ok.inj hq]
      obtain ⟨gs, cur, h⟩ := h
      refine ⟨⟨gs ++ [cur], [], ?_, ?_, rfl, ?_, Nat.zero_le _⟩, rfl⟩
      · rw [h.blocks, List.flatten_append, List.flatten_singleton, List.append_nil]
      · rw [packs_append, ← h.batch, ← h.sent]
      · intro g hg
        rcases List.mem_append.mp hg with hg | hg
        · exact h.groups g hg
        · rw [List.mem_singleton.mp hg]
          refine ⟨h.bound, packagesFrom_ne farm (n + gs.flatten.length) 0 cur ?_⟩
          rw [← h.batch]
          exact hb
    · unfold leave at hq
      split at hq <;> cases hq

/-- Reading the bodies into any number of batches. -/
theorem bodiesLoop_batches (farm : Farm) (config : ChainConfig) (ethTx : Table) (t : Table) (ho : Spec.Ordered t)
    (h40 : ∀ e ∈ t, e.1.length = 40) (bs : List Listed) (hne : bs ≠ []) (n : Nat) (hn : n + bs.length ≤ 2 ^ 64)
    (hb : ∀ i b, bs[i]? = some b → b.1.length = 32 ∧ ∃ v body rest, (blockHashKey (n + i) b.1, v) ∈ t ∧
      decodeStoredBlockBody v = .ok (body, rest) ∧ readTransactions ethTx body.baseTxnId body.txnCount = .ok b.2)
    (n0 : Nat) (pre : List Listed) (hpre : n = n0 + pre.length) (sent : List (List Package)) (batch : List Package)
    (hsp : Split farm n0 pre sent batch) (hblk : ∀ b ∈ bs, b.2.length ≤ farm.maxBatch) (s : Option (List (List Package) × List Package))
    (h : bodiesLoop farm config ethTx t (bs.map (·.1)) n sent batch = .ok s) :
    ∃ q, s = some q ∧ Split farm n0 (pre ++ bs) q.1 q.2 := by
  induction t generalizing bs n pre sent batch s with
  | nil =>
    obtain ⟨b, bs', rfl⟩ := List.exists_cons_of_ne_nil hne
    obtain ⟨_, _, _, _, hm, _⟩ := hb 0 b rfl
    cases hm
  | cons e t ih =>
    obtain ⟨o1, o2⟩ := List.pairwise_cons.mp ho
    have hlen := h40 e List.mem_cons_self
    have h40' : ∀ e ∈ t, e.1.length = 40 := fun f hf => h40 f (List.mem_cons_of_mem _ hf)
    obtain ⟨b, bs', rfl⟩ := List.exists_cons_of_ne_nil hne
    rw [List.length_cons] at hn
    obtain ⟨hb32, v, body, rest, hm, hd, ht⟩ := hb 0 b rfl
    rw [Nat.add_zero] at hm
    unfold bodiesLoop at h
    obtain ⟨m, h1, h⟩ := Outcome.bind_eq_ok.mp h
    have hmm : beToNat (e.1.take 8) = m := by
      unfold loadBig64 at h1
      rw [if_pos (by omega)] at h1
      exact Outcome.ok.inj h1
    -- an entry of another block is passed over
    have hskip : (∀ v, e ≠ (blockHashKey n b.1, v)) → m ≤ n → ∀ s,
        bodiesLoop farm config ethTx t ((b :: bs').map (·.1)) n sent batch = .ok s →
        ∃ q, s = some q ∧ Split farm n0 (pre ++ b :: bs') q.1 q.2 := by
      intro hne' hle s hs
      refine ih o2 h40' (b :: bs') (by simp) n (by rw [List.length_cons]; omega) (fun i c hi => ?_) pre hpre sent batch hsp hblk s hs
      obtain ⟨c32, v', body', rest', hm', hd', ht'⟩ := hb i c hi
      refine ⟨c32, v', body', rest', ?_, hd', ht'⟩
      rcases List.mem_cons.mp hm' with hm' | hm'
      · exfalso
        cases i with
        | zero =>
          have := Option.some.inj hi
          subst this
          exact hne' v' hm'.symm
        | succ i =>
          have hlt := (List.getElem?_eq_some_iff.mp hi).1
          rw [List.length_cons] at hlt
          have := recordBlock_key (n := n + (i + 1)) (by omega) c.1 v'
          rw [hm'] at this
          unfold recordBlock at this
          omega
      · exact hm'
    by_cases hlt : m < n
    · rw [if_pos hlt] at h
      refine hskip (fun v' he => ?_) (by omega) s h
      have := recordBlock_key (n := n) (by omega) b.1 v'
      rw [← he] at this
      unfold recordBlock at this
      omega
    · rw [if_neg hlt] at h
      by_cases hgt : n < m
      · exfalso
        rcases List.mem_cons.mp hm with hm | hm
        · have := recordBlock_key (n := n) (by omega) b.1 v
          rw [hm] at this
          unfold recordBlock at this
          omega
        · have hlt' := o1 _ hm
          have hk := key_of_parts hlen hmm rfl
          rw [hk] at hlt'
          unfold blockHashKey at hlt'
          have := (Db.lexLt_append (by rw [beFixed_length, beFixed_length]) _ _).mp ((Etl.lexLt_iff _ _).mpr hlt')
          have hml : m < 2 ^ 64 := by
            have := beToNat_lt (e.1.take 8)
            rw [List.length_take, hlen, show min 8 40 = 8 from rfl, hmm] at this
            have h256 : (256 : Nat) ^ 8 = 2 ^ 64 := by decide
            omega
          have h256 : (256 : Nat) ^ 8 = 2 ^ 64 := by decide
          rcases this with h2 | ⟨h2, _⟩
          · rw [lexLt_iff_toNat (by rw [beFixed_length, beFixed_length]), beToNat_beFixed (by omega), beToNat_beFixed (by omega)] at h2
            omega
          · have := congrArg beToNat h2
            rw [beToNat_beFixed (by omega), beToNat_beFixed (by omega)] at this
            omega
      · rw [if_neg hgt, if_neg (by omega)] at h
        have hmn : m = n := by omega
        subst hmn
        rw [List.map_cons] at h
        dsimp only at h
        by_cases hh : (e.1.drop 8).take 32 = b.1
        · rw [if_neg (by simp [hh])] at h
          have hk := key_of_parts hlen hmm hh
          have hev : e.2 = v := by
            rcases List.mem_cons.mp hm with hm | hm
            · rw [← hm]
            · have := o1 _ hm
              rw [hk] at this
              exact absurd this (List.lt_irrefl _)
          rw [hev, hd] at h
          simp only [liftDec, liftDb, hang, Outcome.ok_bind] at h
          rw [ht] at h
          simp only [Outcome.ok_bind] at h
          have hbl := hblk b List.mem_cons_self
          obtain ⟨q, hsp', h⟩ : ∃ q : List (List Package) × List Package, Split farm n0 (pre ++ [b]) q.1 q.2 ∧
              (match bs'.map (·.1) with
              | [] => (.ok (some (q.1, q.2)) : Outcome StageError (Option (List (List Package) × List Package)))
              | h :: hs => bodiesLoop farm config ethTx t (h :: hs) (m + 1) q.1 q.2) = .ok s := by
            subst hpre
            split at h
            · rename_i hnil
              refine ⟨(sent, batch ++ []), split_fill hsp (by rw [hnil]; rfl) (by rw [hnil, List.length_nil]; exact hsp.le), ?_⟩
              rw [List.append_nil]
              exact h
            · split at h
              · obtain ⟨s1, hs1, h⟩ := Outcome.bind_eq_ok.mp h
                obtain ⟨ps, hps, h⟩ := Outcome.bind_eq_ok.mp h
                have hps := fillBatch_ok farm config _ b.2 ps (hang_ok (w := s1.1.length) hps)
                obtain ⟨h5, h6⟩ := split_dispatch hsp hs1
                exact ⟨(s1.1, s1.2 ++ ps), split_fill h5 hps (by rw [h6]; simpa using hbl), h⟩
              · obtain ⟨ps, hps, h⟩ := Outcome.bind_eq_ok.mp h
                have hps := fillBatch_ok farm config _ b.2 ps (hang_ok (w := sent.length) hps)
                exact ⟨(sent, batch ++ ps), split_fill hsp hps (by omega), h⟩
          cases bs' with
          | nil =>
            rw [List.map_nil] at h
            dsimp only at h
            exact ⟨q, (Outcome.ok.inj h).symm, hsp'⟩
          | cons c bs' =>
            rw [List.map_cons] at h
            dsimp only at h
            have := ih o2 h40' (c :: bs') (by simp) (m + 1) (by rw [List.length_cons] at hn ⊢; omega) (fun i d hi => by
              obtain ⟨d32, v', body', rest', hm', hd', ht'⟩ := hb (i + 1) d (by rw [List.getElem?_cons_succ]; exact hi)
              refine ⟨d32, v', body', rest', ?_, hd', ht'⟩
              rw [Nat.add_right_comm, Nat.add_assoc]
              rcases List.mem_cons.mp hm' with hm' | hm'
              · exfalso
                have hlt := (List.getElem?_eq_some_iff.mp hi).1
                have := recordBlock_key (n := m + (i + 1)) (by omega) d.1 v'
                rw [hm'] at this
                unfold recordBlock at this
                omega
              · exact hm') (pre ++ [b]) (by rw [List.length_append, List.length_singleton]; omega) q.1 q.2 hsp'
              (fun d hd => hblk d (List.mem_cons_of_mem _ hd)) s h
            rw [List.append_assoc] at this
            exact this
        · rw [if_pos hh] at h
          refine hskip (fun v' he => hh ?_) (by omega) s h
          rw [he]
          unfold blockHashKey
          dsimp only
          rw [List.drop_left' (beFixed_length ..), List.take_of_length_le (Nat.le_of_eq hb32)]


/-- What the workers find. -/
def found (farm : Farm) : Nat → List (List Listed) → List (List (Nat × Bytes))
  | _, [] => []
  | n, g :: gs => (nonemptyFrom n g).map (resultOf farm) :: found farm (n + g.length) gs

theorem found_flatten (farm : Farm) (n : Nat) (gs : List (List Listed)) :
    (found farm n gs).flatten = (nonemptyFrom n gs.flatten).map (resultOf farm) := by
  induction gs generalizing n with
  | nil => rfl
  | cons g gs ih => rw [found, List.flatten_cons, ih, List.flatten_cons, nonemptyFrom_append, List.map_append]

theorem found_length (farm : Farm) (n : Nat) (gs : List (List Listed)) : (found farm n gs).length = gs.length := by
  induction gs generalizing n with
  | nil => rfl
  | cons g gs ih => rw [found, List.length_cons, ih, List.length_cons]

theorem workAll_packs (farm : Farm) (hk : ∀ b, (farm.keccak b).length = 32) (n : Nat) (gs : List (List Listed))
    (hrec : ∀ g ∈ gs, ∀ b ∈ g, ∀ t ∈ b.2, Recoverable farm t) (hg : ∀ g ∈ gs, countAll g ≤ farm.maxBatch ∧ packagesFrom farm 0 g ≠ [])
    (i : Nat) (rs : List (Option (List (Nat × Bytes)))) (h : workAll farm (packs farm n gs) i = .ok rs) :
    rs = (found farm n gs).map some := by
  induction gs generalizing n i rs with
  | nil => exact (Outcome.ok.inj h).symm
  | cons g gs ih =>
    unfold packs workAll at h
    split at h
    · cases h
    · obtain ⟨r, h1, h⟩ := Outcome.bind_eq_ok.mp h
      obtain ⟨q, h2, h⟩ := Outcome.bind_eq_ok.mp h
      obtain ⟨g1, g2⟩ := hg g List.mem_cons_self
      rw [workBatch_from farm hk g (hrec g List.mem_cons_self) n (packagesFrom_ne farm 0 n g g2) g1] at h1
      rw [← Outcome.ok.inj h, ← Outcome.ok.inj h1,
        ih (n + g.length) (fun g hg => hrec g (List.mem_cons_of_mem _ hg)) (fun x hx => hg x (List.mem_cons_of_mem _ hx)) (i + 1) q h2]
      rfl

theorem bufferize_all (rss : List (List (Nat × Bytes))) (hs : List Bytes) (hl : rss.flatten.length ≤ hs.length) :
    bufferizeResults (rss.map some) hs = .ok (some (List.zipWith (fun r h => ⟨blockHashKey r.1 h, r.2⟩) rss.flatten hs)) := by
  induction rss generalizing hs with
  | nil => cases hs <;> rfl
  | cons rs rss ih =>
    rw [List.flatten_cons, List.length_append] at hl
    rw [List.map_cons, bufferizeResults, resultEntries_spec rs hs (by omega)]
    simp only [Outcome.ok_bind]
    rw [ih (hs.drop rs.length) (by rw [List.length_drop]; omega)]
    simp only [Outcome.ok_bind, Option.map_some, List.flatten_cons]
    congr 2
    conv_rhs => rw [← List.take_append_drop rs.length hs, List.zipWith_append (by rw [List.length_take]; omega)]
    congr 1
    clear ih hl
    induction rs generalizing hs with
    | nil => cases hs <;> rfl
    | cons r rs ih =>
      cases hs with
      | nil => rfl
      | cons h hs => rw [List.length_cons, List.take_succ_cons, List.zipWith_cons_cons, List.zipWith_cons_cons, ih]

theorem groups_le (gs : List (List Listed)) (h : ∀ g ∈ gs, g ≠ []) : gs.length ≤ gs.flatten.length := by
  induction gs with
  | nil => exact Nat.le_refl _
  | cons g gs ih =>
    rw [List.length_cons, List.flatten_cons, List.length_append]
    have := ih fun g hg => h g (List.mem_cons_of_mem _ hg)
    have := List.length_pos_iff.mpr (h g List.mem_cons_self)
    omega

/-- What is collected from any number of batches. -/
theorem batches_collected (farm : Farm) (config : ChainConfig) (ethTx t : Table) (bs : List Listed) (n : Nat)
    (hk : ∀ b, (farm.keccak b).length = 32) (hne : bs ≠ []) (h1 : Ordered t) (h2 : ∀ e ∈ t, e.1.length = 40)
    (hrange : n + bs.length ≤ 2 ^ 64)
    (h3 : ∀ i b, bs[i]? = some b → b.1.length = 32 ∧ ∃ v body rest, (blockHashKey (n + i) b.1, v) ∈ t ∧
      decodeStoredBlockBody v = .ok (body, rest) ∧ readTransactions ethTx body.baseTxnId body.txnCount = .ok b.2)
    (hblk : ∀ b ∈ bs, b.2.length ≤ farm.maxBatch) (hrec : ∀ b ∈ bs, ∀ t ∈ b.2, Recoverable farm t) (hseen : bs.length ≤ farm.seen)
    (s q : List (List Package) × List Package) (rs : List (Option (List (Nat × Bytes)))) (es : Option (List Entry))
    (h4 : bodiesLoop farm config ethTx t (bs.map (·.1)) n [] [] = .ok (some s))
    (h5 : dispatchBatch farm s.1 s.2 = .ok q) (h6 : workAll farm q.1 0 = .ok rs)
    (h7 : bufferizeResults (rs.take farm.seen) (bs.map (·.1)) = .ok es) : es = some (collected farm n bs) := by
  obtain ⟨s', hs', hsp⟩ := bodiesLoop_batches farm config ethTx t h1 h2 bs hne n hrange h3 n [] rfl [] []
    ⟨[], [], rfl, rfl, rfl, fun g hg => (by cases hg), Nat.zero_le _⟩ hblk _ h4
  have hs' := Option.some.inj hs'
  subst hs'
  obtain ⟨⟨gs, cur, hq⟩, hq2⟩ := split_dispatch hsp h5
  rw [List.nil_append] at hq
  have hcur : countAll cur = 0 := by
    have := packagesFrom_length farm (n + gs.flatten.length) cur
    rw [← hq.batch, hq2, List.length_nil] at this
    exact this.symm
  have hmem : ∀ g ∈ gs, ∀ b ∈ g, b ∈ bs := by
    intro g hg b hb
    rw [hq.blocks]
    exact List.mem_append_left _ (List.mem_flatten.mpr ⟨g, hg, hb⟩)
  rw [hq.sent] at h6
  have hrs := workAll_packs farm hk n gs (fun g hg b hb => hrec b (hmem g hg b hb)) hq.groups 0 rs h6
  have hlen : gs.length ≤ bs.length := by
    have h9 := groups_le gs fun g hg hnil => (hq.groups g hg).2 (by rw [hnil]; rfl)
    have h10 := congrArg List.length hq.blocks
    rw [List.length_append] at h10
    omega
  rw [hrs, List.take_of_length_le (by rw [List.length_map, found_length]; omega)] at h7
  have hflat : (found farm n gs).flatten = (nonemptyFrom n bs).map (resultOf farm) := by
    rw [found_flatten, hq.blocks, nonemptyFrom_append, nonemptyFrom_none _ cur hcur, List.append_nil]
  rw [bufferize_all _ _ (by rw [hflat, List.length_map, List.length_map]; exact nonemptyFrom_length _ _), hflat] at h7
  exact (Outcome.ok.inj h7).symm

/-- What is stored from any number of batches. -/
theorem recoverAll_batches (d : Disk) (farm : Farm) (readConfig : Database → Option ChainConfig) (db : Database) (first last done : Nat)
    (bs : List Listed) (hk : ∀ b, (farm.keccak b).length = 32) (hsome : ∃ b ∈ bs, b.2 ≠ [])
    (hp : getStageProgress db (ascii "Senders") = .ok done)
    (hb : getStageProgress db (ascii "Bodies") = .ok (done + bs.length)) (hr : Readable db (done + 1) bs)
    (hlast : done + bs.length ≤ last) (hblk : ∀ b ∈ bs, b.2.length ≤ farm.maxBatch) (hfit : ∀ b ∈ bs, 20 * b.2.length < 2 ^ 32)
    (hrec : ∀ b ∈ bs, ∀ t ∈ b.2, Recoverable farm t) (hseen : bs.length ≤ farm.seen) (db' : Database)
    (h : recoverAll d farm readConfig db first last = .ok (.success, db')) :
    ∃ x, (nonemptyFrom (done + 1) bs).getLast? = some x ∧
      db' = { db with
        senders := db.senders ++ (collected farm (done + 1) bs).map fun x => (x.key, x.value)
        stageProgress := db.stageProgress.upsert (ascii "Senders") (beFixed 8 x.1) } := by
  have hne : bs ≠ [] := by
    obtain ⟨b, hb, _⟩ := hsome
    exact List.ne_nil_of_mem hb
  obtain ⟨config, t, s, h1, h2, h3, h4, q, h5, rs, h6, es, h7, h8⟩ :=
    recoverAll_bodies d farm readConfig db first last done bs hne hp hb hr hlast db' h
  have hes := batches_collected farm config db.ethTx t bs (done + 1) hk hne h1 h2 hr.range h3 hblk hrec hseen s q rs es h4 h5 h6 h7
  subst hes
  exact loadSenders_collected d farm db done _ bs hk hsome hr hfit hrec db' h8

end Silkworm.Stages
