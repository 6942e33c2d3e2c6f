import Verif.Stages.Senders
import Verif.Stages.HistoryIndexLemmas
import Verif.Db.BlockLemmas

/-!
# Lemmas about recovering senders
-/

namespace Silkworm.Stages

open Silkworm.Db Silkworm.Spec Silkworm.Etl

/-- Hash and transactions of a block. -/
abbrev Listed := Bytes × List Transaction

/-- What is given to a worker for a transaction. -/
def packageOf (farm : Farm) (n : Nat) (t : Transaction) : Package :=
  ⟨n, farm.keccak (Rlp.encodeTransaction t true false), t.oddYParity, beFixed 32 t.r ++ beFixed 32 t.s⟩

/-- The key of the sender can be recovered. -/
def Recoverable (farm : Farm) (t : Transaction) : Prop :=
  ∃ key, farm.recover (farm.keccak (Rlp.encodeTransaction t true false)) (beFixed 32 t.r ++ beFixed 32 t.s) t.oddYParity = some (4 :: key)

/-- The sender. -/
def keyAddress (farm : Farm) (t : Transaction) : Bytes :=
  match farm.recover (farm.keccak (Rlp.encodeTransaction t true false)) (beFixed 32 t.r ++ beFixed 32 t.s) t.oddYParity with
  | some (_ :: key) => (farm.keccak key).drop 12
  | _ => []

/-- Everything to recover in blocks from `n` on. -/
def packagesFrom (farm : Farm) : Nat → List Listed → List Package
  | _, [] => []
  | n, b :: bs => b.2.map (packageOf farm n) ++ packagesFrom farm (n + 1) bs

/-- The blocks from `n` on that have transactions. -/
def nonemptyFrom : Nat → List Listed → List (Nat × List Transaction)
  | _, [] => []
  | n, b :: bs => if b.2 = [] then nonemptyFrom (n + 1) bs else (n, b.2) :: nonemptyFrom (n + 1) bs

/-- What is recovered for a block. -/
def resultOf (farm : Farm) (b : Nat × List Transaction) : Nat × Bytes := (b.1, (b.2.map (keyAddress farm)).flatten)

/-- The number of transactions. -/
def countAll (bs : List Listed) : Nat := (bs.map fun b => b.2.length).sum

theorem packagesFrom_length (farm : Farm) (n : Nat) (bs : List Listed) : (packagesFrom farm n bs).length = countAll bs := by
  induction bs generalizing n with
  | nil => rfl
  | cons b bs ih =>
    unfold packagesFrom countAll
    rw [List.length_append, List.length_map, ih, List.map_cons, List.sum_cons]
    rfl

theorem fillBatch_ok (farm : Farm) (config : ChainConfig) (n : Nat) (txs : List Transaction) (ps : List Package)
    (h : fillBatch farm config n txs = .ok ps) : ps = txs.map (packageOf farm n) := by
  induction txs generalizing ps with
  | nil => exact (Outcome.ok.inj h).symm
  | cons t ts ih =>
    unfold fillBatch at h
    dsimp only at h
    split at h
    · cases h
    · split at h
      · cases h
      · split at h
        · cases h
        · obtain ⟨rest, h1, h2⟩ := Outcome.bind_eq_ok.mp h
          rw [← Outcome.ok.inj h2, ih rest h1]
          rfl

/-! ## The worker -/

theorem keyAddress_length {farm : Farm} (hk : ∀ b, (farm.keccak b).length = 32) {t : Transaction} (h : Recoverable farm t) :
    (keyAddress farm t).length = 20 := by
  obtain ⟨key, h⟩ := h
  unfold keyAddress
  rw [h]
  dsimp only
  rw [List.length_drop, hk]

theorem workLoop_step (farm : Farm) (n : Nat) (t : Transaction) (h : Recoverable farm t) (ps : List Package) (cur : Nat) (acc : Bytes)
    (room : Nat) (hr : 0 < room) :
    workLoop farm (packageOf farm n t :: ps) cur acc room =
      if cur ≠ n then (workLoop farm ps n (keyAddress farm t) (room - 1)).bind fun r => .ok (r.map ((cur, acc) :: ·))
      else workLoop farm ps cur (acc ++ keyAddress farm t) (room - 1) := by
  obtain ⟨key, h⟩ := h
  rw [workLoop]
  have ha : keyAddress farm t = (farm.keccak key).drop 12 := by
    unfold keyAddress
    rw [h]
  rw [ha]
  unfold packageOf
  dsimp only
  rw [h]
  dsimp only
  rw [if_neg (by simp), if_neg (by omega)]
  rfl

theorem workLoop_same (farm : Farm) (n : Nat) (txs : List Transaction) (h : ∀ t ∈ txs, Recoverable farm t) (ps : List Package)
    (acc : Bytes) (room : Nat) (hr : txs.length ≤ room) :
    workLoop farm (txs.map (packageOf farm n) ++ ps) n acc room =
      workLoop farm ps n (acc ++ (txs.map (keyAddress farm)).flatten) (room - txs.length) := by
  induction txs generalizing acc room with
  | nil => simp
  | cons t ts ih =>
    rw [List.length_cons] at hr
    rw [List.map_cons, List.cons_append, workLoop_step farm n t (h t List.mem_cons_self) _ _ _ _ (by omega), if_neg (by simp),
      ih (fun t ht => h t (List.mem_cons_of_mem _ ht)) _ _ (by omega), List.map_cons, List.flatten_cons, List.append_assoc,
      List.length_cons]
    congr 1
    omega

theorem workLoop_from (farm : Farm) (hk : ∀ b, (farm.keccak b).length = 32) (bs : List Listed)
    (h : ∀ b ∈ bs, ∀ t ∈ b.2, Recoverable farm t) (n cur : Nat) (acc : Bytes) (room : Nat) (hc : cur < n) (ha : acc ≠ [])
    (hr : countAll bs ≤ room) :
    workLoop farm (packagesFrom farm n bs) cur acc room =
      .ok (some ((cur, acc) :: (nonemptyFrom n bs).map (resultOf farm))) := by
  induction bs generalizing n cur acc room with
  | nil =>
    unfold packagesFrom workLoop nonemptyFrom
    rw [if_neg ha]
    rfl
  | cons b bs ih =>
    have hb := h b List.mem_cons_self
    have hbs : ∀ b ∈ bs, ∀ t ∈ b.2, Recoverable farm t := fun c hc => h c (List.mem_cons_of_mem _ hc)
    have hcount : countAll (b :: bs) = b.2.length + countAll bs := by
      unfold countAll; rw [List.map_cons, List.sum_cons]
    unfold packagesFrom nonemptyFrom
    cases hbt : b.2 with
    | nil =>
      rw [if_pos rfl, List.map_nil, List.nil_append]
      exact ih hbs (n + 1) cur acc room (by omega) ha (by omega)
    | cons t ts =>
      rw [hbt] at hb hcount
      rw [List.length_cons] at hcount
      rw [if_neg (by simp), List.map_cons, List.cons_append, workLoop_step farm n t (hb t List.mem_cons_self) _ _ _ _ (by omega),
        if_pos (by omega), workLoop_same farm n ts (fun t ht => hb t (List.mem_cons_of_mem _ ht)) _ _ _ (by omega)]
      have hne : keyAddress farm t ++ (ts.map (keyAddress farm)).flatten ≠ [] := by
        intro hh
        have := keyAddress_length hk (hb t List.mem_cons_self)
        rw [(List.append_eq_nil_iff.mp hh).1] at this
        cases this
      rw [ih hbs (n + 1) n _ _ (by omega) hne (by omega)]
      rfl

theorem workBatch_from (farm : Farm) (hk : ∀ b, (farm.keccak b).length = 32) (bs : List Listed)
    (h : ∀ b ∈ bs, ∀ t ∈ b.2, Recoverable farm t) (n : Nat) (hne : packagesFrom farm n bs ≠ []) (hr : countAll bs ≤ farm.maxBatch) :
    workBatch farm (packagesFrom farm n bs) = .ok (some ((nonemptyFrom n bs).map (resultOf farm))) := by
  induction bs generalizing n with
  | nil => exact absurd rfl hne
  | cons b bs ih =>
    have hb := h b List.mem_cons_self
    have hbs : ∀ b ∈ bs, ∀ t ∈ b.2, Recoverable farm t := fun c hc => h c (List.mem_cons_of_mem _ hc)
    have hcount : countAll (b :: bs) = b.2.length + countAll bs := by
      unfold countAll; rw [List.map_cons, List.sum_cons]
    unfold packagesFrom at hne ⊢
    unfold nonemptyFrom
    cases hbt : b.2 with
    | nil =>
      rw [hbt, List.map_nil, List.nil_append] at hne
      rw [if_pos rfl, List.map_nil, List.nil_append]
      exact ih hbs (n + 1) hne (by omega)
    | cons t ts =>
      rw [hbt] at hb hcount
      rw [List.length_cons] at hcount
      rw [if_neg (by simp), List.map_cons, List.cons_append]
      unfold workBatch
      dsimp only
      rw [show (packageOf farm n t).number = n from rfl, workLoop_step farm n t (hb t List.mem_cons_self) _ _ _ _ (by omega),
        if_neg (by simp), workLoop_same farm n ts (fun t ht => hb t (List.mem_cons_of_mem _ ht)) _ _ _ (by omega)]
      have hne : [] ++ keyAddress farm t ++ (ts.map (keyAddress farm)).flatten ≠ [] := by
        intro hh
        have := keyAddress_length hk (hb t List.mem_cons_self)
        rw [List.nil_append] at hh
        rw [(List.append_eq_nil_iff.mp hh).1] at this
        cases this
      rw [workLoop_from farm hk bs hbs (n + 1) n _ _ (by omega) hne (by omega)]
      rfl

/-! ## The results -/

theorem resultEntries_spec (rs : List (Nat × Bytes)) (hs : List Bytes) (hl : rs.length ≤ hs.length) :
    resultEntries rs hs = .ok (List.zipWith (fun r h => ⟨blockHashKey r.1 h, r.2⟩) rs hs, hs.drop rs.length) := by
  induction rs generalizing hs with
  | nil => cases hs <;> rfl
  | cons r rs ih =>
    cases hs with
    | nil => simp at hl
    | cons h hs =>
      unfold resultEntries
      rw [ih hs (by simpa using hl)]
      rfl

theorem nonemptyFrom_length (n : Nat) (bs : List Listed) : (nonemptyFrom n bs).length ≤ bs.length := by
  induction bs generalizing n with
  | nil => exact Nat.le_refl _
  | cons b bs ih =>
    unfold nonemptyFrom
    have := ih (n + 1)
    split
    · rw [List.length_cons]; omega
    · rw [List.length_cons, List.length_cons]; omega

theorem nonemptyFrom_mem (n : Nat) (bs : List Listed) (x : Nat × List Transaction) (hx : x ∈ nonemptyFrom n bs) :
    n ≤ x.1 ∧ x.1 < n + bs.length ∧ x.2 ≠ [] ∧ ∃ b ∈ bs, b.2 = x.2 := by
  induction bs generalizing n with
  | nil => cases hx
  | cons b bs ih =>
    unfold nonemptyFrom at hx
    rw [List.length_cons]
    split at hx
    · obtain ⟨h1, h2, h3, c, h4, h5⟩ := ih (n + 1) hx
      exact ⟨by omega, by omega, h3, c, List.mem_cons_of_mem _ h4, h5⟩
    · rename_i hb
      rcases List.mem_cons.mp hx with rfl | hx
      · exact ⟨Nat.le_refl _, by dsimp only; omega, hb, b, List.mem_cons_self, rfl⟩
      · obtain ⟨h1, h2, h3, c, h4, h5⟩ := ih (n + 1) hx
        exact ⟨by omega, by omega, h3, c, List.mem_cons_of_mem _ h4, h5⟩

theorem nonemptyFrom_sorted (n : Nat) (bs : List Listed) : (nonemptyFrom n bs).Pairwise fun x y => x.1 < y.1 := by
  induction bs generalizing n with
  | nil => exact List.Pairwise.nil
  | cons b bs ih =>
    unfold nonemptyFrom
    split
    · exact ih (n + 1)
    · refine List.pairwise_cons.mpr ⟨fun y hy => ?_, ih (n + 1)⟩
      have := (nonemptyFrom_mem (n + 1) bs y hy).1
      dsimp only
      omega

/-- With transactions in every block there are no gaps. -/
theorem nonemptyFrom_all (n : Nat) (bs : List Listed) (h : ∀ b ∈ bs, b.2 ≠ []) (i : Nat) (b : Listed) (hi : bs[i]? = some b) :
    (nonemptyFrom n bs)[i]? = some (n + i, b.2) := by
  induction bs generalizing n i with
  | nil => cases hi
  | cons c bs ih =>
    unfold nonemptyFrom
    rw [if_neg (h c List.mem_cons_self)]
    cases i with
    | zero =>
      have := Option.some.inj hi
      subst this
      rfl
    | succ i =>
      rw [List.getElem?_cons_succ] at hi ⊢
      rw [ih (n + 1) (fun b hb => h b (List.mem_cons_of_mem _ hb)) i hi, Nat.add_right_comm, Nat.add_assoc]

/-! ## The canonical hashes -/

theorem canonicalLoop_spec (t : Table) (n r : Nat) (hs : List Bytes) (reached : Nat)
    (h : canonicalLoop t n r = .ok (some (hs, reached))) (i : Nat) (x : Bytes) (hi : hs[i]? = some x) :
    ∃ e ∈ t, e.2 = x ∧ recordBlock e = n + i := by
  induction t generalizing n r hs i reached with
  | nil =>
    have := (Prod.mk.inj (Option.some.inj (Outcome.ok.inj h))).1
    rw [← this] at hi
    cases hi
  | cons e t ih =>
    unfold canonicalLoop at h
    obtain ⟨m, h1, h⟩ := Outcome.bind_eq_ok.mp h
    have hm : recordBlock e = m := by
      unfold loadBig64 at h1
      split at h1
      · exact Outcome.ok.inj h1
      · cases h1
    split at h
    · cases h
    · rename_i hn
      split at h
      · cases h
      · obtain ⟨q, h2, h⟩ := Outcome.bind_eq_ok.mp h
        cases q with
        | none => cases h
        | some q =>
          obtain ⟨qs, qr⟩ := q
          have h := (Prod.mk.inj (Option.some.inj (Outcome.ok.inj h))).1
          rw [← h] at hi
          cases i with
          | zero =>
            refine ⟨e, List.mem_cons_self, Option.some.inj hi, ?_⟩
            rw [hm]
            omega
          | succ i =>
            rw [List.getElem?_cons_succ] at hi
            obtain ⟨f, h3, h4, h5⟩ := ih (n + 1) m qs qr h2 i hi
            exact ⟨f, List.mem_cons_of_mem _ h3, h4, by omega⟩

theorem fillCanonical_spec (db : Database) (first last : Nat) (hs : List Bytes) (h : fillCanonicalHeaders db first last = .ok (some hs))
    (i : Nat) (x : Bytes) (hi : hs[i]? = some x) : ∃ e ∈ db.canonicalHashes, e.2 = x ∧ recordBlock e = first + i := by
  unfold fillCanonicalHeaders at h
  have hsub : ∀ e ∈ fromKey db.canonicalHashes (blockKey first), e ∈ db.canonicalHashes :=
    fun e he => (List.dropWhile_sublist _).mem he
  generalize fromKey db.canonicalHashes (blockKey first) = t at h hsub
  cases t with
  | nil => cases h
  | cons e t =>
    dsimp only at h
    obtain ⟨r, h1, h⟩ := Outcome.bind_eq_ok.mp h
    cases r with
    | none => cases h
    | some r =>
      obtain ⟨rs, reached⟩ := r
      dsimp only at h
      split at h
      · cases h
      · have := Option.some.inj (Outcome.ok.inj h)
        subst this
        obtain ⟨f, h2, h3⟩ := canonicalLoop_spec (e :: t) first 0 rs reached h1 i x hi
        exact ⟨f, hsub f h2, h3⟩

/-! ## The bodies -/

theorem recordBlock_key {n : Nat} (hn : n < 2 ^ 64) (h v : Bytes) : recordBlock (blockHashKey n h, v) = n := by
  unfold recordBlock blockHashKey
  have h256 : (256 : Nat) ^ 8 = 2 ^ 64 := by decide
  dsimp only
  rw [List.take_left' (beFixed_length ..), beToNat_beFixed (by omega)]

theorem key_of_parts {k h : Bytes} {n : Nat} (hk : k.length = 40) (hn : beToNat (k.take 8) = n) (hh : (k.drop 8).take 32 = h) :
    k = blockHashKey n h := by
  unfold blockHashKey
  rw [← hn, ← hh, List.take_of_length_le (l := k.drop 8) (by rw [List.length_drop, hk])]
  have := beFixed_beToNat (k.take 8)
  rw [List.length_take, hk] at this
  rw [show min 8 40 = 8 from rfl] at this
  rw [this, List.take_append_drop]

theorem hang_ok {α : Type} {w : Nat} {r : Outcome StageError α} {a : α} (h : hang w r = .ok a) : r = .ok a := by
  cases r with
  | ok b => exact h
  | err e =>
    by_cases hw : w = 0
    · rw [hang, leave, if_pos hw] at h; cases h
    · rw [hang, leave, if_neg hw] at h; cases h
  | ub => cases h

/-- Reading the bodies into a single batch. -/
theorem bodiesLoop_single (farm : Farm) (config : ChainConfig) (ethTx : Table) (t : Table) (ho : Spec.Ordered t)
    (h40 : ∀ e ∈ t, e.1.length = 40) (bs : List Listed) (hne : bs ≠ []) (n : Nat) (hn : n + bs.length ≤ 2 ^ 64)
    (hb : ∀ i b, bs[i]? = some b → b.1.length = 32 ∧ ∃ v body rest, (blockHashKey (n + i) b.1, v) ∈ t ∧
      decodeStoredBlockBody v = .ok (body, rest) ∧ readTransactions ethTx body.baseTxnId body.txnCount = .ok b.2)
    (batch : List Package) (hc : batch.length + countAll bs ≤ farm.maxBatch) (s : Option (List (List Package) × List Package))
    (h : bodiesLoop farm config ethTx t (bs.map (·.1)) n [] batch = .ok s) :
    s = some ([], batch ++ packagesFrom farm n bs) := by
  induction t generalizing bs n batch s with
  | nil =>
    obtain ⟨b, bs', rfl⟩ := List.exists_cons_of_ne_nil hne
    obtain ⟨_, _, _, _, hm, _⟩ := hb 0 b rfl
    cases hm
  | cons e t ih =>
    obtain ⟨o1, o2⟩ := List.pairwise_cons.mp ho
    have hlen := h40 e List.mem_cons_self
    have h40' : ∀ e ∈ t, e.1.length = 40 := fun f hf => h40 f (List.mem_cons_of_mem _ hf)
    obtain ⟨b, bs', rfl⟩ := List.exists_cons_of_ne_nil hne
    rw [List.length_cons] at hn
    obtain ⟨hb32, v, body, rest, hm, hd, ht⟩ := hb 0 b rfl
    rw [Nat.add_zero] at hm
    unfold bodiesLoop at h
    obtain ⟨m, h1, h⟩ := Outcome.bind_eq_ok.mp h
    have hmm : beToNat (e.1.take 8) = m := by
      unfold loadBig64 at h1
      rw [if_pos (by omega)] at h1
      exact Outcome.ok.inj h1
    -- an entry of another block is passed over
    have hskip : (∀ v, e ≠ (blockHashKey n b.1, v)) → m ≤ n → ∀ s,
        bodiesLoop farm config ethTx t ((b :: bs').map (·.1)) n [] batch = .ok s →
        s = some ([], batch ++ packagesFrom farm n (b :: bs')) := by
      intro hne' hle s hs
      refine ih o2 h40' (b :: bs') (by simp) n (by rw [List.length_cons]; omega) (fun i c hi => ?_) batch hc s hs
      obtain ⟨c32, v', body', rest', hm', hd', ht'⟩ := hb i c hi
      refine ⟨c32, v', body', rest', ?_, hd', ht'⟩
      rcases List.mem_cons.mp hm' with hm' | hm'
      · exfalso
        cases i with
        | zero =>
          have := Option.some.inj hi
          subst this
          exact hne' v' hm'.symm
        | succ i =>
          have hlt := (List.getElem?_eq_some_iff.mp hi).1
          rw [List.length_cons] at hlt
          have := recordBlock_key (n := n + (i + 1)) (by omega) c.1 v'
          rw [hm'] at this
          unfold recordBlock at this
          omega
      · exact hm'
    by_cases hlt : m < n
    · rw [if_pos hlt] at h
      refine hskip (fun v' he => ?_) (by omega) s h
      have := recordBlock_key (n := n) (by omega) b.1 v'
      rw [← he] at this
      unfold recordBlock at this
      omega
    · rw [if_neg hlt] at h
      by_cases hgt : n < m
      · exfalso
        rcases List.mem_cons.mp hm with hm | hm
        · have := recordBlock_key (n := n) (by omega) b.1 v
          rw [hm] at this
          unfold recordBlock at this
          omega
        · have hlt' := o1 _ hm
          have hk := key_of_parts hlen hmm rfl
          rw [hk] at hlt'
          unfold blockHashKey at hlt'
          have := (Db.lexLt_append (by rw [beFixed_length, beFixed_length]) _ _).mp ((Etl.lexLt_iff _ _).mpr hlt')
          have hml : m < 2 ^ 64 := by
            have := beToNat_lt (e.1.take 8)
            rw [List.length_take, hlen, show min 8 40 = 8 from rfl, hmm] at this
            have h256 : (256 : Nat) ^ 8 = 2 ^ 64 := by decide
            omega
          have h256 : (256 : Nat) ^ 8 = 2 ^ 64 := by decide
          rcases this with h2 | ⟨h2, _⟩
          · rw [lexLt_iff_toNat (by rw [beFixed_length, beFixed_length]), beToNat_beFixed (by omega), beToNat_beFixed (by omega)] at h2
            omega
          · have := congrArg beToNat h2
            rw [beToNat_beFixed (by omega), beToNat_beFixed (by omega)] at this
            omega
      · rw [if_neg hgt, if_neg (by omega)] at h
        have hmn : m = n := by omega
        subst hmn
        rw [List.map_cons] at h
        dsimp only at h
        by_cases hh : (e.1.drop 8).take 32 = b.1
        · rw [if_neg (by simp [hh])] at h
          have hk := key_of_parts hlen hmm hh
          have hev : e.2 = v := by
            rcases List.mem_cons.mp hm with hm | hm
            · rw [← hm]
            · have := o1 _ hm
              rw [hk] at this
              exact absurd this (List.lt_irrefl _)
          rw [hev, hd] at h
          simp only [liftDec, liftDb, hang, Outcome.ok_bind] at h
          rw [ht] at h
          simp only [Outcome.ok_bind] at h
          have hcount : countAll (b :: bs') = b.2.length + countAll bs' := by
            unfold countAll; rw [List.map_cons, List.sum_cons]
          have hnext : (match bs'.map (·.1) with
              | [] => (.ok (some ([], batch ++ b.2.map (packageOf farm m))) : Outcome StageError (Option (List (List Package) × List Package)))
              | h :: hs => bodiesLoop farm config ethTx t (h :: hs) (m + 1) [] (batch ++ b.2.map (packageOf farm m))) = .ok s := by
            split at h
            · rename_i hnil
              rw [hnil, List.map_nil, List.append_nil]
              exact h
            · rw [if_neg (by omega)] at h
              obtain ⟨ps, hps, h⟩ := Outcome.bind_eq_ok.mp h
              have hps' : fillBatch farm config m b.2 = .ok ps := hang_ok (w := 0) hps
              rw [← fillBatch_ok farm config m b.2 ps hps']
              exact h
          clear h
          have h := hnext
          cases bs' with
          | nil =>
            rw [List.map_nil] at h
            dsimp only at h
            rw [← Outcome.ok.inj h]
            unfold packagesFrom packagesFrom
            rw [List.append_nil]
          | cons c bs' =>
            rw [List.map_cons] at h
            dsimp only at h
            have := ih o2 h40' (c :: bs') (by simp) (m + 1) (by rw [List.length_cons] at hn ⊢; omega) (fun i d hi => by
              obtain ⟨d32, v', body', rest', hm', hd', ht'⟩ := hb (i + 1) d (by rw [List.getElem?_cons_succ]; exact hi)
              refine ⟨d32, v', body', rest', ?_, hd', ht'⟩
              rw [Nat.add_right_comm, Nat.add_assoc]
              rcases List.mem_cons.mp hm' with hm' | hm'
              · exfalso
                have hlt := (List.getElem?_eq_some_iff.mp hi).1
                have := recordBlock_key (n := m + (i + 1)) (by omega) d.1 v'
                rw [hm'] at this
                unfold recordBlock at this
                omega
              · exact hm') (batch ++ b.2.map (packageOf farm m))
              (by rw [List.length_append, List.length_map]; omega) s h
            rw [this, List.append_assoc]
            rfl
        · rw [if_pos hh] at h
          refine hskip (fun v' he => hh ?_) (by omega) s h
          rw [he]
          unfold blockHashKey
          dsimp only
          rw [List.drop_left' (beFixed_length ..), List.take_of_length_le (Nat.le_of_eq hb32)]

/-! ## Loading -/

theorem appendAll_larger (L : List Entry) (ho : L.Pairwise fun x y => x.key < y.key) (t : Table) (ht : EndsLargest t)
    (hlt : ∀ e ∈ t, ∀ x ∈ L, e.1 < x.key) :
    L.foldl (fun t e => put true t e.key e.value) t = t ++ L.map fun x => (x.key, x.value) := by
  induction L generalizing t with
  | nil => simp
  | cons x L ih =>
    obtain ⟨o1, o2⟩ := List.pairwise_cons.mp ho
    obtain ⟨p1, p2, _⟩ := putAppend_spec t ht x.key x.value
    have hp : put true t x.key x.value = t ++ [(x.key, x.value)] := by
      unfold put
      rw [if_pos rfl, p2 fun e he => hlt e he x List.mem_cons_self]
    rw [p2 fun e he => hlt e he x List.mem_cons_self] at p1
    rw [List.foldl_cons, hp, ih o2 _ p1, List.map_cons, List.append_assoc]
    · rfl
    · intro e he y hy
      rcases List.mem_append.mp he with he | he
      · exact hlt e he y (List.mem_cons_of_mem _ hy)
      · rw [List.mem_singleton.mp he]; exact o1 y hy

/-- Entries that are in order are loaded in this order. -/
theorem load_larger (d : Disk) (es : List Entry) (ho : es.Pairwise fun x y => x.key < y.key) (t : Table) (ht : Spec.Ordered t)
    (hlt : ∀ e ∈ t, ∀ x ∈ es, e.1 < x.key) (hfit : ∀ e ∈ es, Etl.Fits e) (hne : ∀ e ∈ es, e.size ≠ 0) (t' : Table)
    (h : etlLoad d kFlushSize es (putEntry true) t = .ok t') : t' = t ++ es.map fun x => (x.key, x.value) := by
  rcases etlLoad_cases d kFlushSize es (putEntry true) t hfit hne with hbad | ⟨L, hperm, hord, hload⟩
  · rw [hbad] at h; cases h
  · rw [hload, foldlM_putEntry] at h
    have hL : L = es := by
      refine hperm.eq_of_pairwise (le := fun x y => x.key < y.key) (fun a b _ _ h1 h2 => absurd (List.lt_trans h1 h2) (List.lt_irrefl _)) ?_ ho
      have hnd : es.Pairwise fun x y => x.key ≠ y.key := ho.imp fun h he => absurd (he ▸ h) (List.lt_irrefl _)
      have hnd' : L.Pairwise fun x y => x.key ≠ y.key := (hperm.pairwise_iff fun h => Ne.symm h).mpr hnd
      refine (hord.and hnd').imp fun {x y} hh => ?_
      rcases hh.1 with h1 | h1
      · exact h1
      · exact absurd h1.1 hh.2
    rw [hL, appendAll_larger es ho t (endsLargest_of_ordered ht) hlt] at h
    exact (Outcome.ok.inj h).symm

/-! ## Everything together -/

theorem mem_fromKey {t : Table} (ho : Spec.Ordered t) {k v : Bytes} (hk : (k, v) ∈ t) {e : Bytes × Bytes} (he : e ∈ t) (hle : k ≤ e.1) :
    e ∈ fromKey t k := by
  unfold fromKey
  induction t with
  | nil => cases he
  | cons f t ih =>
    obtain ⟨o1, o2⟩ := List.pairwise_cons.mp ho
    by_cases hf : f.1 = k
    · rw [List.dropWhile_cons_of_neg (by simp [hf])]
      exact he
    · rw [List.dropWhile_cons_of_pos (by simp [hf])]
      have hk' : (k, v) ∈ t := by
        rcases List.mem_cons.mp hk with h | h
        · exact absurd (by rw [← h]) hf
        · exact h
      rcases List.mem_cons.mp he with rfl | he
      · exact absurd (o1 _ hk') (List.not_lt.mpr hle)
      · exact ih o2 hk' he

/-- What recovery relies on, for the blocks from `n` on. -/
structure Readable (db : Database) (n : Nat) (bs : List Listed) : Prop where
  hashes : Spec.Ordered db.canonicalHashes
  bodies : Spec.Ordered db.blockBodies
  senders : Spec.Ordered db.senders
  hashKeys : ∀ e ∈ db.canonicalHashes, e.1.length = 8
  bodyKeys : ∀ e ∈ db.blockBodies, e.1.length = 40
  senderKeys : ∀ e ∈ db.senders, e.1.length = 40 ∧ recordBlock e < n
  range : n + bs.length ≤ 2 ^ 64
  canonical : ∀ i b, bs[i]? = some b → b.1.length = 32 ∧ (beFixed 8 (n + i), b.1) ∈ db.canonicalHashes
  body : ∀ i b, bs[i]? = some b → ∃ v body rest, (blockHashKey (n + i) b.1, v) ∈ db.blockBodies ∧
    decodeStoredBlockBody v = .ok (body, rest) ∧ readTransactions db.ethTx body.baseTxnId body.txnCount = .ok b.2

theorem hashes_unique {db : Database} {n : Nat} {bs : List Listed} (hr : Readable db n bs) {last : Nat} {hs : List Bytes}
    (h : fillCanonicalHeaders db n last = .ok (some hs)) (hl : hs.length = bs.length) : hs = bs.map (·.1) := by
  have h256 : (256 : Nat) ^ 8 = 2 ^ 64 := by decide
  refine List.ext_getElem? fun i => ?_
  rw [List.getElem?_map]
  by_cases hi : i < hs.length
  · have h1 : hs[i]? = some hs[i] := List.getElem?_eq_getElem hi
    have h2 : bs[i]? = some bs[i] := List.getElem?_eq_getElem (by omega)
    have hrange := hr.range
    obtain ⟨e, he, he2, he3⟩ := fillCanonical_spec db n last hs h i _ h1
    have he8 := hr.hashKeys e he
    have hkey : e.1 = beFixed 8 (n + i) := by
      unfold recordBlock at he3
      rw [List.take_of_length_le (Nat.le_of_eq he8)] at he3
      rw [← he3]
      have := beFixed_beToNat e.1
      rw [he8] at this
      exact this.symm
    have hm := (hr.canonical i _ h2).2
    have f1 := find_of_mem hr.hashes hm
    have f2 := find_of_mem hr.hashes (k := e.1) (v := e.2) he
    rw [hkey, f1] at f2
    rw [h1, h2, ← he2, (Prod.mk.inj (Option.some.inj f2)).2.symm]
    rfl
  · rw [List.getElem?_eq_none (by omega), List.getElem?_eq_none (by omega)]
    rfl

theorem blockHashKey_le {n m : Nat} (hm : m < 2 ^ 64) (hnm : n < m) (a b : Bytes) : blockHashKey n a < blockHashKey m b := by
  have h256 : (256 : Nat) ^ 8 = 2 ^ 64 := by decide
  unfold blockHashKey
  rw [← Etl.lexLt_iff, Db.lexLt_append (by rw [beFixed_length, beFixed_length])]
  left
  rw [lexLt_iff_toNat (by rw [beFixed_length, beFixed_length]), beToNat_beFixed (by omega), beToNat_beFixed (by omega)]
  exact hnm

/-- The entries collected: the senders of a block, under its number and the next hash. -/
def collected (farm : Farm) (n : Nat) (bs : List Listed) : List Entry :=
  List.zipWith (fun r h => ⟨blockHashKey r.1 h, r.2⟩) ((nonemptyFrom n bs).map (resultOf farm)) (bs.map (·.1))

theorem collected_getElem? (farm : Farm) (n : Nat) (bs : List Listed) (i : Nat) (x : Nat × List Transaction) (b : Listed)
    (hx : (nonemptyFrom n bs)[i]? = some x) (hb : bs[i]? = some b) :
    (collected farm n bs)[i]? = some ⟨blockHashKey x.1 b.1, (resultOf farm x).2⟩ := by
  unfold collected
  rw [List.getElem?_zipWith, List.getElem?_map, List.getElem?_map, hx, hb]
  rfl

theorem collected_mem {farm : Farm} {n : Nat} {bs : List Listed} {e : Entry} (he : e ∈ collected farm n bs) :
    ∃ (i : Nat) (x : Nat × List Transaction) (b : Listed), (nonemptyFrom n bs)[i]? = some x ∧ bs[i]? = some b ∧
      e = ⟨blockHashKey x.1 b.1, (resultOf farm x).2⟩ := by
  obtain ⟨i, hi⟩ := List.mem_iff_getElem?.mp he
  unfold collected at hi
  rw [List.getElem?_zipWith, List.getElem?_map, List.getElem?_map] at hi
  cases hx : (nonemptyFrom n bs)[i]? with
  | none => rw [hx] at hi; cases hi
  | some x =>
    cases hb : bs[i]? with
    | none => rw [hx, hb] at hi; cases hi
    | some b =>
      rw [hx, hb] at hi
      exact ⟨i, x, b, hx, hb, (Option.some.inj hi).symm⟩

theorem collected_sorted (farm : Farm) (n : Nat) (bs : List Listed) (hr : n + bs.length ≤ 2 ^ 64) :
    (collected farm n bs).Pairwise fun x y => x.key < y.key := by
  rw [List.pairwise_iff_getElem]
  intro i j hi hj hij
  have get : ∀ k (hk : k < (collected farm n bs).length), ∃ x b, (nonemptyFrom n bs)[k]? = some x ∧ bs[k]? = some b ∧
      (collected farm n bs)[k] = ⟨blockHashKey x.1 b.1, (resultOf farm x).2⟩ := by
    intro k hk
    have hl : (collected farm n bs).length = min (nonemptyFrom n bs).length bs.length := by
      unfold collected
      rw [List.length_zipWith, List.length_map, List.length_map]
    have h1 : (nonemptyFrom n bs)[k]? = some _ := List.getElem?_eq_getElem (by omega)
    have h2 : bs[k]? = some _ := List.getElem?_eq_getElem (by omega)
    refine ⟨_, _, h1, h2, ?_⟩
    have := collected_getElem? farm n bs k _ _ h1 h2
    rw [List.getElem?_eq_getElem hk] at this
    exact Option.some.inj this
  obtain ⟨x, b, hx, _, hi'⟩ := get i hi
  obtain ⟨y, c, hy, _, hj'⟩ := get j hj
  rw [hi', hj']
  have hxy : x.1 < y.1 := by
    have h := List.pairwise_iff_getElem.mp (nonemptyFrom_sorted n bs) i j (List.getElem?_eq_some_iff.mp hx).1
      (List.getElem?_eq_some_iff.mp hy).1 hij
    rw [(List.getElem?_eq_some_iff.mp hx).2, (List.getElem?_eq_some_iff.mp hy).2] at h
    exact h
  have := (nonemptyFrom_mem n bs y (List.mem_of_getElem? hy)).2.1
  exact blockHashKey_le (by omega) hxy _ _

theorem addresses_length {farm : Farm} (hk : ∀ b, (farm.keccak b).length = 32) (txs : List Transaction)
    (h : ∀ t ∈ txs, Recoverable farm t) : (txs.map (keyAddress farm)).flatten.length = 20 * txs.length := by
  induction txs with
  | nil => rfl
  | cons t ts ih =>
    rw [List.map_cons, List.flatten_cons, List.length_append, keyAddress_length hk (h t List.mem_cons_self),
      ih fun t ht => h t (List.mem_cons_of_mem _ ht), List.length_cons]
    omega

theorem count_le {bs : List Listed} {b : Listed} (h : b ∈ bs) : b.2.length ≤ countAll bs := by
  unfold countAll
  induction bs with
  | nil => cases h
  | cons c bs ih =>
    rw [List.map_cons, List.sum_cons]
    rcases List.mem_cons.mp h with rfl | h
    · omega
    · have := ih h
      omega

theorem nonempty_some {n : Nat} {bs : List Listed} (h : ∃ b ∈ bs, b.2 ≠ []) : nonemptyFrom n bs ≠ [] := by
  induction bs generalizing n with
  | nil => obtain ⟨_, h, _⟩ := h; cases h
  | cons c bs ih =>
    unfold nonemptyFrom
    split
    · rename_i hc
      obtain ⟨b, hb, hne⟩ := h
      rcases List.mem_cons.mp hb with rfl | hb
      · exact absurd hc hne
      · exact ih ⟨b, hb, hne⟩
    · simp

theorem packages_some {farm : Farm} {n : Nat} {bs : List Listed} (h : ∃ b ∈ bs, b.2 ≠ []) : packagesFrom farm n bs ≠ [] := by
  obtain ⟨b, hb, hne⟩ := h
  intro hh
  have h1 := packagesFrom_length farm n bs
  have h2 := count_le hb
  rw [hh] at h1
  have h3 := List.length_pos_iff.mpr hne
  rw [List.length_nil] at h1
  omega

/-- What recovery does around the loop over the bodies. -/
theorem recoverAll_bodies (d : Disk) (farm : Farm) (readConfig : Database → Option ChainConfig) (db : Database) (first last done : Nat)
    (bs : List Listed) (hne : bs ≠ []) (hp : getStageProgress db (ascii "Senders") = .ok done)
    (hb : getStageProgress db (ascii "Bodies") = .ok (done + bs.length)) (hr : Readable db (done + 1) bs)
    (hlast : done + bs.length ≤ last) (db' : Database)
    (h : recoverAll d farm readConfig db first last = .ok (.success, db')) :
    ∃ config t s, Spec.Ordered t ∧ (∀ e ∈ t, e.1.length = 40) ∧
      (∀ i c, bs[i]? = some c → c.1.length = 32 ∧ ∃ v body rest, (blockHashKey (done + 1 + i) c.1, v) ∈ t ∧
        decodeStoredBlockBody v = .ok (body, rest) ∧ readTransactions db.ethTx body.baseTxnId body.txnCount = .ok c.2) ∧
      bodiesLoop farm config db.ethTx t (bs.map (·.1)) (done + 1) [] [] = .ok (some s) ∧
      ∃ q, dispatchBatch farm s.1 s.2 = .ok q ∧ ∃ rs, workAll farm q.1 0 = .ok rs ∧
      ∃ es, bufferizeResults (rs.take farm.seen) (bs.map (·.1)) = .ok es ∧ loadSenders d db q.1.length es = .ok (.success, db') := by
  have hrange := hr.range
  unfold recoverAll at h
  cases hcfg : readConfig db with
  | none => rw [hcfg] at h; cases h
  | some config =>
    rw [hcfg] at h
    dsimp only at h
    rw [hp] at h
    simp only [liftDb, Outcome.ok_bind] at h
    have hlen : 0 < bs.length := List.length_pos_iff.mpr hne
    rw [Nat.mod_eq_of_lt (show done + 1 < 2 ^ 64 by omega)] at h
    have hfrom : (if (if done + 1 < first then done + 1 else first) ≤ done then done + 1 else if done + 1 < first then done + 1 else first)
        = done + 1 := by
      split_ifs <;> omega
    rw [hfrom, hb] at h
    simp only [Outcome.ok_bind] at h
    rw [if_neg (by omega)] at h
    have hto : (if done + bs.length < last then done + bs.length else last) = done + bs.length := by
      split <;> omega
    rw [hto, if_neg (by omega)] at h
    obtain ⟨hs, h1, h⟩ := Outcome.bind_eq_ok.mp h
    cases hs with
    | none => cases h
    | some hs =>
      dsimp only at h
      split at h
      · cases h
      · rename_i hlen'
        have hs' := hashes_unique hr h1 (by omega)
        subst hs'
        obtain ⟨b, bs', rfl⟩ := List.exists_cons_of_ne_nil hne
        have hhead : ((b :: bs').map (·.1)).headD [] = b.1 := rfl
        rw [hhead] at h
        obtain ⟨v0, body0, rest0, hm0, _⟩ := hr.body 0 b rfl
        rw [Nat.add_zero] at hm0
        have hmem := @mem_fromKey _ hr.bodies _ _ hm0
        have hsub : (fromKey db.blockBodies (blockHashKey (done + 1) b.1)).Sublist db.blockBodies := List.dropWhile_sublist _
        have hin : ∀ i c, (b :: bs')[i]? = some c → c.1.length = 32 ∧ ∃ v body rest,
            (blockHashKey (done + 1 + i) c.1, v) ∈ fromKey db.blockBodies (blockHashKey (done + 1) b.1) ∧
            decodeStoredBlockBody v = .ok (body, rest) ∧ readTransactions db.ethTx body.baseTxnId body.txnCount = .ok c.2 := by
          intro i c hi
          obtain ⟨v, body, rest, hm, hd, ht⟩ := hr.body i c hi
          refine ⟨(hr.canonical i c hi).1, v, body, rest, hmem hm ?_, hd, ht⟩
          cases i with
          | zero =>
            have := Option.some.inj hi
            subst this
            exact List.le_refl _
          | succ i =>
            have := (List.getElem?_eq_some_iff.mp hi).1
            exact List.le_of_lt (blockHashKey_le (by omega) (by omega) _ _)
        have ho : Spec.Ordered (fromKey db.blockBodies (blockHashKey (done + 1) b.1)) := hr.bodies.sublist hsub
        have h40 : ∀ e ∈ fromKey db.blockBodies (blockHashKey (done + 1) b.1), e.1.length = 40 := fun e he => hr.bodyKeys e (hsub.mem he)
        clear hmem
        generalize fromKey db.blockBodies (blockHashKey (done + 1) b.1) = t at h hin ho h40 hsub
        cases t with
        | nil => cases h
        | cons e t =>
          dsimp only at h
          obtain ⟨s, h2, h⟩ := Outcome.bind_eq_ok.mp h
          cases s with
          | none => cases h
          | some s =>
            dsimp only at h
            obtain ⟨q, h3, h⟩ := Outcome.bind_eq_ok.mp h
            obtain ⟨rs, h4, h⟩ := Outcome.bind_eq_ok.mp h
            obtain ⟨es, h5, h⟩ := Outcome.bind_eq_ok.mp h
            exact ⟨config, e :: t, s, ho, h40, hin, h2, q, h3, rs, h4, es, h5, h⟩

/-- What recovery does up to the point where the results of the only batch are stored. -/
theorem recoverAll_single (d : Disk) (farm : Farm) (readConfig : Database → Option ChainConfig) (db : Database) (first last done : Nat)
    (bs : List Listed) (hne : bs ≠ []) (hp : getStageProgress db (ascii "Senders") = .ok done)
    (hb : getStageProgress db (ascii "Bodies") = .ok (done + bs.length)) (hr : Readable db (done + 1) bs)
    (hlast : done + bs.length ≤ last) (hc : countAll bs ≤ farm.maxBatch) (db' : Database)
    (h : recoverAll d farm readConfig db first last = .ok (.success, db')) :
    ∃ s, dispatchBatch farm [] (packagesFrom farm (done + 1) bs) = .ok s ∧ ∃ rs, workAll farm s.1 0 = .ok rs ∧
      ∃ es, bufferizeResults (rs.take farm.seen) (bs.map (·.1)) = .ok es ∧ loadSenders d db s.1.length es = .ok (.success, db') := by
  obtain ⟨config, t, s, h1, h2, h3, h4, q, h5, h6⟩ := recoverAll_bodies d farm readConfig db first last done bs hne hp hb hr hlast db' h
  have hs := bodiesLoop_single farm config db.ethTx t h1 h2 bs hne (done + 1) hr.range h3 [] (by rw [List.length_nil]; omega) _ h4
  have hs := Option.some.inj hs
  subst hs
  exact ⟨q, h5, h6⟩

/-- Loading what was collected into the table. -/
theorem etlLoad_collected (d : Disk) (farm : Farm) (db : Database) (done : Nat) (bs : List Listed)
    (hk : ∀ b, (farm.keccak b).length = 32) (hsome : ∃ b ∈ bs, b.2 ≠ []) (hr : Readable db (done + 1) bs)
    (hfit : ∀ b ∈ bs, 20 * b.2.length < 2 ^ 32) (hrec : ∀ b ∈ bs, ∀ t ∈ b.2, Recoverable farm t) (t : Table)
    (h : etlLoad d kFlushSize (collected farm (done + 1) bs) (putEntry true) db.senders = .ok t) :
    collected farm (done + 1) bs ≠ [] ∧ t = db.senders ++ (collected farm (done + 1) bs).map (fun x => (x.key, x.value)) ∧
      ∃ x hash v, (nonemptyFrom (done + 1) bs).getLast? = some x ∧ x.1 < 2 ^ 64 ∧ t.getLast? = some (blockHashKey x.1 hash, v) := by
  have hrange := hr.range
  have hl := nonemptyFrom_length (done + 1) bs
  have hnn := nonempty_some (n := done + 1) hsome
  have hlen : (collected farm (done + 1) bs).length = (nonemptyFrom (done + 1) bs).length := by
    unfold collected
    rw [List.length_zipWith, List.length_map, List.length_map]
    omega
  have hcn : collected farm (done + 1) bs ≠ [] := by
    intro hh
    rw [hh] at hlen
    exact hnn (List.length_eq_zero_iff.mp hlen.symm)
  have hkeys : ∀ e ∈ collected farm (done + 1) bs, e.key.length = 40 ∧ e.value.length < 2 ^ 32 ∧
      ∃ x b, e.key = blockHashKey x b ∧ done + 1 ≤ x ∧ x < 2 ^ 64 := by
    intro e he
    obtain ⟨i, x, b, hx, hb', rfl⟩ := collected_mem he
    obtain ⟨p1, p2, _, c, p3, p4⟩ := nonemptyFrom_mem (done + 1) bs x (List.mem_of_getElem? hx)
    refine ⟨?_, ?_, x.1, b.1, rfl, p1, by omega⟩
    · show (blockHashKey x.1 b.1).length = 40
      unfold blockHashKey
      rw [List.length_append, beFixed_length, (hr.canonical i b hb').1]
    · show ((x.2.map (keyAddress farm)).flatten).length < _
      rw [addresses_length hk x.2 (by rw [← p4]; exact hrec c p3), ← p4]
      have := hfit c p3
      omega
  have ht := load_larger d _ (collected_sorted farm (done + 1) bs hrange) db.senders hr.senders (by
      intro f hf x hx
      obtain ⟨_, _, y, b, hy, hy1, hy2⟩ := hkeys x hx
      obtain ⟨f1, f2⟩ := hr.senderKeys f hf
      have hfk := key_of_parts f1 (n := recordBlock f) rfl rfl
      rw [hfk, hy]
      exact blockHashKey_le hy2 (by omega) _ _)
    (fun x hx => ⟨by have := (hkeys x hx).1; show x.key.length < _; omega, (hkeys x hx).2.1⟩)
    (fun x hx => by
      have := (hkeys x hx).1
      unfold Entry.size
      omega) t h
  refine ⟨hcn, ht, ?_⟩
  obtain ⟨x, hx⟩ : ∃ x, (nonemptyFrom (done + 1) bs).getLast? = some x :=
    ⟨_, List.getLast?_eq_some_getLast hnn⟩
  have hlastmem := List.mem_of_getLast? hx
  have hbd := nonemptyFrom_mem (done + 1) bs x hlastmem
  have hi : (nonemptyFrom (done + 1) bs)[(nonemptyFrom (done + 1) bs).length - 1]? = some x := by
    rw [← List.getLast?_eq_getElem?]; exact hx
  have hpos := List.length_pos_iff.mpr hnn
  obtain ⟨b, hbi⟩ : ∃ b, bs[(nonemptyFrom (done + 1) bs).length - 1]? = some b :=
    ⟨_, List.getElem?_eq_getElem (by omega)⟩
  have hce := collected_getElem? farm (done + 1) bs _ x _ hi hbi
  rw [← hlen, ← List.getLast?_eq_getElem?] at hce
  refine ⟨x, b.1, (resultOf farm x).2, hx, by omega, ?_⟩
  rw [ht, List.getLast?_append, List.getLast?_map, hce]
  rfl

/-- Loading what was collected. -/
theorem loadSenders_collected (d : Disk) (farm : Farm) (db : Database) (done w : Nat) (bs : List Listed)
    (hk : ∀ b, (farm.keccak b).length = 32) (hsome : ∃ b ∈ bs, b.2 ≠ []) (hr : Readable db (done + 1) bs)
    (hfit : ∀ b ∈ bs, 20 * b.2.length < 2 ^ 32) (hrec : ∀ b ∈ bs, ∀ t ∈ b.2, Recoverable farm t) (db' : Database)
    (h4 : loadSenders d db w (some (collected farm (done + 1) bs)) = .ok (.success, db')) :
    ∃ x, (nonemptyFrom (done + 1) bs).getLast? = some x ∧
      db' = { db with
        senders := db.senders ++ (collected farm (done + 1) bs).map fun x => (x.key, x.value)
        stageProgress := db.stageProgress.upsert (ascii "Senders") (beFixed 8 x.1) } := by
  unfold loadSenders at h4
  have hc := etlLoad_collected d farm db done bs hk hsome hr hfit hrec
  generalize collected farm (done + 1) bs = es at h4 hc ⊢
  cases es with
  | nil =>
    refine absurd rfl (hc db.senders ?_).1
    rfl
  | cons e es =>
    dsimp only at h4
    obtain ⟨t, h5, h6⟩ := Outcome.bind_eq_ok.mp h4
    obtain ⟨-, ht, x, hash, v, hx, h64, hlast⟩ := hc t (hang_ok h5)
    refine ⟨x, hx, ?_⟩
    rw [hlast] at h6
    dsimp only at h6
    obtain ⟨l, h7, h8⟩ := Outcome.bind_eq_ok.mp h6
    have hl64 : l = x.1 := by
      unfold loadBig64 at h7
      have h256 : (256 : Nat) ^ 8 = 2 ^ 64 := by decide
      split at h7
      · rw [← Outcome.ok.inj h7]
        unfold blockHashKey
        rw [List.take_left' (beFixed_length ..), beToNat_beFixed (by omega)]
      · cases h7
    subst hl64
    obtain ⟨db2, h9, h10⟩ := Outcome.bind_eq_ok.mp h8
    have h11 := hang_ok h9
    rw [setStageProgress_known _ (by decide)] at h11
    have h12 := Outcome.ok.inj h11
    rw [← (Prod.mk.inj (Outcome.ok.inj h10)).2, ← h12, ht]

/-- What is stored from a single batch. -/
theorem recoverAll_exact (d : Disk) (farm : Farm) (readConfig : Database → Option ChainConfig) (db : Database) (first last done : Nat)
    (bs : List Listed) (hk : ∀ b, (farm.keccak b).length = 32) (hsome : ∃ b ∈ bs, b.2 ≠ [])
    (hp : getStageProgress db (ascii "Senders") = .ok done)
    (hb : getStageProgress db (ascii "Bodies") = .ok (done + bs.length)) (hr : Readable db (done + 1) bs)
    (hlast : done + bs.length ≤ last) (hc : countAll bs ≤ farm.maxBatch) (hfit : 20 * countAll bs < 2 ^ 32)
    (hrec : ∀ b ∈ bs, ∀ t ∈ b.2, Recoverable farm t) (hseen : 1 ≤ farm.seen) (db' : Database)
    (h : recoverAll d farm readConfig db first last = .ok (.success, db')) :
    ∃ x, (nonemptyFrom (done + 1) bs).getLast? = some x ∧
      db' = { db with
        senders := db.senders ++ (collected farm (done + 1) bs).map fun x => (x.key, x.value)
        stageProgress := db.stageProgress.upsert (ascii "Senders") (beFixed 8 x.1) } := by
  have hne : bs ≠ [] := by
    obtain ⟨b, hb, _⟩ := hsome
    exact List.ne_nil_of_mem hb
  have hrange := hr.range
  obtain ⟨s, h1, rs, h2, es, h3, h4⟩ := recoverAll_single d farm readConfig db first last done bs hne hp hb hr hlast hc db' h
  have hpk := packages_some (farm := farm) (n := done + 1) hsome
  unfold dispatchBatch at h1
  rw [if_neg hpk] at h1
  split at h1
  · have := Outcome.ok.inj h1
    subst this
    dsimp only at h2 h4
    rw [List.nil_append] at h2
    unfold workAll at h2
    split at h2
    · cases h2
    · rw [workBatch_from farm hk bs hrec (done + 1) hpk hc] at h2
      have hrs := Outcome.ok.inj h2
      subst hrs
      rw [List.take_of_length_le (by simpa using hseen)] at h3
      unfold bufferizeResults at h3
      have hl := nonemptyFrom_length (done + 1) bs
      rw [resultEntries_spec _ _ (by rw [List.length_map, List.length_map]; exact hl)] at h3
      have hes := Outcome.ok.inj h3
      have hes' : es = some (collected farm (done + 1) bs) := by
        rw [← hes]
        unfold collected
        simp only [Option.map_some, List.append_nil]
      subst hes'
      exact loadSenders_collected d farm db done _ bs hk hsome hr (fun b hb => by have := count_le hb; omega) hrec db' h4
  · unfold leave at h1
    rw [if_pos List.length_nil] at h1
    cases h1

end Silkworm.Stages
