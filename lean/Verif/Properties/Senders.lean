import Verif.Stages.SendersBatches
import Verif.Spec.Senders
import Verif.Properties.HashState
import Verif.Properties.DbBlocks

/-!
# C54, C99: senders
-/

namespace Silkworm.Properties

open Silkworm.Db Silkworm.Etl Silkworm.Spec Silkworm.Stages Silkworm.Rlp

/-! ## C54 -/

/-- C54 in full: after recovery the senders of every block are stored under its hash. -/
def C54_statement : Prop :=
  ∀ (d : Disk) (farm : Farm) (readConfig : Database → Option ChainConfig) (db : Database) (first last done : Nat)
    (bs : List (Bytes × Block)) (db' : Database), (∀ b, (farm.keccak b).length = 32) → SendersDue db done bs →
    done + bs.length ≤ last → recoverAll d farm readConfig db first last = .ok (.success, db') →
    ∀ i b, bs[i]? = some b → b.2.transactions ≠ [] → SendersUnder farm.keccak farm.recover db' (done + 1 + i) b.1 b.2

/-- The hash and the transactions of a block, as they are read. -/
def listedBlock (b : Bytes × Block) : Listed := (b.1, (withoutSenders b.2).transactions)

private theorem listed_getElem? {bs : List (Bytes × Block)} {i : Nat} {l : Listed} (h : (bs.map listedBlock)[i]? = some l) :
    ∃ b, bs[i]? = some b ∧ l = listedBlock b := by
  rw [List.getElem?_map] at h
  obtain ⟨b, h1, h2⟩ := Option.map_eq_some_iff.mp h
  exact ⟨b, h1, h2.symm⟩

theorem due_readable {db : Database} {done : Nat} {bs : List (Bytes × Block)} (h : SendersDue db done bs) (hne : bs ≠ []) :
    Readable db (done + 1) (bs.map listedBlock) := by
  obtain ⟨b0, bs', rfl⟩ := List.exists_cons_of_ne_nil hne
  obtain ⟨_, s0⟩ := h.stored 0 b0 rfl
  have hrange := h.range
  refine ⟨s0.ordered.1, s0.ordered.2.2.1, s0.ordered.2.2.2.2, h.hashKeys, h.bodyKeys,
    fun e he => ⟨(h.senderKeys e he).1, by have := (h.senderKeys e he).2; omega⟩, by rw [List.length_map]; omega,
    fun i l hi => ?_, fun i l hi => ?_⟩
  · obtain ⟨b, hb, rfl⟩ := listed_getElem? hi
    obtain ⟨base, s⟩ := h.stored i b hb
    exact ⟨s.hashLength, s.canonical⟩
  · obtain ⟨b, hb, rfl⟩ := listed_getElem? hi
    obtain ⟨base, s⟩ := h.stored i b hb
    have hw : (⟨base, b.2.transactions.length, b.2.ommers⟩ : BlockBodyForStorage).WF :=
      ⟨by have := s.range; show base < _; omega, by have := s.range; show b.2.transactions.length < _; omega, s.ommersWF, s.size⟩
    have hd := decStoredBody hw []
    rw [List.append_nil] at hd
    have ht := readTransactions_spec s.ordered.2.2.2.1 s.keys b.2.transactions base s.range s.transactions s.codable
    exact ⟨_, _, _, s.body, hd, ht⟩

private theorem address_of {farm : Farm} {t : Transaction} (hc : t.Codable) {a : Bytes} (h : SenderIs farm.keccak farm.recover t a) :
    Recoverable farm { t with sender := none } ∧ keyAddress farm { t with sender := none } = a := by
  obtain ⟨key, h1, h2⟩ := h
  rw [← c13_signing_payload_spec t hc.wf hc.sized] at h1
  refine ⟨⟨key, h1⟩, ?_⟩
  unfold keyAddress
  have h1' : farm.recover (farm.keccak (Rlp.encodeTransaction { t with sender := none } true false)) (beFixed 32 t.r ++ beFixed 32 t.s)
      t.oddYParity = some (4 :: key) := h1
  dsimp only
  rw [h1', h2]

private theorem recoverable_of {farm : Farm} {t : Transaction} (hc : t.Codable) (h : Recoverable farm { t with sender := none }) :
    SenderIs farm.keccak farm.recover t (keyAddress farm { t with sender := none }) := by
  obtain ⟨key, h1⟩ := h
  have h1' : farm.recover (farm.keccak (Rlp.encodeTransaction t true false)) (beFixed 32 t.r ++ beFixed 32 t.s)
      t.oddYParity = some (4 :: key) := h1
  have h2 := h1'
  rw [c13_signing_payload_spec t hc.wf hc.sized] at h2
  refine ⟨key, h2, ?_⟩
  unfold keyAddress
  rw [h1]

private theorem count_listed (bs : List (Bytes × Block)) : countAll (bs.map listedBlock) = transactionCount bs := by
  unfold countAll transactionCount
  rw [List.map_map]
  congr 1
  refine List.map_congr_left fun b _ => ?_
  show ((withoutSenders b.2).transactions).length = _
  unfold withoutSenders
  exact List.length_map ..

private theorem nonempty_listed (done : Nat) (bs : List (Bytes × Block)) :
    nonemptyFrom (done + 1) (bs.map listedBlock) = (withTransactions done bs).map fun x => (x.1, (withoutSenders x.2).transactions) := by
  induction bs generalizing done with
  | nil => rfl
  | cons b bs ih =>
    have ih := ih (done + 1)
    unfold withTransactions at ih ⊢
    rw [List.map_cons, List.zipIdx_cons, nonemptyFrom, ih]
    by_cases hb : b.2.transactions = []
    · rw [if_pos (show (listedBlock b).2 = [] by unfold listedBlock withoutSenders; simp [hb]), List.filter_cons_of_neg (by simp [hb])]
    · rw [if_neg (show (listedBlock b).2 ≠ [] by unfold listedBlock withoutSenders; simpa using hb), List.filter_cons_of_pos (by simp [hb])]
      rfl

private theorem forall2_senders {farm : Farm} (txs : List Transaction) (hc : ∀ t ∈ txs, t.Codable)
    (h : ∀ t ∈ txs, Recoverable farm { t with sender := none }) :
    List.Forall₂ (SenderIs farm.keccak farm.recover) txs
      ((txs.map fun t => { t with sender := none }).map (keyAddress farm)) := by
  induction txs with
  | nil => exact .nil
  | cons t ts ih =>
    exact .cons (recoverable_of (hc t List.mem_cons_self) (h t List.mem_cons_self))
      (ih (fun x hx => hc x (List.mem_cons_of_mem _ hx)) fun x hx => h x (List.mem_cons_of_mem _ hx))

/-- Every transaction is signed. -/
def AllSigned (farm : Farm) (bs : List (Bytes × Block)) : Prop :=
  ∀ b ∈ bs, ∀ t ∈ b.2.transactions, ∃ a, SenderIs farm.keccak farm.recover t a

/-- What lies where after these entries were loaded. -/
private theorem stored_shift (farm : Farm) (db : Database) (done : Nat) (bs : List (Bytes × Block)) (db' : Database)
    (hk : ∀ b, (farm.keccak b).length = 32) (hd : SendersDue db done bs) (hs : AllSigned farm bs)
    (hex : (∀ b ∈ bs.map listedBlock, ∀ t ∈ b.2, Recoverable farm t) → ∃ x, (nonemptyFrom (done + 1) (bs.map listedBlock)).getLast? = some x ∧
      db' = { db with
        senders := db.senders ++ (collected farm (done + 1) (bs.map listedBlock)).map fun x => (x.key, x.value)
        stageProgress := db.stageProgress.upsert (ascii "Senders") (beFixed 8 x.1) }) :
    (∀ (k : Nat) (x : Nat × Block) (b : Bytes × Block), (withTransactions done bs)[k]? = some x → bs[k]? = some b →
      SendersUnder farm.keccak farm.recover db' x.1 b.1 x.2) ∧
    (∃ new, db'.senders = db.senders ++ new ∧ new.length = (withTransactions done bs).length) ∧
    (∃ x, (withTransactions done bs).getLast? = some x ∧ getStageProgress db' (ascii "Senders") = .ok x.1) := by
  have hrange := hd.range
  have hcod : ∀ b ∈ bs, ∀ t ∈ b.2.transactions, t.Codable := by
    intro b hb
    obtain ⟨i, hi⟩ := List.mem_iff_getElem?.mp hb
    obtain ⟨_, s⟩ := hd.stored i b hi
    exact s.codable
  have hrec' : ∀ b ∈ bs, ∀ t ∈ b.2.transactions, Recoverable farm { t with sender := none } := fun b hb t ht => by
    obtain ⟨a, ha⟩ := hs b hb t ht
    exact (address_of (hcod b hb t ht) ha).1
  have hrec : ∀ b ∈ bs.map listedBlock, ∀ t ∈ b.2, Recoverable farm t := by
    intro l hl t ht
    obtain ⟨b, hb, rfl⟩ := List.mem_map.mp hl
    obtain ⟨u, hu, rfl⟩ := List.mem_map.mp ht
    exact hrec' b hb u hu
  obtain ⟨x, hx, hdb⟩ := hex hrec
  have hmem : ∀ x ∈ withTransactions done bs, (∃ b ∈ bs, b.2 = x.2) := by
    intro x hx
    unfold withTransactions at hx
    obtain ⟨y, hy, rfl⟩ := List.mem_map.mp hx
    obtain ⟨z, n⟩ := y
    exact ⟨z, List.fst_mem_of_mem_zipIdx (List.mem_filter.mp hy).1, rfl⟩
  refine ⟨fun k x b hkx hkb => ?_, ⟨_, by rw [hdb], ?_⟩, ?_⟩
  · have hx' : (nonemptyFrom (done + 1) (bs.map listedBlock))[k]? = some (x.1, (withoutSenders x.2).transactions) := by
      rw [nonempty_listed, List.getElem?_map, hkx]
      rfl
    have hb' : (bs.map listedBlock)[k]? = some (listedBlock b) := by rw [List.getElem?_map, hkb]; rfl
    have hm := List.mem_of_getElem? (collected_getElem? farm (done + 1) (bs.map listedBlock) k _ _ hx' hb')
    obtain ⟨c, hc1, hc2⟩ := hmem x (List.mem_of_getElem? hkx)
    refine ⟨((withoutSenders x.2).transactions).map (keyAddress farm), ?_, ?_, ?_⟩
    · rw [← hc2]
      exact forall2_senders _ (hcod c hc1) (hrec' c hc1)
    · intro s hs
      obtain ⟨t, ht, rfl⟩ := List.mem_map.mp hs
      rw [← hc2] at ht
      exact keyAddress_length hk (hrec (listedBlock c) (List.mem_map_of_mem hc1) t ht)
    · rw [hdb]
      exact List.mem_append_right _ (List.mem_map_of_mem hm)
  · unfold collected
    rw [List.length_map, List.length_zipWith, List.length_map, List.length_map]
    have := nonemptyFrom_length (done + 1) (bs.map listedBlock)
    rw [Nat.min_eq_left this, nonempty_listed, List.length_map]
  · rw [nonempty_listed, List.getLast?_map] at hx
    obtain ⟨y, hy1, hy2⟩ := Option.map_eq_some_iff.mp hx
    refine ⟨y, hy1, ?_⟩
    have hb := nonemptyFrom_mem (done + 1) (bs.map listedBlock) x (by
      rw [nonempty_listed, ← hy2]
      exact List.mem_map_of_mem (List.mem_of_getLast? hy1))
    rw [List.length_map] at hb
    rw [hdb, ← hy2]
    exact getStageProgress_upsert (name := ascii "Senders")
      { db with senders := db.senders ++ (collected farm (done + 1) (bs.map listedBlock)).map fun x => (x.key, x.value) }
      (by decide) (by rw [← hy2] at hb; dsimp only at hb; omega)

/-- What is stored, exactly, if all fits into one batch that comes in time and every key is recovered: the senders of the `k`-th
block that has transactions lie under its number and the hash of the `k`-th block. Nothing else is stored, and the progress is the
last block that has transactions. -/
theorem c54_shift (d : Disk) (farm : Farm) (readConfig : Database → Option ChainConfig) (db : Database) (first last done : Nat)
    (bs : List (Bytes × Block)) (db' : Database) (hk : ∀ b, (farm.keccak b).length = 32) (hd : SendersDue db done bs)
    (hlast : done + bs.length ≤ last) (hsome : ∃ b ∈ bs, b.2.transactions ≠ []) (hc : transactionCount bs ≤ farm.maxBatch)
    (hfit : 20 * transactionCount bs < 2 ^ 32) (hs : AllSigned farm bs) (hseen : 1 ≤ farm.seen)
    (h : recoverAll d farm readConfig db first last = .ok (.success, db')) :
    (∀ (k : Nat) (x : Nat × Block) (b : Bytes × Block), (withTransactions done bs)[k]? = some x → bs[k]? = some b →
      SendersUnder farm.keccak farm.recover db' x.1 b.1 x.2) ∧
    (∃ new, db'.senders = db.senders ++ new ∧ new.length = (withTransactions done bs).length) ∧
    (∃ x, (withTransactions done bs).getLast? = some x ∧ getStageProgress db' (ascii "Senders") = .ok x.1) := by
  have hne : bs ≠ [] := by
    obtain ⟨b, hb, _⟩ := hsome
    exact List.ne_nil_of_mem hb
  exact stored_shift farm db done bs db' hk hd hs fun hrec => recoverAll_exact d farm readConfig db first last done (bs.map listedBlock) hk
    (by
      obtain ⟨b, hb, hbne⟩ := hsome
      exact ⟨listedBlock b, List.mem_map_of_mem hb, by unfold listedBlock withoutSenders; simpa using hbne⟩)
    hd.progress (by rw [List.length_map]; exact hd.bodies) (due_readable hd hne) (by rw [List.length_map]; exact hlast)
    (by rw [count_listed]; exact hc) (by rw [count_listed]; exact hfit) hrec hseen db' h

/-- The same with any number of batches, if every block fits into one and all of them come in time. -/
theorem c54_batches_shift (d : Disk) (farm : Farm) (readConfig : Database → Option ChainConfig) (db : Database) (first last done : Nat)
    (bs : List (Bytes × Block)) (db' : Database) (hk : ∀ b, (farm.keccak b).length = 32) (hd : SendersDue db done bs)
    (hlast : done + bs.length ≤ last) (hsome : ∃ b ∈ bs, b.2.transactions ≠ [])
    (hc : ∀ b ∈ bs, b.2.transactions.length ≤ farm.maxBatch) (hfit : ∀ b ∈ bs, 20 * b.2.transactions.length < 2 ^ 32)
    (hs : AllSigned farm bs) (hseen : bs.length ≤ farm.seen)
    (h : recoverAll d farm readConfig db first last = .ok (.success, db')) :
    (∀ (k : Nat) (x : Nat × Block) (b : Bytes × Block), (withTransactions done bs)[k]? = some x → bs[k]? = some b →
      SendersUnder farm.keccak farm.recover db' x.1 b.1 x.2) ∧
    (∃ new, db'.senders = db.senders ++ new ∧ new.length = (withTransactions done bs).length) ∧
    (∃ x, (withTransactions done bs).getLast? = some x ∧ getStageProgress db' (ascii "Senders") = .ok x.1) := by
  have hne : bs ≠ [] := by
    obtain ⟨b, hb, _⟩ := hsome
    exact List.ne_nil_of_mem hb
  have hlen : ∀ b, (listedBlock b).2.length = b.2.transactions.length := fun b => by unfold listedBlock withoutSenders; simp
  exact stored_shift farm db done bs db' hk hd hs fun hrec => recoverAll_batches d farm readConfig db first last done (bs.map listedBlock) hk
    (by
      obtain ⟨b, hb, hbne⟩ := hsome
      exact ⟨listedBlock b, List.mem_map_of_mem hb, by unfold listedBlock withoutSenders; simpa using hbne⟩)
    hd.progress (by rw [List.length_map]; exact hd.bodies) (due_readable hd hne) (by rw [List.length_map]; exact hlast)
    (fun l hl => by obtain ⟨b, hb, rfl⟩ := List.mem_map.mp hl; rw [hlen]; exact hc b hb)
    (fun l hl => by obtain ⟨b, hb, rfl⟩ := List.mem_map.mp hl; rw [hlen]; exact hfit b hb) hrec
    (by rw [List.length_map]; exact hseen) db' h

private theorem withTransactions_all (done : Nat) (bs : List (Bytes × Block)) (h : ∀ b ∈ bs, b.2.transactions ≠ []) :
    withTransactions done bs = (bs.zipIdx (done + 1)).map fun b => (b.2, b.1.2) := by
  unfold withTransactions
  rw [List.filter_eq_self.mpr]
  intro y hy
  simpa using h y.1 (List.fst_mem_of_mem_zipIdx hy)

/-- Without gaps everything is where it belongs. -/
private theorem stored_all (farm : Farm) (db' : Database) (done : Nat) (bs : List (Bytes × Block)) (hne : bs ≠ [])
    (hall : ∀ b ∈ bs, b.2.transactions ≠ [])
    (h1 : ∀ (k : Nat) (x : Nat × Block) (b : Bytes × Block), (withTransactions done bs)[k]? = some x → bs[k]? = some b →
      SendersUnder farm.keccak farm.recover db' x.1 b.1 x.2) (x : Nat × Block) (h2 : (withTransactions done bs).getLast? = some x)
    (h3 : getStageProgress db' (ascii "Senders") = .ok x.1) :
    (∀ i b, bs[i]? = some b → SendersUnder farm.keccak farm.recover db' (done + 1 + i) b.1 b.2) ∧
    getStageProgress db' (ascii "Senders") = .ok (done + bs.length) := by
  rw [withTransactions_all done bs hall] at h1 h2
  refine ⟨fun i b hi => ?_, ?_⟩
  · refine h1 i (done + 1 + i, b.2) b ?_ hi
    rw [List.getElem?_map, List.getElem?_zipIdx, hi]
    rfl
  · rw [h3]
    rw [List.getLast?_map, List.getLast?_zipIdx] at h2
    have hl : 0 < bs.length := List.length_pos_iff.mpr hne
    rw [List.getLast?_eq_some_getLast hne] at h2
    have := Option.some.inj h2
    rw [← this]
    dsimp only
    congr 1
    omega

/-- C54 if every block has transactions, every key can be recovered, and all fits into one batch that comes in time. Missing: blocks
without transactions, and the theorems below. -/
theorem c54_partial (d : Disk) (farm : Farm) (readConfig : Database → Option ChainConfig) (db : Database) (first last done : Nat)
    (bs : List (Bytes × Block)) (db' : Database) (hk : ∀ b, (farm.keccak b).length = 32) (hd : SendersDue db done bs)
    (hlast : done + bs.length ≤ last) (hne : bs ≠ []) (hall : ∀ b ∈ bs, b.2.transactions ≠ [])
    (hc : transactionCount bs ≤ farm.maxBatch) (hfit : 20 * transactionCount bs < 2 ^ 32) (hs : AllSigned farm bs)
    (hseen : 1 ≤ farm.seen) (h : recoverAll d farm readConfig db first last = .ok (.success, db')) :
    (∀ i b, bs[i]? = some b → SendersUnder farm.keccak farm.recover db' (done + 1 + i) b.1 b.2) ∧
    getStageProgress db' (ascii "Senders") = .ok (done + bs.length) := by
  have hsome : ∃ b ∈ bs, b.2.transactions ≠ [] := by
    obtain ⟨b, bs', rfl⟩ := List.exists_cons_of_ne_nil hne
    exact ⟨b, List.mem_cons_self, hall b List.mem_cons_self⟩
  obtain ⟨h1, _, x, h2, h3⟩ := c54_shift d farm readConfig db first last done bs db' hk hd hlast hsome hc hfit hs hseen h
  exact stored_all farm db' done bs hne hall h1 x h2 h3

/-- The same with any number of batches, if every block fits into one and all of them come in time. Missing: blocks without
transactions, and the theorems below. -/
theorem c54_batches_partial (d : Disk) (farm : Farm) (readConfig : Database → Option ChainConfig) (db : Database) (first last done : Nat)
    (bs : List (Bytes × Block)) (db' : Database) (hk : ∀ b, (farm.keccak b).length = 32) (hd : SendersDue db done bs)
    (hlast : done + bs.length ≤ last) (hne : bs ≠ []) (hall : ∀ b ∈ bs, b.2.transactions ≠ [])
    (hc : ∀ b ∈ bs, b.2.transactions.length ≤ farm.maxBatch) (hfit : ∀ b ∈ bs, 20 * b.2.transactions.length < 2 ^ 32)
    (hs : AllSigned farm bs) (hseen : bs.length ≤ farm.seen)
    (h : recoverAll d farm readConfig db first last = .ok (.success, db')) :
    (∀ i b, bs[i]? = some b → SendersUnder farm.keccak farm.recover db' (done + 1 + i) b.1 b.2) ∧
    getStageProgress db' (ascii "Senders") = .ok (done + bs.length) := by
  have hsome : ∃ b ∈ bs, b.2.transactions ≠ [] := by
    obtain ⟨b, bs', rfl⟩ := List.exists_cons_of_ne_nil hne
    exact ⟨b, List.mem_cons_self, hall b List.mem_cons_self⟩
  obtain ⟨h1, _, x, h2, h3⟩ := c54_batches_shift d farm readConfig db first last done bs db' hk hd hlast hsome hc hfit hs hseen h
  exact stored_all farm db' done bs hne hall h1 x h2 h3

/-! ### Where nothing is stored -/

private theorem workLoop_fails (farm : Farm) (ps : List Package) (number : Nat) (acc : Bytes) (room : Nat)
    (r : Option (List (Nat × Bytes))) (p : Package) (hp : p ∈ ps) (hf : ∀ key, farm.recover p.hash p.signature p.odd ≠ some (4 :: key))
    (h : workLoop farm ps number acc room = .ok r) : r = none := by
  induction ps generalizing number acc room r with
  | nil => cases hp
  | cons q ps ih =>
    unfold workLoop at h
    split at h
    · exact (Outcome.ok.inj h).symm
    · cases h
    · rename_i b key hq
      split at h
      · exact (Outcome.ok.inj h).symm
      · rename_i hb
        have hb : b = 4 := by simpa using hb
        have hp' : p ∈ ps := by
          rcases List.mem_cons.mp hp with rfl | hp
          · rw [hb] at hq
            exact absurd hq (hf key)
          · exact hp
        split at h
        · cases h
        · dsimp only at h
          split at h
          · obtain ⟨s, h1, h2⟩ := Outcome.bind_eq_ok.mp h
            have := ih _ _ _ s hp' h1
            rw [← Outcome.ok.inj h2, this]
            rfl
          · exact ih _ _ _ r hp' h

private theorem package_mem (farm : Farm) (n : Nat) (bs : List Listed) (b : Listed) (hb : b ∈ bs) (t : Transaction) (ht : t ∈ b.2) :
    ∃ m, packageOf farm m t ∈ packagesFrom farm n bs := by
  induction bs generalizing n with
  | nil => cases hb
  | cons c bs ih =>
    unfold packagesFrom
    rcases List.mem_cons.mp hb with rfl | hb
    · exact ⟨n, List.mem_append_left _ (List.mem_map_of_mem ht)⟩
    · obtain ⟨m, hm⟩ := ih (n + 1) hb
      exact ⟨m, List.mem_append_right _ hm⟩

/-- C54 fails: if one key cannot be recovered, or the batch comes too late, nothing at all is stored, and this is a success. -/
theorem c54_failed_violated (d : Disk) (farm : Farm) (readConfig : Database → Option ChainConfig) (db : Database)
    (first last done : Nat) (bs : List (Bytes × Block)) (db' : Database) (hd : SendersDue db done bs)
    (hlast : done + bs.length ≤ last) (hne : bs ≠ []) (hc : transactionCount bs ≤ farm.maxBatch)
    (hbad : farm.seen = 0 ∨ ∃ b ∈ bs, ∃ t ∈ b.2.transactions, ∀ a, ¬ SenderIs farm.keccak farm.recover t a)
    (h : recoverAll d farm readConfig db first last = .ok (.success, db')) : db' = db := by
  obtain ⟨s, h1, rs, h2, es, h3, h4⟩ := recoverAll_single d farm readConfig db first last done (bs.map listedBlock)
    (by simpa using hne) hd.progress (by rw [List.length_map]; exact hd.bodies) (due_readable hd hne)
    (by rw [List.length_map]; exact hlast) (by rw [count_listed]; exact hc) db' h
  have hes : es = none ∨ es = some [] := by
    rcases hbad with hseen | ⟨b, hb, t, ht, hno⟩
    · rw [hseen, List.take_zero] at h3
      exact .inr (Outcome.ok.inj h3).symm
    · obtain ⟨i, hi⟩ := List.mem_iff_getElem?.mp hb
      obtain ⟨_, st⟩ := hd.stored i b hi
      have hcod := st.codable t ht
      obtain ⟨m, hm⟩ := package_mem farm (done + 1) (bs.map listedBlock) (listedBlock b) (List.mem_map_of_mem hb)
        { t with sender := none } (List.mem_map_of_mem (f := fun t : Transaction => { t with sender := none }) ht)
      have hpk : packagesFrom farm (done + 1) (bs.map listedBlock) ≠ [] := List.ne_nil_of_mem hm
      unfold dispatchBatch at h1
      rw [if_neg hpk] at h1
      split at h1
      · have := Outcome.ok.inj h1
        subst this
        dsimp only at h2
        rw [List.nil_append] at h2
        unfold workAll at h2
        split at h2
        · cases h2
        · obtain ⟨w, hw, h2⟩ := Outcome.bind_eq_ok.mp h2
          have hw' : w = none := by
            unfold workBatch at hw
            generalize packagesFrom farm (done + 1) (bs.map listedBlock) = ps at hw hm
            cases ps with
            | nil => cases hm
            | cons p ps =>
              refine workLoop_fails farm (p :: ps) _ _ _ w _ hm (fun key hkey => ?_) hw
              exact hno _ (recoverable_of hcod ⟨key, hkey⟩)
          subst hw'
          have hrs : rs = [none] := (Outcome.ok.inj h2).symm
          subst hrs
          cases hseen : farm.seen with
          | zero =>
            rw [hseen, List.take_zero] at h3
            exact .inr (Outcome.ok.inj h3).symm
          | succ k =>
            rw [hseen, List.take_succ_cons] at h3
            exact .inl (Outcome.ok.inj h3).symm
      · unfold leave at h1
        rw [if_pos List.length_nil] at h1
        cases h1
  rcases hes with rfl | rfl
  · exact ((Prod.mk.inj (Outcome.ok.inj h4)).2).symm
  · exact ((Prod.mk.inj (Outcome.ok.inj h4)).2).symm

theorem canonicalLoop_bound (t : Table) (n r : Nat) (hs : List Bytes) (reached : Nat)
    (h : canonicalLoop t n r = .ok (some (hs, reached))) (e : Bytes × Bytes) (he : e ∈ t) : recordBlock e < n + hs.length := by
  induction t generalizing n r hs reached with
  | nil => cases he
  | cons f t ih =>
    unfold canonicalLoop at h
    obtain ⟨m, h1, h⟩ := Outcome.bind_eq_ok.mp h
    split at h
    · cases h
    · rename_i hm
      split at h
      · cases h
      · obtain ⟨q, h2, h⟩ := Outcome.bind_eq_ok.mp h
        cases q with
        | none => cases Outcome.ok.inj h
        | some q =>
          have hq := (Prod.mk.inj (Option.some.inj (Outcome.ok.inj h))).1
          rw [← hq, List.length_cons]
          rcases List.mem_cons.mp he with rfl | he
          · have : recordBlock e = m := by
              unfold loadBig64 at h1
              split at h1
              · exact Outcome.ok.inj h1
              · cases h1
            omega
          · have := ih (n + 1) m q.1 q.2 h2 he
            omega

/-- C54 fails if the hash of a block is canonical of which the body is not yet there: all canonical hashes to the end of the table
are read, and the last one is expected to be that of the last body. Nothing is ever recovered. -/
theorem c54_ahead_violated (d : Disk) (farm : Farm) (readConfig : Database → Option ChainConfig) (db : Database)
    (first last done : Nat) (bs : List (Bytes × Block)) (db' : Database) (hd : SendersDue db done bs) (hne : bs ≠ [])
    (hlast : done + bs.length ≤ last) (hrange : done + bs.length + 1 < 2 ^ 64) (hash : Bytes)
    (hm : (beFixed 8 (done + bs.length + 1), hash) ∈ db.canonicalHashes) :
    recoverAll d farm readConfig db first last ≠ .ok (.success, db') := by
  intro h
  have h256 : (256 : Nat) ^ 8 = 2 ^ 64 := by decide
  unfold recoverAll at h
  cases hcfg : readConfig db with
  | none => rw [hcfg] at h; cases h
  | some config =>
    rw [hcfg] at h
    dsimp only at h
    rw [hd.progress] at h
    simp only [liftDb, Outcome.ok_bind] at h
    have hlen : 0 < bs.length := List.length_pos_iff.mpr hne
    rw [Nat.mod_eq_of_lt (show done + 1 < 2 ^ 64 by omega)] at h
    have hfrom : (if (if done + 1 < first then done + 1 else first) ≤ done then done + 1 else if done + 1 < first then done + 1 else first)
        = done + 1 := by
      split_ifs <;> omega
    rw [hfrom, hd.bodies] at h
    simp only [Outcome.ok_bind] at h
    rw [if_neg (by omega)] at h
    have hto : (if done + bs.length < last then done + bs.length else last) = done + bs.length := by
      split <;> omega
    rw [hto, if_neg (by omega)] at h
    obtain ⟨hs, h1, h⟩ := Outcome.bind_eq_ok.mp h
    cases hs with
    | none => cases h
    | some hs =>
      dsimp only at h
      split at h
      · cases h
      · rename_i hl
        have hr := due_readable hd hne
        obtain ⟨b, bs', rfl⟩ := List.exists_cons_of_ne_nil hne
        have hm0 := (hr.canonical 0 (listedBlock b) rfl).2
        rw [Nat.add_zero] at hm0
        have hin : (beFixed 8 (done + (b :: bs').length + 1), hash) ∈ fromKey db.canonicalHashes (blockKey (done + 1)) := by
          refine mem_fromKey hr.hashes hm0 hm (List.le_of_lt ?_)
          rw [key_lt (beFixed_length ..) (beFixed_length ..), beToNat_beFixed (by omega), beToNat_beFixed (by omega)]
          omega
        unfold fillCanonicalHeaders at h1
        generalize fromKey db.canonicalHashes (blockKey (done + 1)) = t at h1 hin
        cases t with
        | nil => cases hin
        | cons e t =>
          dsimp only at h1
          obtain ⟨q, h2, h1⟩ := Outcome.bind_eq_ok.mp h1
          cases q with
          | none => cases h1
          | some q =>
            dsimp only at h1
            split at h1
            · cases h1
            · have hq := Option.some.inj (Outcome.ok.inj h1)
              have hb := canonicalLoop_bound (e :: t) (done + 1) 0 q.1 q.2 h2 _ hin
              rw [hq] at hb
              have hkey : recordBlock (beFixed 8 (done + (b :: bs').length + 1), hash) = done + (b :: bs').length + 1 := by
                unfold recordBlock
                dsimp only
                rw [List.take_of_length_le (Nat.le_of_eq (beFixed_length ..)), beToNat_beFixed (by omega)]
              omega

/-- C54 fails for the stage: whatever is recovered, the transaction is never committed. -/
theorem c54_stage_violated (d : Disk) (farm : Farm) (readConfig : Database → Option ChainConfig) (db : Database)
    (r : StageResult × Database) (h : stageSenders d farm readConfig db = .ok r) : r.2 = db := by
  unfold stageSenders at h
  obtain ⟨_, _, h⟩ := Outcome.bind_eq_ok.mp h
  obtain ⟨_, _, h⟩ := Outcome.bind_eq_ok.mp h
  obtain ⟨_, _, h⟩ := Outcome.bind_eq_ok.mp h
  rw [← Outcome.ok.inj h]

/-- With several batches: as soon as there are as many workers as allowed, the next batch is never worked on, and recovery does not
end. -/
theorem c54_batches_violated (farm : Farm) (sent : List (List Package)) (batch : List Package) (hs : sent ≠ [])
    (hl : sent.length = farm.maxWorkers) (hb : batch ≠ []) : dispatchBatch farm sent batch = .ub := by
  unfold dispatchBatch leave
  rw [if_neg hb, if_neg (by rintro ⟨_, h | h⟩; exacts [hs h, h hl]), if_neg (by simpa using hs)]

/-! ### Examples -/

/-- Another transaction of the same kind. -/
def exLegacyNext : Transaction := { exLegacy with nonce := 10 }

theorem exLegacyNext_codable : exLegacyNext.Codable :=
  ⟨⟨by decide, by decide, by decide, by decide, by intro a h; cases h; rfl, by decide, by intro c h; cases h; decide,
    by decide, by decide, by intro e he; cases he⟩, ⟨by decide, by decide⟩, fun _ => rfl, fun _ => rfl, fun h => absurd rfl h, by
      intro _ c h; cases h; decide⟩

/-- A block with these transactions. -/
def exSenderBlock (txs : List Transaction) : Block := ⟨⟨txs, []⟩, exHeader⟩

/-- Blocks 2 to 4, the first with one transaction. -/
def exSenderDb (second third : List Transaction) (base : Nat) : Database :=
  { canonicalHashes := [(beFixed 8 1, exWord 81), (beFixed 8 2, exWord 82), (beFixed 8 3, exWord 83), (beFixed 8 4, exWord 84)]
    headers := [(beFixed 8 2 ++ exWord 82, encodeBlockHeader exHeader false), (beFixed 8 3 ++ exWord 83, encodeBlockHeader exHeader false),
      (beFixed 8 4 ++ exWord 84, encodeBlockHeader exHeader false)]
    blockBodies := [(beFixed 8 2 ++ exWord 82, (⟨5, 1, []⟩ : BlockBodyForStorage).encode),
      (beFixed 8 3 ++ exWord 83, (⟨6, second.length, []⟩ : BlockBodyForStorage).encode),
      (beFixed 8 4 ++ exWord 84, (⟨base, third.length, []⟩ : BlockBodyForStorage).encode)]
    ethTx := [(beFixed 8 5, encodeTransactionInBlock exLegacy), (beFixed 8 6, encodeTransactionInBlock exLegacyNext),
      (beFixed 8 7, encodeTransactionInBlock exLegacy)]
    senders := [(beFixed 8 1 ++ exWord 81, List.replicate 20 7)]
    stageProgress := [(ascii "Bodies", beFixed 8 4), (ascii "Senders", beFixed 8 1)] }

private theorem exSenderStored {db : Database} {n : Nat} {hash : Bytes} {base : Nat} {txs : List Transaction}
    (ho : Spec.Ordered db.canonicalHashes ∧ Spec.Ordered db.headers ∧ Spec.Ordered db.blockBodies ∧ Spec.Ordered db.ethTx ∧
      Spec.Ordered db.senders)
    (hl : hash.length = 32) (hc : (beFixed 8 n, hash) ∈ db.canonicalHashes)
    (hh : (beFixed 8 n ++ hash, encodeBlockHeader exHeader false) ∈ db.headers)
    (hb : (beFixed 8 n ++ hash, (⟨base, txs.length, []⟩ : BlockBodyForStorage).encode) ∈ db.blockBodies)
    (ht : ∀ j (h : j < txs.length), (beFixed 8 (base + j), encodeTransactionInBlock txs[j]) ∈ db.ethTx)
    (hk : ∀ e ∈ db.ethTx, e.1.length = 8) (hr : base + txs.length < 2 ^ 64) (hcod : ∀ t ∈ txs, t.Codable)
    (hs : (rlp (storedBodyItem ⟨base, txs.length, []⟩)).length < 2 ^ 64) : BlockStored db n hash base (exSenderBlock txs) := by
  have hw : (⟨base, txs.length, []⟩ : BlockBodyForStorage).WF :=
    ⟨by show base < _; omega, by show txs.length < _; omega, fun h hm => (by cases hm), hs⟩
  refine ⟨ho, hl, hc, ?_, ?_, ?_, hk, hr, exHeader_wf, fun h hm => (by cases hm), hcod, hs⟩
  · rw [show rlp (headerItem (exSenderBlock txs).header) = encodeBlockHeader exHeader false from (c07_header_spec _ exHeader_wf).symm]
    exact hh
  · show (_, rlp (storedBodyItem ⟨base, txs.length, []⟩)) ∈ _
    rw [← storedBody_spec hw]
    exact hb
  · intro j hj
    have hj : j < txs.length := hj
    have h1 := ht j hj
    rw [(txInBlock_spec (hcod txs[j] (List.getElem_mem hj))).1] at h1
    exact h1

/-- Every block has a transaction. -/
def exFull : List (Bytes × Block) :=
  [(exWord 82, exSenderBlock [exLegacy]), (exWord 83, exSenderBlock [exLegacyNext]), (exWord 84, exSenderBlock [exLegacy])]

/-- The second block has none. -/
def exGap : List (Bytes × Block) :=
  [(exWord 82, exSenderBlock [exLegacy]), (exWord 83, exSenderBlock []), (exWord 84, exSenderBlock [exLegacyNext])]

private theorem one_tx {t : Table} {base : Nat} {tx : Transaction} (h : (beFixed 8 base, encodeTransactionInBlock tx) ∈ t) :
    ∀ j (h : j < [tx].length), (beFixed 8 (base + j), encodeTransactionInBlock [tx][j]) ∈ t := by
  intro j hj
  have : j = 0 := by simpa using hj
  subst this
  exact h

theorem exFull_due : SendersDue (exSenderDb [exLegacyNext] [exLegacy] 7) 1 exFull := by
  refine ⟨fun i b hi => ?_, by decide +kernel, by decide +kernel, by decide +kernel, by decide, by decide +kernel, by decide +kernel⟩
  have ho : Spec.Ordered (exSenderDb [exLegacyNext] [exLegacy] 7).canonicalHashes ∧ Spec.Ordered (exSenderDb [exLegacyNext] [exLegacy] 7).headers ∧
      Spec.Ordered (exSenderDb [exLegacyNext] [exLegacy] 7).blockBodies ∧ Spec.Ordered (exSenderDb [exLegacyNext] [exLegacy] 7).ethTx ∧
      Spec.Ordered (exSenderDb [exLegacyNext] [exLegacy] 7).senders := by decide +kernel
  match i, hi with
  | 0, hi =>
    have := Option.some.inj hi
    subst this
    exact ⟨5, exSenderStored ho (by decide) (by decide +kernel) (by decide +kernel) (by decide +kernel) (one_tx (by decide +kernel))
      (by decide +kernel) (by decide) (fun t ht => List.mem_singleton.mp ht ▸ exLegacy_codable) (by decide +kernel)⟩
  | 1, hi =>
    have := Option.some.inj hi
    subst this
    exact ⟨6, exSenderStored ho (by decide) (by decide +kernel) (by decide +kernel) (by decide +kernel) (one_tx (by decide +kernel))
      (by decide +kernel) (by decide) (fun t ht => List.mem_singleton.mp ht ▸ exLegacyNext_codable) (by decide +kernel)⟩
  | 2, hi =>
    have := Option.some.inj hi
    subst this
    exact ⟨7, exSenderStored ho (by decide) (by decide +kernel) (by decide +kernel) (by decide +kernel) (one_tx (by decide +kernel))
      (by decide +kernel) (by decide) (fun t ht => List.mem_singleton.mp ht ▸ exLegacy_codable) (by decide +kernel)⟩

theorem exGap_due : SendersDue (exSenderDb [] [exLegacyNext] 6) 1 exGap := by
  refine ⟨fun i b hi => ?_, by decide +kernel, by decide +kernel, by decide +kernel, by decide, by decide +kernel, by decide +kernel⟩
  have ho : Spec.Ordered (exSenderDb [] [exLegacyNext] 6).canonicalHashes ∧ Spec.Ordered (exSenderDb [] [exLegacyNext] 6).headers ∧
      Spec.Ordered (exSenderDb [] [exLegacyNext] 6).blockBodies ∧ Spec.Ordered (exSenderDb [] [exLegacyNext] 6).ethTx ∧
      Spec.Ordered (exSenderDb [] [exLegacyNext] 6).senders := by decide +kernel
  match i, hi with
  | 0, hi =>
    have := Option.some.inj hi
    subst this
    exact ⟨5, exSenderStored ho (by decide) (by decide +kernel) (by decide +kernel) (by decide +kernel) (one_tx (by decide +kernel))
      (by decide +kernel) (by decide) (fun t ht => List.mem_singleton.mp ht ▸ exLegacy_codable) (by decide +kernel)⟩
  | 1, hi =>
    have := Option.some.inj hi
    subst this
    exact ⟨6, exSenderStored ho (by decide) (by decide +kernel) (by decide +kernel) (by decide +kernel) (fun j hj => by cases hj)
      (by decide +kernel) (by decide) (fun t ht => by cases ht) (by decide +kernel)⟩
  | 2, hi =>
    have := Option.some.inj hi
    subst this
    exact ⟨6, exSenderStored ho (by decide) (by decide +kernel) (by decide +kernel) (by decide +kernel) (one_tx (by decide +kernel))
      (by decide +kernel) (by decide) (fun t ht => List.mem_singleton.mp ht ▸ exLegacyNext_codable) (by decide +kernel)⟩

/-- Workers that are never late. -/
def exFarm : Farm :=
  { keccak := exHash, recover := fun h _ _ => some (4 :: h), maxWorkers := 4, maxBatch := 10, found := fun _ => true,
    kicked := fun _ => true, seen := 1 }

def exSenderConfig : ChainConfig := { chainId := 1, forkBlocks := List.replicate 10 (some 0) }

/-- What the example takes for the sender. -/
def exSenderOf (t : Transaction) : Bytes := (exHash (exHash (encodeTransaction t true false))).drop 12

theorem exSigned (t : Transaction) (h : t.Codable) : SenderIs exFarm.keccak exFarm.recover t (exSenderOf t) := by
  refine ⟨exHash (txSigningPayload t), rfl, ?_⟩
  unfold exSenderOf
  rw [c13_signing_payload_spec t h.wf h.sized]
  rfl

/-- Everything is where it belongs. -/
def exFullDone : Database :=
  { exSenderDb [exLegacyNext] [exLegacy] 7 with
    senders := [(beFixed 8 1 ++ exWord 81, List.replicate 20 7), (beFixed 8 2 ++ exWord 82, exSenderOf exLegacy),
      (beFixed 8 3 ++ exWord 83, exSenderOf exLegacyNext), (beFixed 8 4 ++ exWord 84, exSenderOf exLegacy)]
    stageProgress := [(ascii "Bodies", beFixed 8 4), (ascii "Senders", beFixed 8 4)] }

/-- The senders of the fourth block are under the hash of the third. -/
def exGapDone : Database :=
  { exSenderDb [] [exLegacyNext] 6 with
    senders := [(beFixed 8 1 ++ exWord 81, List.replicate 20 7), (beFixed 8 2 ++ exWord 82, exSenderOf exLegacy),
      (beFixed 8 4 ++ exWord 83, exSenderOf exLegacyNext)]
    stageProgress := [(ascii "Bodies", beFixed 8 4), (ascii "Senders", beFixed 8 4)] }

theorem exFull_run : recoverAll (exDisks 0) exFarm (fun _ => some exSenderConfig) (exSenderDb [exLegacyNext] [exLegacy] 7) 1 9 =
    .ok (.success, exFullDone) := by decide +kernel

theorem exGap_run : recoverAll (exDisks 0) exFarm (fun _ => some exSenderConfig) (exSenderDb [] [exLegacyNext] 6) 1 9 =
    .ok (.success, exGapDone) := by decide +kernel

theorem exFull_signed : AllSigned exFarm exFull := by
  intro b hb t ht
  refine ⟨_, exSigned t ?_⟩
  obtain ⟨i, hi⟩ := List.mem_iff_getElem?.mp hb
  obtain ⟨_, s⟩ := exFull_due.stored i b hi
  exact s.codable t ht

theorem exGap_signed : AllSigned exFarm exGap := by
  intro b hb t ht
  refine ⟨_, exSigned t ?_⟩
  obtain ⟨i, hi⟩ := List.mem_iff_getElem?.mp hb
  obtain ⟨_, s⟩ := exGap_due.stored i b hi
  exact s.codable t ht

/-- C54 is violated: one block without transactions, and the senders of the block after it are under the wrong hash. -/
theorem c54_violated : ¬ C54_statement := by
  intro h
  obtain ⟨ss, _, hm⟩ := h (exDisks 0) exFarm (fun _ => some exSenderConfig) (exSenderDb [] [exLegacyNext] 6) 1 9 1 exGap exGapDone
    exHash_length exGap_due (by decide) exGap_run 2 (exWord 84, exSenderBlock [exLegacyNext]) rfl (by decide)
  have hno : ∀ e ∈ exGapDone.senders, e.1 ≠ beFixed 8 (1 + 1 + 2) ++ exWord 84 := by decide +kernel
  exact hno _ hm.mem rfl

example : SendersUnder exFarm.keccak exFarm.recover exFullDone 3 (exWord 83) (exSenderBlock [exLegacyNext]) ∧
    getStageProgress exFullDone (ascii "Senders") = .ok 4 := by
  obtain ⟨h1, h2⟩ := c54_partial _ _ _ _ _ _ _ _ _ exHash_length exFull_due (by decide) (by decide) (by decide +kernel)
    (by decide +kernel) (by decide +kernel) exFull_signed (by decide) exFull_run
  exact ⟨h1 1 _ rfl, h2⟩

example : SendersUnder exFarm.keccak exFarm.recover exGapDone 4 (exWord 83) (exSenderBlock [exLegacyNext]) :=
  (c54_shift _ _ _ _ _ _ _ _ _ exHash_length exGap_due (by decide) ⟨_, List.mem_cons_self, by decide⟩ (by decide +kernel)
    (by decide +kernel) exGap_signed (by decide) exGap_run).1 1 (4, exSenderBlock [exLegacyNext]) _ rfl rfl

/-- The same with three batches. -/
theorem exBatches_run : recoverAll (exDisks 0) { exFarm with maxBatch := 1, seen := 3 } (fun _ => some exSenderConfig)
    (exSenderDb [exLegacyNext] [exLegacy] 7) 1 9 = .ok (.success, exFullDone) := by decide +kernel

example : SendersUnder exFarm.keccak exFarm.recover exFullDone 4 (exWord 84) (exSenderBlock [exLegacy]) :=
  (c54_batches_partial _ { exFarm with maxBatch := 1, seen := 3 } _ _ _ _ _ _ _ exHash_length exFull_due (by decide) (by decide)
    (by decide +kernel) (by decide +kernel) (by decide +kernel) exFull_signed (by decide) exBatches_run).1 2 _ rfl

/-- One key cannot be recovered, or the batch is late: success, and nothing is stored. -/
example : recoverAll (exDisks 0) { exFarm with recover := fun _ _ _ => none } (fun _ => some exSenderConfig)
      (exSenderDb [] [exLegacyNext] 6) 1 9 = .ok (.success, exSenderDb [] [exLegacyNext] 6) ∧
    recoverAll (exDisks 0) { exFarm with seen := 0 } (fun _ => some exSenderConfig)
      (exSenderDb [] [exLegacyNext] 6) 1 9 = .ok (.success, exSenderDb [] [exLegacyNext] 6) := by decide +kernel
example (db' : Database) (h : recoverAll (exDisks 0) { exFarm with seen := 0 } (fun _ => some exSenderConfig)
    (exSenderDb [] [exLegacyNext] 6) 1 9 = .ok (.success, db')) : db' = exSenderDb [] [exLegacyNext] 6 :=
  c54_failed_violated _ _ _ _ 1 9 1 exGap db' exGap_due (by decide) (by decide) (by decide +kernel) (.inl rfl) h

/-- One more canonical hash: nothing is recovered. -/
example : recoverAll (exDisks 0) exFarm (fun _ => some exSenderConfig)
      { exSenderDb [] [exLegacyNext] 6 with
        canonicalHashes := (exSenderDb [] [exLegacyNext] 6).canonicalHashes ++ [(beFixed 8 5, exWord 85)] } 1 9 =
    .ok (.badChainSequence, { exSenderDb [] [exLegacyNext] 6 with
        canonicalHashes := (exSenderDb [] [exLegacyNext] 6).canonicalHashes ++ [(beFixed 8 5, exWord 85)] }) := by decide +kernel

/-- Two batches with one worker: no end. -/
example : recoverAll (exDisks 0) { exFarm with maxWorkers := 1, maxBatch := 1 } (fun _ => some exSenderConfig)
    (exSenderDb [] [exLegacyNext] 6) 1 9 = .ub := by decide +kernel

/-! ## C99: unwinding -/

/-- C99 in full: what is kept are the senders of blocks up to the new height. -/
def C99_statement : Prop :=
  ∀ (db : Database) (height : Nat) (db' : Database), Spec.Ordered db.senders → (∀ e ∈ db.senders, e.1.length = 40) →
    height < 2 ^ 64 → unwindFarm db height = .ok (.success, db') →
    ∀ e, e ∈ db'.senders ↔ e ∈ db.senders ∧ recordBlock e ≤ height

/-- The progress, and nothing but progress and senders. -/
theorem c99_progress (db : Database) (height : Nat) :
    ∃ t, unwindFarm db height = .ok (.success, { db with
        senders := t, stageProgress := db.stageProgress.upsert (ascii "Senders") (beFixed 8 height) }) ∧
      (∀ e ∈ t, e ∈ db.senders) := by
  unfold unwindFarm
  dsimp only
  rw [setStageProgress_known _ (by decide)]
  refine ⟨_, rfl, ?_⟩
  intro e he
  split at he
  · cases he
  · split at he
    · cases he
    · exact (List.takeWhile_sublist _).mem he

/-- C99 fails from height 2 on: the cursor is set to a key with the hash zero, so nothing is erased. -/
theorem c99_kept_violated (db : Database) (height : Nat) (hh : 2 ≤ height)
    (h0 : ∀ e ∈ db.senders, e.1.drop 8 ≠ List.replicate 32 0) (db' : Database)
    (h : unwindFarm db height = .ok (.success, db')) : db'.senders = db.senders := by
  unfold unwindFarm at h
  dsimp only at h
  rw [setStageProgress_known _ (by decide)] at h
  have := (Prod.mk.inj (Outcome.ok.inj h)).2
  rw [← this]
  dsimp only
  split
  · rename_i hn; exact hn.symm
  · rw [if_neg (by omega)]
    refine List.takeWhile_eq_self_iff.mpr fun e he => ?_
    have hne : e.1 ≠ blockHashKey ((height + 1) % 2 ^ 64) (List.replicate 32 0) := by
      intro hk
      refine h0 e he ?_
      rw [hk]
      unfold blockHashKey
      rw [List.drop_left' (beFixed_length ..)]
    simpa using hne

/-- C99 fails at height 1: everything is erased, with the senders of block 1. -/
theorem c99_one_violated (db : Database) (height : Nat) (hh : height ≤ 1) (db' : Database)
    (h : unwindFarm db height = .ok (.success, db')) : db'.senders = [] := by
  unfold unwindFarm at h
  dsimp only at h
  rw [setStageProgress_known _ (by decide)] at h
  rw [← (Prod.mk.inj (Outcome.ok.inj h)).2]
  dsimp only
  rw [if_pos hh, ite_self]

/-- C99 at height 0, where everything has to go, and from height 2 on if nothing has to. Missing: all other cases; see above. -/
theorem c99_partial (db : Database) (height : Nat) (db' : Database) (h0 : ∀ e ∈ db.senders, e.1.drop 8 ≠ List.replicate 32 0)
    (h : unwindFarm db height = .ok (.success, db'))
    (hc : (height = 0 ∧ ∀ e ∈ db.senders, 0 < recordBlock e) ∨ (2 ≤ height ∧ ∀ e ∈ db.senders, recordBlock e ≤ height)) :
    ∀ e, e ∈ db'.senders ↔ e ∈ db.senders ∧ recordBlock e ≤ height := by
  intro e
  rcases hc with ⟨rfl, hc⟩ | ⟨h2, hc⟩
  · rw [c99_one_violated db 0 (by omega) db' h]
    constructor
    · intro he; cases he
    · rintro ⟨he, hle⟩
      have := hc e he
      omega
  · rw [c99_kept_violated db height h2 h0 db' h]
    exact ⟨fun he => ⟨he, hc e he⟩, fun he => he.1⟩

/-- C99 fails for the stage: the transaction is never committed. -/
theorem c99_stage_violated (db : Database) (height : Nat) (r : StageResult × Database) (h : unwindSenders db height = .ok r) :
    r.2 = db := by
  unfold unwindSenders at h
  obtain ⟨_, _, h⟩ := Outcome.bind_eq_ok.mp h
  rw [← Outcome.ok.inj h]

/-- C99 is violated: after unwinding to block 3 the senders of block 4 are still there. -/
theorem c99_violated : ¬ C99_statement := by
  intro h
  have h1 := h exFullDone 3 _ (by decide +kernel) (by decide +kernel) (by decide)
    (show unwindFarm exFullDone 3 = .ok (.success, { exFullDone with
      stageProgress := [(ascii "Bodies", beFixed 8 4), (ascii "Senders", beFixed 8 3)] }) by decide +kernel)
    (beFixed 8 4 ++ exWord 84, exSenderOf exLegacy)
  have h2 := (h1.mp (by decide +kernel)).2
  revert h2
  decide +kernel

example : ∃ db', unwindFarm exFullDone 1 = .ok (.success, db') ∧ db'.senders = [] :=
  ⟨{ exFullDone with senders := [], stageProgress := [(ascii "Bodies", beFixed 8 4), (ascii "Senders", beFixed 8 1)] },
    by decide +kernel, rfl⟩
example : ∃ r, unwindSenders exFullDone 1 = .ok r ∧ r.2 = exFullDone := ⟨(.success, exFullDone), by decide +kernel, rfl⟩
example : ∀ e, e ∈ exFullDone.senders ↔ e ∈ exFullDone.senders ∧ recordBlock e ≤ 4 :=
  c99_partial exFullDone 4 { exFullDone with stageProgress := [(ascii "Bodies", beFixed 8 4), (ascii "Senders", beFixed 8 4)] }
    (by decide +kernel) (by decide +kernel) (.inr ⟨by decide, by decide +kernel⟩)

end Silkworm.Properties
