import Verif.Db.GenesisLemmas
import Verif.Db.BlockLemmas
import Verif.Properties.BufferRoot
import Verif.Properties.Block

/-!
# C120, C121, C122: the genesis block
-/

namespace Silkworm.Properties

open Silkworm Silkworm.Db Silkworm.Genesis Silkworm.Spec Silkworm.Rlp

/-! ## The accounts -/

/-- The accounts that the program makes. -/
def plainWorld (ws : List (Bytes × Nat)) : List (Bytes × Account × List (Bytes × Bytes)) :=
  ws.map fun w => (w.1, { balance := w.2 }, [])

theorem genesis_reached {ws : List (Bytes × Nat)} {b : Db.Buffer} (h : ({} : Db.Buffer).applyAll (allocCalls ws) = .ok b)
    (hl : ∀ w ∈ ws, w.1.length = 20 ∧ w.2 < 2 ^ 256) : Reached (allocCalls ws) b := by
  refine ⟨?_, h⟩
  intro c hc
  obtain ⟨w, hw, rfl⟩ := List.mem_map.mp hc
  obtain ⟨h1, h2⟩ := hl w hw
  refine ⟨h1, ?_, ?_⟩
  · intro x hx; cases hx
  · intro x hx
    rw [← Option.some.inj hx]
    exact ⟨(by decide : 0 < 2 ^ 64), h2, (by decide +kernel : kEmptyHash.length = 32), (by decide : 0 < 2 ^ 64)⟩

theorem genesis_accounts {ws : List (Bytes × Nat)} {b : Db.Buffer} (h : ({} : Db.Buffer).applyAll (allocCalls ws) = .ok b)
    (hn : (ws.map (·.1)).Nodup) (a : Bytes) (x : Option Account) :
    b.accounts.get? a = some x ↔ ∃ n, (a, n) ∈ ws ∧ x = some { balance := n } := by
  obtain ⟨_, h2, _⟩ := applyAll_alloc h rfl
  rw [h2]
  have hg := foldl_set_get (fun w : Bytes × Nat => w.1) (fun w => some ({ balance := w.2 } : Account)) (m := ({} : Db.Buffer).accounts) hn a
  rw [hg]
  cases hf : ws.find? (fun w => w.1 = a) with
  | none =>
    refine ⟨fun hc => (by cases hc), ?_⟩
    rintro ⟨n, hm, _⟩
    exact absurd (by simp) (List.find?_eq_none.mp hf _ hm)
  | some w =>
    have hwa : w.1 = a := by simpa using List.find?_some hf
    have hwm := List.mem_of_find?_eq_some hf
    constructor
    · intro hx
      exact ⟨w.2, by rw [← hwa]; exact hwm, (Option.some.inj hx).symm⟩
    · rintro ⟨n, hm, rfl⟩
      have h1 := AMap.get?_of_mem (m := ws) hn hm
      have h2 := AMap.get?_of_mem (m := ws) hn (show (a, w.2) ∈ ws by rw [← hwa]; exact hwm)
      rw [h1] at h2
      rw [Option.some.inj h2]

theorem genesis_reads (r : Bytes → Option (List Nat)) {ws : List (Bytes × Nat)} {b : Db.Buffer}
    (h : ({} : Db.Buffer).applyAll (allocCalls ws) = .ok b) (hl : ∀ w ∈ ws, w.1.length = 20) (hn : (ws.map (·.1)).Nodup) :
    ReadsAs r {} b (plainWorld ws) := by
  have hs : b.storage = [] := (applyAll_alloc h rfl).2.2.2.1
  refine ⟨?_, ?_, ?_, ?_, ?_, ?_⟩
  · unfold plainWorld
    rw [List.map_map]
    exact hn
  · intro w hw
    obtain ⟨v, hv, rfl⟩ := List.mem_map.mp hw
    exact hl v hv
  · intro a x _
    have hread : Db.Buffer.readAccount r {} none b a = .ok (some x) ↔ b.accounts.get? a = some (some x) := by
      unfold Db.Buffer.readAccount
      cases b.accounts.get? a with
      | none => exact ⟨fun h => (by cases h), fun h => (by cases h)⟩
      | some y => exact ⟨fun h => congrArg some (Outcome.ok.inj h), fun h => by rw [Option.some.inj h]⟩
    rw [hread, genesis_accounts h hn]
    unfold plainWorld
    constructor
    · rintro ⟨n, hm, hx⟩
      exact ⟨[], List.mem_map.mpr ⟨_, hm, by rw [Option.some.inj hx]⟩⟩
    · rintro ⟨st, hm⟩
      obtain ⟨v, hv, he⟩ := List.mem_map.mp hm
      obtain ⟨e1, e2⟩ := Prod.mk.inj he
      exact ⟨v.2, by rw [← e1]; exact hv, by rw [← (Prod.mk.inj e2).1]⟩
  · intro w hw
    obtain ⟨v, _, rfl⟩ := List.mem_map.mp hw
    exact List.nodup_nil
  · intro w hw e he
    obtain ⟨v, _, rfl⟩ := List.mem_map.mp hw
    cases he
  · intro w hw l v _ _ hv
    obtain ⟨u, _, rfl⟩ := List.mem_map.mp hw
    constructor
    · intro hx
      exfalso
      unfold Db.Buffer.readStorage at hx
      rw [hs] at hx
      exact hv (Outcome.ok.inj hx).symm
    · intro hx; cases hx

theorem says_bounds {parse256 parse64 : Bytes → Option Nat} (hp : GenesisNumbers parse256 parse64)
    {items : List (Bytes × Allocation)} {ws : List (Bytes × Nat)} (h : List.Forall₂ (Says parse256) items ws) :
    ∀ w ∈ ws, w.1.length = 20 ∧ w.2 < 2 ^ 256 := by
  induction h with
  | nil => intro w hw; cases hw
  | cons h1 _ ih =>
    intro w hw
    rcases List.mem_cons.mp hw with rfl | hw
    · obtain ⟨text, _, _, h2, h3⟩ := h1
      exact ⟨h2, hp.wide _ _ h3⟩
    · exact ih w hw

/-- What the buffer and the database are after the allocations. -/
theorem genesis_state {keccak : Bytes → Bytes} {parse256 parse64 : Bytes → Option Nat} (hk : GenesisHash keccak)
    (hp : GenesisNumbers parse256 parse64) {d : Document} {b : Db.Buffer} {db : Database} (hc : complete d = true)
    (h : allocations parse256 {} d.alloc = .ok (b, db)) :
    ∃ ws, GenesisBalances parse256 d ws ∧ (ws.map (·.1)).Nodup ∧ Reached (allocCalls ws) b ∧
      (db = b.writeToDb {} ∨ ws = [] ∧ b = {} ∧ db = {}) ∧ b.stateRootHash keccak = .ok (stateRoot keccak (plainWorld ws)) := by
  have hroot : ∀ {ws : List (Bytes × Nat)}, (ws.map (·.1)).Nodup → (∀ w ∈ ws, w.1.length = 20) → Reached (allocCalls ws) b →
      b.stateRootHash keccak = .ok (stateRoot keccak (plainWorld ws)) := by
    intro ws hn hl hr
    refine c119_state_root_partial keccak (fun _ => none) (allocCalls ws) b _ hr ?_ (genesis_reads _ hr.2 hl hn) ?_
    · intro a n k i hm
      obtain ⟨w, _, hw⟩ := List.mem_map.mp hm
      cases hw
    · refine ⟨hk.length, hk.emptyString, ?_, ?_⟩
      · intro v hv w hw he
        obtain ⟨v', hv', rfl⟩ := List.mem_map.mp hv
        obtain ⟨w', hw', rfl⟩ := List.mem_map.mp hw
        exact hk.addresses _ _ (hl _ hv') (hl _ hw') he
      · intro w hw e he
        obtain ⟨w', hw', rfl⟩ := List.mem_map.mp hw
        cases he
  cases ha : d.alloc with
  | notObject =>
    unfold complete at hc
    rw [ha] at hc
    simp [AllocMember.fits] at hc
  | absent =>
    rw [ha] at h
    obtain ⟨e1, e2⟩ := Prod.mk.inj (Outcome.ok.inj h)
    subst e1 e2
    have hr : Reached (allocCalls []) {} := ⟨fun c hc => (by cases hc), rfl⟩
    exact ⟨[], .inr ⟨ha, rfl⟩, List.nodup_nil, hr, .inr ⟨rfl, rfl, rfl⟩,
      hroot List.nodup_nil (fun w hw => (by cases hw)) hr⟩
  | object items =>
    rw [ha] at h
    obtain ⟨ws, h1, h2, h3, _, h5⟩ := allocations_ok.mp h
    have hb := says_bounds hp h1
    have hr := genesis_reached h2 hb
    exact ⟨ws, .inl ⟨items, ha, says_iff _ ▸ h1⟩, h3, hr, .inl h5, hroot h3 (fun w hw => (hb w hw).1) hr⟩

/-! ## C120 -/

/-- C120 as stated: what is initialised is the genesis block of the document. -/
def C120_statement : Prop :=
  ∀ (keccak : Bytes → Bytes) (parse256 parse64 : Bytes → Option Nat), GenesisHash keccak → GenesisNumbers parse256 parse64 →
    ∀ (d : Document) (h : BlockHeader) (i : Initialised), initialise keccak parse256 parse64 d = .ok (h, i) →
      IsGenesis keccak parse256 parse64 d h

/-- The allocations have nothing but balances. -/
def OnlyBalances (d : Document) : Prop :=
  ∀ items, d.alloc = .object items → ∀ item ∈ items, item.2.nonce = 0 ∧ item.2.code = [] ∧ item.2.storage = []

theorem says_allocates {keccak : Bytes → Bytes} {parse256 : Bytes → Option Nat} (hk : keccak [] = kEmptyHash)
    {items : List (Bytes × Allocation)} {ws : List (Bytes × Nat)} (h : List.Forall₂ (Says parse256) items ws)
    (ho : ∀ item ∈ items, item.2.nonce = 0 ∧ item.2.code = [] ∧ item.2.storage = []) :
    List.Forall₂ (Allocates keccak parse256) items (plainWorld ws) := by
  induction h with
  | nil => exact .nil
  | @cons item w items ws h1 _ ih =>
    obtain ⟨text, h2, h3, h4, h5⟩ := h1
    obtain ⟨o1, o2, o3⟩ := ho _ List.mem_cons_self
    refine .cons ⟨(hexBytes_iff _ _).mpr h3, h4, ⟨text, h2, h5⟩, o1.symm, ?_, o3.symm⟩
      (ih fun x hx => ho x (List.mem_cons_of_mem _ hx))
    rw [o2, hk]

/-- C120 for documents with nothing but balances, extra data in hexadecimal and a nonce that is the same read backwards. In full
there would be no such conditions. -/
theorem c120_genesis_partial (keccak : Bytes → Bytes) (parse256 parse64 : Bytes → Option Nat) (hk : GenesisHash keccak)
    (hp : GenesisNumbers parse256 parse64) (d : Document) (h : BlockHeader) (i : Initialised)
    (hi : initialise keccak parse256 parse64 d = .ok (h, i)) (hb : OnlyBalances d) (hx : ∃ b, BytesMember d.extraData b)
    (hn : ∀ n, NumberMember parse64 d.nonce n → (beFixed 8 n).reverse = beFixed 8 n) :
    IsGenesis keccak parse256 parse64 d h := by
  obtain ⟨hc, j, text, c, _, _, b, db, h3, h4, _⟩ := initialise_ok.mp hi
  obtain ⟨ws, s1, _, _, _, s5⟩ := genesis_state hk hp hc h3
  obtain ⟨extra, mix, r, dn, gn, tn, nn, e1, e2, e3, e4, e5, e6, e7, rfl⟩ := header_ok.mp h4
  rw [s5] at e3
  obtain ⟨xb, xs, x1, x2⟩ := hx
  have hxe : xs = extra := Member.string.inj (x1.symm.trans e1)
  rw [hxe, hexBytes_iff] at x2
  refine ⟨rfl, rfl, rfl, rfl, rfl, rfl, hk.emptyList.symm, hk.emptyString.symm, hk.emptyString.symm, ?_, e4, e5, e6, ?_, ?_, ?_⟩
  · refine ⟨plainWorld ws, ?_, (Outcome.ok.inj e3).symm⟩
    unfold GenesisWorld
    rcases s1 with ⟨items, a1, a2⟩ | ⟨a1, rfl⟩
    · rw [a1]
      exact says_allocates hk.empty (says_iff _ ▸ a2) (hb items a1)
    · rw [a1]
      rfl
  · have he : littleEndian 8 nn = beFixed 8 nn := hn nn e7
    refine ⟨by dsimp only; rw [he, beFixed_length], ?_⟩
    dsimp only
    rw [he, Trie.fromBe_eq, beToNat_beFixed]
    · exact e7
    · obtain ⟨s, _, hs⟩ := e7
      exact hp.narrow _ _ hs
  · refine ⟨extra, e1, (hexBytes_iff _ _).mpr ?_⟩
    dsimp only
    rw [x2]
    rfl
  · rcases mixHash_ok.mp e2 with ⟨m1, m2⟩ | ⟨ms, m1, m2, m3⟩
    · exact ⟨by dsimp only; rw [m2]; rfl, .inl ⟨m1, m2⟩⟩
    · exact ⟨m3, .inr ⟨ms, m1, (hexBytes_iff _ _).mpr m2⟩⟩

/-- C120 is violated by every document whose nonce is not the same read backwards: the bytes of the nonce are stored in the order
of the machine, the least significant first. -/
theorem c120_nonce_violated (keccak : Bytes → Bytes) (parse256 parse64 : Bytes → Option Nat)
    (d : Document) (h : BlockHeader) (i : Initialised)
    (hi : initialise keccak parse256 parse64 d = .ok (h, i)) (n : Nat) (hn : NumberMember parse64 d.nonce n)
    (hr : (beFixed 8 n).reverse ≠ beFixed 8 n) :
    h.nonce = (beFixed 8 n).reverse ∧ ¬ IsGenesis keccak parse256 parse64 d h := by
  obtain ⟨hc, j, text, c, _, _, b, db, h3, h4, _⟩ := initialise_ok.mp hi
  obtain ⟨extra, mix, r, dn, gn, tn, nn, e1, e2, e3, e4, e5, e6, e7, rfl⟩ := header_ok.mp h4
  have hu : ∀ {x y}, NumberMember parse64 d.nonce x → NumberMember parse64 d.nonce y → x = y := by
    rintro x y ⟨s, hs, hx⟩ ⟨t, ht, hy⟩
    rw [Member.string.inj (hs.symm.trans ht), hy] at hx
    exact (Option.some.inj hx).symm
  have hnn := hu hn e7
  subst hnn
  refine ⟨rfl, fun hg => hr ?_⟩
  obtain ⟨g1, g2⟩ := hg.nonce
  have h1 := hu hn g2
  dsimp only at h1 g1
  rw [Trie.fromBe_eq] at h1
  have h2 := beFixed_beToNat (littleEndian 8 n)
  rw [g1, ← h1] at h2
  exact h2.symm

/-- C120 is violated by every document with extra data that is not hexadecimal: there is none in the header. -/
theorem c120_extra_violated (keccak : Bytes → Bytes) (parse256 parse64 : Bytes → Option Nat) (d : Document) (h : BlockHeader)
    (i : Initialised) (hi : initialise keccak parse256 parse64 d = .ok (h, i)) (hx : ¬ ∃ b, BytesMember d.extraData b) :
    h.extraData = [] ∧ ¬ IsGenesis keccak parse256 parse64 d h := by
  obtain ⟨hc, j, text, c, _, _, b, db, h3, h4, _⟩ := initialise_ok.mp hi
  obtain ⟨extra, mix, r, dn, gn, tn, nn, e1, e2, e3, e4, e5, e6, e7, rfl⟩ := header_ok.mp h4
  refine ⟨?_, fun hg => hx ⟨_, hg.extraData⟩⟩
  dsimp only
  cases hf : fromHex extra with
  | none => rfl
  | some y => exact absurd ⟨y, extra, e1, (hexBytes_iff _ _).mpr hf⟩ hx

theorem allocateAll_congr {p : Bytes → Option Nat} {items items' : List (Bytes × Allocation)}
    (h : List.Forall₂ (fun x y => x.1 = y.1 ∧ x.2.balance = y.2.balance) items items') (b : Db.Buffer) :
    allocateAll p b items = allocateAll p b items' := by
  induction h generalizing b with
  | nil => rfl
  | @cons x y xs ys h1 _ ih =>
    unfold allocateAll
    have : allocate p b x = allocate p b y := by
      unfold allocate
      rw [h1.1, h1.2]
    rw [this]
    cases allocate p b y with
    | ok b1 => exact ih b1
    | err e => rfl
    | ub => rfl

/-- Nonces, codes and storage of the allocations have no effect. -/
theorem c120_allocations_violated (keccak : Bytes → Bytes) (parse256 parse64 : Bytes → Option Nat) (d : Document)
    (items items' : List (Bytes × Allocation))
    (h : List.Forall₂ (fun x y => x.1 = y.1 ∧ x.2.balance = y.2.balance) items items') :
    initialise keccak parse256 parse64 { d with alloc := .object items } =
      initialise keccak parse256 parse64 { d with alloc := .object items' } := by
  have ha : allocations parse256 {} (.object items) = allocations parse256 {} (.object items') := by
    unfold allocations
    dsimp only
    rw [allocateAll_congr h, forall₂_length h]
  unfold initialise
  have hc : complete { d with alloc := .object items } = complete { d with alloc := .object items' } := rfl
  rw [hc]
  dsimp only
  rw [ha]
  rfl

/-! ## C121 -/

/-- C121 as stated: a database is initialised from exactly the valid documents. -/
def C121_statement : Prop :=
  ∀ (keccak : Bytes → Bytes) (parse256 parse64 : Bytes → Option Nat), GenesisHash keccak → GenesisNumbers parse256 parse64 →
    ∀ d : Document, (∃ r, initialise keccak parse256 parse64 d = .ok r) ↔ GenesisValid parse256 parse64 d

theorem number_present {p : Bytes → Option Nat} {m : Member} (h : ∃ n, NumberMember p m n) : m.present = true := by
  obtain ⟨n, s, rfl, _⟩ := h
  rfl

/-- From a valid document the header is made. -/
theorem genesis_before {keccak : Bytes → Bytes} {parse256 parse64 : Bytes → Option Nat} (hk : GenesisHash keccak)
    (hp : GenesisNumbers parse256 parse64) {d : Document} (hv : GenesisValid parse256 parse64 d) (ha : d.alloc ≠ .object []) :
    ∃ h text db, initialise keccak parse256 parse64 d = (write keccak h text db).bind (fun i => .ok (h, i)) ∧
      NumberMember parse256 d.difficulty h.difficulty := by
  obtain ⟨j, text, c, h1, h2⟩ := hv.config
  obtain ⟨dn, e4⟩ := hv.difficulty
  obtain ⟨gn, e5⟩ := hv.gasLimit
  obtain ⟨tn, e6⟩ := hv.timestamp
  obtain ⟨nn, e7⟩ := hv.nonce
  obtain ⟨xb, extra, e1, _⟩ := hv.extraData
  have hmix : ∃ mix, mixHash d.mixhash = .ok mix := by
    rcases hv.mixHash with ⟨b, hb, s, hs, hh⟩ | ⟨hm, _⟩
    · exact ⟨b, mixHash_ok.mpr (.inr ⟨s, hs, (hexBytes_iff _ _).mp hh, hb⟩)⟩
    · exact ⟨_, mixHash_ok.mpr (.inl ⟨hm, rfl⟩)⟩
  obtain ⟨mix, e2⟩ := hmix
  have hc : complete d = true := by
    have hm : d.config.fits d.mixhash = true := by
      rcases hv.mixHash with ⟨b, hb, s, hs, hh⟩ | ⟨hm, hj⟩
      · rw [hs, h1]; simp [ConfigMember.fits, Member.isString]
      · rw [h1]; simp [ConfigMember.fits, hj j text h1]
    have hal : d.alloc.fits = true := by
      rcases hv.alloc with ⟨ws, ⟨items, h, _⟩ | ⟨h, _⟩, _⟩ <;> rw [h] <;> rfl
    unfold complete
    rw [number_present ⟨dn, e4⟩, number_present ⟨gn, e5⟩, number_present ⟨tn, e6⟩, number_present ⟨nn, e7⟩, e1, hm, hal]
    rfl
  have hall : ∃ b db, allocations parse256 {} d.alloc = .ok (b, db) := by
    rcases hv.alloc with ⟨ws, ⟨items, h, hw⟩ | ⟨h, _⟩, hn⟩
    rotate_left
    · rw [h]
      exact ⟨_, _, rfl⟩
    · have hs : List.Forall₂ (Says parse256) items ws := says_iff _ ▸ hw
      obtain ⟨b, hb⟩ := c82_calls (allocCalls ws) {}
      rw [h]
      refine ⟨b, _, allocations_ok.mpr ⟨ws, hs, hb, hn, ?_, rfl⟩⟩
      rintro rfl
      cases hw
      exact ha h
  obtain ⟨b, db, h3⟩ := hall
  obtain ⟨ws, _, _, _, _, s5⟩ := genesis_state hk hp hc h3
  have h4 := header_ok.mpr ⟨extra, mix, _, dn, gn, tn, nn, e1, e2, s5, e4, e5, e6, e7, rfl⟩
  exact ⟨_, text, db, initialise_eq hc h1 h2 h3 h4, e4⟩

/-- C121 for documents that do not have an empty list of allocations, extra data that is not hexadecimal or a difficulty of 2^248
or more. In full it would hold of all documents. -/
theorem c121_valid_partial (keccak : Bytes → Bytes) (parse256 parse64 : Bytes → Option Nat) (hk : GenesisHash keccak)
    (hp : GenesisNumbers parse256 parse64) (d : Document) (ha : d.alloc ≠ .object [])
    (hx : ∀ s, d.extraData = .string s → ∃ b, HexBytes s b) (hd : ∀ n, NumberMember parse256 d.difficulty n → n < 2 ^ 248) :
    (∃ r, initialise keccak parse256 parse64 d = .ok r) ↔ GenesisValid parse256 parse64 d := by
  constructor
  · rintro ⟨⟨h, i⟩, hi⟩
    obtain ⟨hc, j, text, c, h1, h2, b, db, h3, h4, _⟩ := initialise_ok.mp hi
    obtain ⟨ws, s1, s2, _, _, s5⟩ := genesis_state hk hp hc h3
    obtain ⟨extra, mix, r, dn, gn, tn, nn, e1, e2, e3, e4, e5, e6, e7, rfl⟩ := header_ok.mp h4
    refine ⟨⟨dn, e4⟩, ⟨gn, e5⟩, ⟨tn, e6⟩, ⟨nn, e7⟩, ?_, ?_, ⟨j, text, c, h1, h2⟩, ?_⟩
    · obtain ⟨b, hb⟩ := hx extra e1
      exact ⟨b, extra, e1, hb⟩
    · rcases mixHash_ok.mp e2 with ⟨m1, m2⟩ | ⟨ms, m1, m2, m3⟩
      · right
        refine ⟨m1, fun j' text' hj => ?_⟩
        obtain ⟨ej, _⟩ := ConfigMember.object.inj (h1.symm.trans hj)
        rw [← ej]
        unfold complete at hc
        rw [h1, m1] at hc
        cases hj2 : j "ethash" with
        | none => rfl
        | some v => simp [ConfigMember.fits, Member.isString, hj2] at hc
      · exact .inl ⟨mix, m3, ms, m1, (hexBytes_iff _ _).mpr m2⟩
    · exact ⟨ws, s1, s2⟩
  · intro hv
    obtain ⟨h, text, db, h1, h2⟩ := genesis_before hk hp hv ha
    have h5 := (write_ok (keccak := keccak) (h := h) (config := text) (db := db)).mpr ⟨littleEndian_zero (k := 31) (lt_of_lt_of_eq (hd _ h2) (by norm_num)), rfl⟩
    exact ⟨_, by rw [h1, h5]; rfl⟩

/-- C121 is violated by every document with an empty list of allocations. -/
theorem c121_empty_violated (keccak : Bytes → Bytes) (parse256 parse64 : Bytes → Option Nat) (d : Document)
    (ha : d.alloc = .object []) : ∀ r, initialise keccak parse256 parse64 d ≠ .ok r := by
  rintro ⟨h, i⟩ hi
  obtain ⟨_, _, _, _, _, _, b, db, h3, _⟩ := initialise_ok.mp hi
  rw [ha] at h3
  obtain ⟨ws, hw, _, _, hne, _⟩ := allocations_ok.mp h3
  cases hw
  exact hne rfl

/-- The members that are looked for before anything is done. -/
structure HasMembers (d : Document) : Prop where
  present : ∀ m ∈ [d.difficulty, d.nonce, d.gasLimit, d.timestamp, d.extraData], m ≠ .absent
  config : ∃ j text, d.config = .object j text ∧ (j "ethash" ≠ none → ∃ s, d.mixhash = .string s)
  alloc : d.alloc ≠ .notObject

/-- C121: a document that lacks one of these is refused with messages, and only such a document; what else may be wrong is an
exception or found later. -/
theorem c121_incomplete (keccak : Bytes → Bytes) (parse256 parse64 : Bytes → Option Nat) (d : Document) :
    initialise keccak parse256 parse64 d = .err .incomplete ↔ ¬ HasMembers d := by
  have hm : ∀ m : Member, m.present = true ↔ m ≠ .absent := by
    intro m
    cases m <;> simp [Member.present]
  have hs : ∀ m : Member, m.isString = true ↔ ∃ s, m = .string s := by
    intro m
    cases m <;> simp [Member.isString]
  have hc : complete d = true ↔ HasMembers d := by
    unfold complete
    simp only [Bool.and_eq_true, hm]
    have hf : d.config.fits d.mixhash = true ↔ ∃ j text, d.config = .object j text ∧ (j "ethash" ≠ none → ∃ s, d.mixhash = .string s) := by
      cases hcf : d.config with
      | absent => simp [ConfigMember.fits]
      | notObject => simp [ConfigMember.fits]
      | object j text =>
        cases hj : j "ethash" with
        | none => exact ⟨fun _ => ⟨j, text, rfl, fun h => absurd hj h⟩, fun _ => by simp [ConfigMember.fits, hj]⟩
        | some v =>
          simp only [ConfigMember.fits, hj, Option.isSome_some, Bool.true_and, Bool.not_not, hs]
          refine ⟨fun h => ⟨j, text, rfl, fun _ => h⟩, fun ⟨j', t', h1, h2⟩ => h2 ?_⟩
          cases h1
          rw [hj]
          exact fun h => by cases h
    have ha : d.alloc.fits = true ↔ d.alloc ≠ .notObject := by
      cases d.alloc <;> simp [AllocMember.fits]
    rw [hf, ha]
    constructor
    · rintro ⟨⟨⟨⟨⟨⟨h1, h2⟩, h3⟩, h4⟩, h5⟩, h6⟩, h7⟩
      refine ⟨fun m hm => ?_, h6, h7⟩
      simp only [List.mem_cons, List.not_mem_nil, or_false] at hm
      rcases hm with rfl | rfl | rfl | rfl | rfl <;> assumption
    · rintro ⟨h1, h2, h3⟩
      exact ⟨⟨⟨⟨⟨⟨h1 _ (by simp), h1 _ (by simp)⟩, h1 _ (by simp)⟩, h1 _ (by simp)⟩, h1 _ (by simp)⟩, h2⟩, h3⟩
  rw [← hc]
  unfold initialise
  by_cases h : complete d = true
  · refine iff_of_false ?_ (not_not.mpr h)
    rw [if_neg (by simp [h])]
    split
    · refine bind_ne_incomplete (noThrow_ne_incomplete _) fun c => ?_
      split
      · intro h; cases h
      · refine bind_ne_incomplete (allocations_ne_incomplete _ _ _) fun r => ?_
        refine bind_ne_incomplete (header_ne_incomplete _ _ _ _) fun hd => ?_
        refine bind_ne_incomplete (bind_ne_incomplete ?_ fun _ => fun h => by cases h) fun _ => fun h => by cases h
        unfold Stages.cString
        split <;> intro h <;> cases h
    · rename_i hn
      obtain ⟨j, text, h1, _⟩ := (hc.mp h).config
      exact absurd h1 (hn j text)
  · simp [h]

/-- C121 is violated: with a difficulty none of whose bytes is zero the program reads past the end of the number. -/
theorem c121_difficulty_violated (keccak : Bytes → Bytes) (parse256 parse64 : Bytes → Option Nat) (hk : GenesisHash keccak)
    (hp : GenesisNumbers parse256 parse64) (d : Document) (hv : GenesisValid parse256 parse64 d) (ha : d.alloc ≠ .object [])
    (n : Nat) (hn : NumberMember parse256 d.difficulty n) (hz : (0 : UInt8) ∉ beFixed 32 n) :
    initialise keccak parse256 parse64 d = .ub := by
  obtain ⟨h, text, db, h1, s, h2, h3⟩ := genesis_before hk hp hv ha
  obtain ⟨t, h4, h5⟩ := hn
  rw [Member.string.inj (h4.symm.trans h2), h3] at h5
  rw [h1, write_ub]
  · rfl
  · unfold littleEndian
    rw [List.mem_reverse, Option.some.inj h5]
    exact hz

/-! ## C122 -/

/-- C122 as stated: the block, its number, its difficulty, the accounts and the configuration are read back. -/
def C122_statement : Prop :=
  ∀ (keccak : Bytes → Bytes) (parse256 parse64 : Bytes → Option Nat) (parseJson : Bytes → ChainConfig.JsonObject)
    (r : Bytes → Option (List Nat)), GenesisHash keccak → GenesisNumbers parse256 parse64 →
    ∀ (d : Document) (h : BlockHeader) (i : Initialised), initialise keccak parse256 parse64 d = .ok (h, i) →
      h.extraData.length < 2 ^ 63 → (∀ j text, d.config = .object j text → parseJson text = j) →
      (readBlock i.db 0 true = .ok (some ({ header := h }, keccak (rlp (headerItem h))))) ∧
      (readHeader i.db 0 (keccak (rlp (headerItem h))) = .ok (some h)) ∧
      (readBody i.db 0 (keccak (rlp (headerItem h))) true = .ok (some {})) ∧
      (readTotalDifficulty i.db 0 (keccak (rlp (headerItem h))) = .ok (some h.difficulty)) ∧
      (∀ j text, d.config = .object j text → readChainConfig parseJson i.db = ChainConfig.fromJson j) ∧
      ∀ ws, GenesisBalances parse256 d ws → ∀ a, a.length = 20 →
        (∀ n, (a, n) ∈ ws → Db.Buffer.readAccount r i.db none {} a = .ok (some { balance := n })) ∧
        ((∀ n, (a, n) ∉ ws) → Db.Buffer.readAccount r i.db none {} a = .ok none)

theorem genesis_header {keccak : Bytes → Bytes} {parse256 parse64 : Bytes → Option Nat} (hk : GenesisHash keccak)
    (hp : GenesisNumbers parse256 parse64) {d : Document} {h : BlockHeader} {i : Initialised}
    (hi : initialise keccak parse256 parse64 d = .ok (h, i)) (hx : h.extraData.length < 2 ^ 63) : h.WF := by
  obtain ⟨hc, j, text, c, _, _, b, db, h3, h4, _⟩ := initialise_ok.mp hi
  obtain ⟨ws, _, _, _, _, s5⟩ := genesis_state hk hp hc h3
  obtain ⟨extra, mix, r, dn, gn, tn, nn, e1, e2, e3, ⟨s1, _, e4⟩, ⟨s2, _, e5⟩, ⟨s3, _, e6⟩, _, rfl⟩ := header_ok.mp h4
  rw [s5] at e3
  have k1 : kEmptyListHash.length = 32 := by decide +kernel
  have k2 : kEmptyRoot.length = 32 := by decide +kernel
  refine ⟨List.length_replicate .., k1, List.length_replicate .., ?_, k2, k2, List.length_replicate ..,
    hp.wide _ _ e4, (by decide : 0 < 2 ^ 64), hp.narrow _ _ e5, (by decide : 0 < 2 ^ 64), hp.narrow _ _ e6, hx, ?_, ?_, ?_⟩
  · dsimp only
    rw [← Outcome.ok.inj e3]
    exact hk.length _
  · rcases mixHash_ok.mp e2 with ⟨_, rfl⟩ | ⟨ms, _, _, m3⟩
    · rfl
    · exact m3
  · dsimp only
    unfold littleEndian
    rw [List.length_reverse, beFixed_length]
  · intro f hf; cases hf

/-- C122 for the header, the body and the number of the block, by its hash. In full they would be found by the number as well. -/
theorem c122_header_partial (keccak : Bytes → Bytes) (parse256 parse64 : Bytes → Option Nat) (hk : GenesisHash keccak)
    (hp : GenesisNumbers parse256 parse64) (d : Document) (h : BlockHeader) (i : Initialised)
    (hi : initialise keccak parse256 parse64 d = .ok (h, i)) (hx : h.extraData.length < 2 ^ 63) :
    readHeader i.db 0 (keccak (rlp (headerItem h))) = .ok (some h) ∧
    readBody i.db 0 (keccak (rlp (headerItem h))) true = .ok (some {}) ∧
    readBody i.db 0 (keccak (rlp (headerItem h))) false = .ok (some {}) ∧
    i.db.headerNumbers.find (keccak (rlp (headerItem h))) = some (keccak (rlp (headerItem h)), beFixed 8 0) ∧
    i.headHeader = [(ascii "LastHeader", keccak (rlp (headerItem h)))] ∧
    (∀ j text, d.config = .object j text →
      i.db.config.find (keccak (rlp (headerItem h))) = some (keccak (rlp (headerItem h)), text)) := by
  have hw := genesis_header hk hp hi hx
  obtain ⟨hc, j, text, c, h1, _, b, db, h3, h4, h5⟩ := initialise_ok.mp hi
  obtain ⟨_, h6⟩ := write_ok.mp h5
  rw [header_spec hw] at h6
  change i = _ at h6
  have hrlp : rlp (.list (headerItems h false)) = rlp (headerItem h) := rfl
  rw [hrlp] at h6
  generalize hash_eq : keccak (rlp (headerItem h)) = hash at *
  have hsend : i.db.senders = [] := by
    obtain ⟨ws, _, _, _, s4, _⟩ := genesis_state hk hp hc h3
    rw [h6]
    rcases s4 with rfl | ⟨_, _, rfl⟩ <;> rfl
  have hdec : decodeStoredBlockBody [195, 128, 128, 192] = .ok (⟨0, 0, []⟩, []) := by decide +kernel
  have hbody : i.db.blockBodies.find (blockHashKey 0 hash) = some (blockHashKey 0 hash, [195, 128, 128, 192]) := by
    rw [h6]; exact Table.find_upsert_same _ _ _
  refine ⟨?_, ?_, ?_, ?_, ?_, ?_⟩
  · unfold readHeader
    rw [h6, Table.find_upsert_same]
    dsimp only
    have := decHeader hw []
    rw [List.append_nil] at this
    rw [this]
    rfl
  · unfold readBody
    rw [hbody]
    dsimp only
    rw [hdec]
    show ((readTransactions i.db.ethTx 0 0).bind fun txs => _) = _
    unfold readTransactions readSenders
    rw [hsend]
    rfl
  · unfold readBody
    rw [hbody]
    dsimp only
    rw [hdec]
    show ((readTransactions i.db.ethTx 0 0).bind fun txs => _) = _
    unfold readTransactions
    rfl
  · rw [h6]; exact Table.find_upsert_same _ _ _
  · rw [h6]
  · intro j' text' hj
    obtain ⟨_, et⟩ := ConfigMember.object.inj (h1.symm.trans hj)
    rw [h6, ← et]; exact Table.find_upsert_same _ _ _

theorem says_unique {parse256 : Bytes → Option Nat} {items : List (Bytes × Allocation)} {xs ys : List (Bytes × Nat)}
    (hx : List.Forall₂ (Says parse256) items xs) (hy : List.Forall₂ (Says parse256) items ys) : xs = ys := by
  induction hx generalizing ys with
  | nil => cases hy; rfl
  | @cons item x items xs h1 _ ih =>
    cases hy with
    | @cons _ y _ ys h2 h3 =>
      obtain ⟨t, p1, p2, _, p4⟩ := h1
      obtain ⟨u, q1, q2, _, q4⟩ := h2
      have hxy : x = y := by
        refine Prod.ext (Option.some.inj (p2.symm.trans q2)) (Option.some.inj (p4.symm.trans ?_))
        rw [← q4, Option.some.inj (p1.symm.trans q1)]
      rw [ih h3, hxy]

/-- C122 for the accounts. -/
theorem c122_accounts (keccak : Bytes → Bytes) (parse256 parse64 : Bytes → Option Nat) (r : Bytes → Option (List Nat))
    (hk : GenesisHash keccak) (hp : GenesisNumbers parse256 parse64) (d : Document) (h : BlockHeader) (i : Initialised)
    (hi : initialise keccak parse256 parse64 d = .ok (h, i)) (ws : List (Bytes × Nat)) (hws : GenesisBalances parse256 d ws) (a : Bytes)
    (ha : a.length = 20) :
    (∀ n, (a, n) ∈ ws → Db.Buffer.readAccount r i.db none {} a = .ok (some { balance := n })) ∧
    ((∀ n, (a, n) ∉ ws) → Db.Buffer.readAccount r i.db none {} a = .ok none) := by
  obtain ⟨hc, j, text, c, _, _, b, db, h3, h4, h5⟩ := initialise_ok.mp hi
  obtain ⟨ws', s1, s2, s3, s4, _⟩ := genesis_state hk hp hc h3
  obtain ⟨_, h6⟩ := write_ok.mp h5
  have hsame : ws = ws' := by
    rcases hws with ⟨items, a1, a2⟩ | ⟨a1, a2⟩ <;> rcases s1 with ⟨items', b1, b2⟩ | ⟨b1, b2⟩
    · rw [a1] at b1
      rw [← AllocMember.object.inj b1] at b2
      exact says_unique (says_iff _ ▸ a2) (says_iff _ ▸ b2)
    · rw [a1] at b1; cases b1
    · rw [a1] at b1; cases b1
    · rw [a2, b2]
  rw [hsame]
  have hstate : Db.Buffer.readAccount r i.db none {} a = Db.Buffer.readAccount r db none {} a := by
    rw [h6]
    rfl
  have hprefix : b.storagePrefixToCodeHash = [] := (applyAll_alloc s3.2 rfl).2.2.2.2
  have hread : Db.Buffer.readAccount r db none {} a = Db.Buffer.readAccount r {} none b a := by
    rcases s4 with rfl | ⟨_, rfl, rfl⟩
    · refine c82_accounts_partial r _ b s3 {} ?_ a ha (Nat.zero_le _) ?_ ?_
      · exact List.Pairwise.nil
      · intro acc hacc hinc
        obtain ⟨n, _, hn⟩ := (genesis_accounts s3.2 s2 a _).mp hacc
        rw [Option.some.inj hn] at hinc
        exact absurd rfl hinc
      · intro _ k
        rw [hprefix]
        rfl
    · rfl
  rw [hstate, hread]
  unfold Db.Buffer.readAccount
  constructor
  · intro n hn
    rw [(genesis_accounts s3.2 s2 a _).mpr ⟨n, hn, rfl⟩]
  · intro hn
    cases hg : b.accounts.get? a with
    | none => rfl
    | some x =>
      obtain ⟨n, hm, _⟩ := (genesis_accounts s3.2 s2 a _).mp hg
      exact absurd hm (hn n)

/-- C122 is violated by every document: the hash is stored under the number and the hash, so that there is no canonical block zero,
and no configuration. -/
theorem c122_canonical_violated (keccak : Bytes → Bytes) (parse256 parse64 : Bytes → Option Nat)
    (parseJson : Bytes → ChainConfig.JsonObject) (hk : GenesisHash keccak) (hp : GenesisNumbers parse256 parse64) (d : Document)
    (h : BlockHeader) (i : Initialised) (hi : initialise keccak parse256 parse64 d = .ok (h, i)) :
    i.db.canonicalHashes.find (beFixed 8 0) = none ∧ (∀ ws, readBlock i.db 0 ws = .ok none) ∧
    readChainConfig parseJson i.db = .ok none := by
  obtain ⟨hc, j, text, c, _, _, b, db, h3, h4, h5⟩ := initialise_ok.mp hi
  obtain ⟨_, _, _, _, s4, _⟩ := genesis_state hk hp hc h3
  obtain ⟨_, h6⟩ := write_ok.mp h5
  have hf : i.db.canonicalHashes.find (blockKey 0) = none := by
    rw [h6]
    show (Table.upsert db.canonicalHashes _ _).find _ = _
    rw [Table.find_upsert_other]
    · rcases s4 with rfl | ⟨_, _, rfl⟩ <;> rfl
    · intro he
      have := congrArg List.length he
      unfold blockKey blockHashKey at this
      rw [List.length_append, beFixed_length, hk.length] at this
      omega
  refine ⟨hf, fun ws => ?_, ?_⟩
  · unfold readBlock
    rw [hf]
  · unfold readChainConfig
    rw [hf]

/-- C122 is violated by every document with a difficulty of zero or from 128 on: the bytes of the number are stored, and read as
RLP. -/
theorem c122_difficulty_violated (keccak : Bytes → Bytes) (parse256 parse64 : Bytes → Option Nat) (hk : GenesisHash keccak)
    (hp : GenesisNumbers parse256 parse64) (d : Document) (h : BlockHeader) (i : Initialised)
    (hi : initialise keccak parse256 parse64 d = .ok (h, i)) (hx : h.extraData.length < 2 ^ 63) :
    readTotalDifficulty i.db 0 (keccak (rlp (headerItem h))) = .ok (some h.difficulty) ↔ 1 ≤ h.difficulty ∧ h.difficulty < 128 := by
  have hw := genesis_header hk hp hi hx
  obtain ⟨hc, j, text, c, h1, _, b, db, h3, h4, h5⟩ := initialise_ok.mp hi
  obtain ⟨_, h6⟩ := write_ok.mp h5
  rw [header_spec hw] at h6
  have hrlp : rlp (.list (headerItems h false)) = rlp (headerItem h) := rfl
  rw [hrlp] at h6
  have hd : i.db.difficulty.find (blockHashKey 0 (keccak (rlp (headerItem h)))) =
      some (blockHashKey 0 (keccak (rlp (headerItem h))), (littleEndian 32 h.difficulty).takeWhile fun x => x != 0) := by
    rw [h6]; exact Table.find_upsert_same _ _ _
  unfold readTotalDifficulty
  rw [hd]
  dsimp only
  have hlt : h.difficulty < 256 ^ 32 := lt_of_lt_of_eq hw.difficulty (by norm_num)
  constructor
  · intro e
    obtain ⟨⟨td, rest⟩, e1, e2⟩ := Outcome.bind_eq_ok.mp e
    have e3 : td = h.difficulty := Option.some.inj (Outcome.ok.inj e2)
    have e4 : decodeUint 32 ((littleEndian 32 h.difficulty).takeWhile fun x => x != 0) = .ok (td, rest) := by
      cases hdec : decodeUint 32 ((littleEndian 32 h.difficulty).takeWhile fun x => x != 0) with
      | ok y => rw [hdec] at e1; exact congrArg Outcome.ok (Outcome.ok.inj e1)
      | err y => rw [hdec] at e1; cases e1
      | ub => rw [hdec] at e1; cases e1
    obtain ⟨_, e5⟩ := decodeUint_inv (by decide) e4
    have hl := congrArg List.length e5
    rw [e3, List.length_append] at hl
    have hle := littleEndian_cut (k := 32) (lt_pow_byteLen h.difficulty)
    by_contra hne
    unfold encodeUint at hl
    by_cases h0 : h.difficulty = 0
    · rw [if_pos h0, List.length_singleton] at hl
      rw [h0] at hle hl
      have : byteLen 0 = 0 := by decide
      omega
    · rw [if_neg h0, if_neg (by omega)] at hl
      dsimp only at hl
      rw [List.length_cons, bigEndian_length hlt] at hl
      omega
  · rintro ⟨h1, h2⟩
    have hcut : (littleEndian 32 h.difficulty).takeWhile (fun x => x != 0) = encodeUint 32 h.difficulty := by
      unfold encodeUint
      rw [if_neg (by omega), if_pos h2]
      exact littleEndian_small (by omega) (by omega)
    have := decodeUint_roundTrip (k := 32) (by decide) hlt []
    rw [List.append_nil] at this
    rw [hcut, this]
    rfl

/-! ## Documents -/

/-- A function with the known hashes that keeps addresses apart. -/
def padHash (x : Bytes) : Bytes :=
  if x.length = 20 then x ++ List.replicate 12 0
  else if x = [] then kEmptyHash else if x = [0xc0] then kEmptyListHash else sumHash x

theorem padHash_fits : GenesisHash padHash := by
  refine ⟨fun x => ?_, by decide +kernel, by decide +kernel, by decide +kernel, fun a b ha hb h => ?_⟩
  · unfold padHash
    split
    · rename_i h
      rw [List.length_append, h, List.length_replicate]
    · split
      · decide +kernel
      · split
        · decide +kernel
        · exact sumHash_length x
  · unfold padHash at h
    rw [if_pos ha, if_pos hb] at h
    exact List.append_cancel_right h

/-- Hexadecimal numbers of up to `k` bytes. -/
def hexParse (k : Nat) (s : Bytes) : Option Nat :=
  match fromHex s with
  | some b => if b.length ≤ k then some (beToNat b) else none
  | none => none

theorem hexParse_fits : GenesisNumbers (hexParse 32) (hexParse 8) := by
  have key : ∀ k s n, hexParse k s = some n → n < 256 ^ k := by
    intro k s n h
    unfold hexParse at h
    split at h
    · split at h
      · rename_i b _ hl
        rw [← Option.some.inj h]
        exact Nat.lt_of_lt_of_le (beToNat_lt b) (Nat.pow_le_pow_right (by decide) hl)
      · cases h
    · cases h
  exact ⟨fun s n h => lt_of_lt_of_eq (key 32 s n h) (by norm_num), fun s n h => lt_of_lt_of_eq (key 8 s n h) (by norm_num)⟩

/-- An address of an allocation. -/
def exGenesisAddress : Bytes := ascii "000d836201318ec6899a67540690382780743280"

/-- A document like that of the main network, with its nonce and one of its allocations. -/
def exMainnet : Document where
  difficulty := .string (ascii "0x0400000000")
  nonce := .string (ascii "0x0000000000000042")
  gasLimit := .string (ascii "0x1388")
  timestamp := .string (ascii "0x00")
  extraData := .string (ascii "0x11bbe8db4e347b4e8c937c1c8370e4b5ed33adb3db69cbdb7a38e1e50b1b82fa")
  mixhash := .string (ascii "0x0000000000000000000000000000000000000000000000000000000000000000")
  config := .object (ChainConfig.toJson kMainnetConfig) (ascii "{}")
  alloc := .object [(exGenesisAddress, { balance := some (ascii "0x0ad78ebc5ac6200000") })]

/-- A document that is initialised as it should be, but for the tables: a small difficulty and no nonce. -/
def exSmall : Document := { exMainnet with difficulty := .string (ascii "0x20"), nonce := .string (ascii "0x00") }

/-- An account with code. -/
def exCoded : Document :=
  { exSmall with alloc := .object [(exGenesisAddress, { balance := some (ascii "0x01"), code := [0x60, 0x00] })] }

theorem genesis_of_check {d : Document}
    (h : (match initialise padHash (hexParse 32) (hexParse 8) d with | .ok _ => true | _ => false) = true) :
    ∃ h i, initialise padHash (hexParse 32) (hexParse 8) d = .ok (h, i) := by
  cases hi : initialise padHash (hexParse 32) (hexParse 8) d with
  | ok r => exact ⟨r.1, r.2, rfl⟩
  | err e => rw [hi] at h; cases h
  | ub => rw [hi] at h; cases h

theorem exMainnet_ok : ∃ h i, initialise padHash (hexParse 32) (hexParse 8) exMainnet = .ok (h, i) :=
  genesis_of_check (by decide +kernel)
theorem exSmall_ok : ∃ h i, initialise padHash (hexParse 32) (hexParse 8) exSmall = .ok (h, i) :=
  genesis_of_check (by decide +kernel)
theorem exCoded_ok : ∃ h i, initialise padHash (hexParse 32) (hexParse 8) exCoded = .ok (h, i) :=
  genesis_of_check (by decide +kernel)

/-- C120 is violated: the document of the main network. -/
theorem c120_violated : ¬ C120_statement := by
  intro h
  obtain ⟨hd, i, hi⟩ := exMainnet_ok
  refine (c120_nonce_violated _ _ _ _ _ _ hi 0x42 ⟨_, rfl, by decide +kernel⟩ (by decide +kernel)).2 ?_
  exact h _ _ _ padHash_fits hexParse_fits _ _ _ hi

/-- The address in bytes. -/
def exGenesisBytes : Bytes := (fromHex exGenesisAddress).getD []

/-- C120 is violated also with a nonce of zero and extra data in hexadecimal: the code of an account is left out. -/
theorem c120_code_violated : ∃ h i, initialise padHash (hexParse 32) (hexParse 8) exCoded = .ok (h, i) ∧
    (∃ b, BytesMember exCoded.extraData b) ∧
    (∀ n, NumberMember (hexParse 8) exCoded.nonce n → (beFixed 8 n).reverse = beFixed 8 n) ∧
    ¬ IsGenesis padHash (hexParse 32) (hexParse 8) exCoded h := by
  obtain ⟨h, i, hi⟩ := exCoded_ok
  refine ⟨h, i, hi, ?_, ?_, ?_⟩
  · refine ⟨(fromHex (ascii "0x11bbe8db4e347b4e8c937c1c8370e4b5ed33adb3db69cbdb7a38e1e50b1b82fa")).getD [], _, rfl, ?_⟩
    rw [hexBytes_iff]
    decide +kernel
  · rintro n ⟨s, hs, hn⟩
    rw [← Member.string.inj hs, show hexParse 8 (ascii "0x00") = some 0 by decide +kernel] at hn
    rw [← Option.some.inj hn]
    decide +kernel
  · intro hg
    obtain ⟨world, hw, hr⟩ := hg.stateRoot
    have hroot : h.stateRoot = stateRoot padHash [(exGenesisBytes, { balance := 1 }, [])] := by
      have : (match initialise padHash (hexParse 32) (hexParse 8) exCoded with
        | .ok r => decide (r.1.stateRoot = stateRoot padHash [(exGenesisBytes, { balance := 1 }, [])])
        | _ => false) = true := by decide +kernel
      rw [hi] at this
      exact of_decide_eq_true this
    cases hw with
    | @cons _ w _ ws h1 h2 =>
      cases h2
      obtain ⟨a, ⟨n, bal, ch, inc⟩, st⟩ := w
      obtain ⟨q1, _, ⟨text, q2, q3⟩, q4, q5, q6⟩ := h1
      dsimp only at q1 q2 q3 q4 q5 q6
      rw [hexBytes_iff] at q1
      have ha : a = exGenesisBytes := by
        unfold exGenesisBytes
        rw [q1]
        rfl
      have hb : bal = 1 := by
        rw [← Option.some.inj q2, show hexParse 32 (ascii "0x01") = some 1 by decide +kernel] at q3
        exact (Option.some.inj q3).symm
      rw [hroot, ha, hb, q4, q5, q6] at hr
      have hne : stateRoot padHash [(exGenesisBytes, { balance := 1 }, [])] ≠
          stateRoot padHash [(exGenesisBytes, ⟨0, 1, padHash [0x60, 0x00], 0⟩, [])] := by decide +kernel
      exact hne hr

/-- A difficulty of 2^256 - 1. -/
def exHuge : Document := { exSmall with
  difficulty := .string (ascii "0xffffffffffffffffffffffffffffffffffffffffffffffffffffffffffffffff") }

/-- Extra data that is no hexadecimal number. -/
def exNoHex : Document := { exSmall with extraData := .string (ascii "silkworm") }

/-- No allocations, in the form of an empty object. -/
def exNoAlloc : Document := { exSmall with alloc := .object [] }

theorem exSmall_valid : GenesisValid (hexParse 32) (hexParse 8) exSmall := by
  refine (c121_valid_partial padHash _ _ padHash_fits hexParse_fits exSmall ?_ ?_ ?_).mp ?_
  · intro h; cases AllocMember.object.inj h
  · intro s hs
    rw [← Member.string.inj hs]
    refine ⟨(fromHex (ascii "0x11bbe8db4e347b4e8c937c1c8370e4b5ed33adb3db69cbdb7a38e1e50b1b82fa")).getD [], ?_⟩
    rw [hexBytes_iff]
    decide +kernel
  · rintro n ⟨s, hs, hn⟩
    rw [← Member.string.inj hs, show hexParse 32 (ascii "0x20") = some 0x20 by decide +kernel] at hn
    rw [← Option.some.inj hn]
    norm_num
  · obtain ⟨h, i, hi⟩ := exSmall_ok
    exact ⟨_, hi⟩

/-- C121 is violated: a document without allocations is refused, one with extra data that is not hexadecimal is accepted, and a
great difficulty leads to undefined behaviour. -/
theorem c121_violated : ¬ C121_statement ∧
    (GenesisValid (hexParse 32) (hexParse 8) exNoAlloc ∧
      initialise padHash (hexParse 32) (hexParse 8) exNoAlloc = .err .noAllocation) ∧
    (¬ GenesisValid (hexParse 32) (hexParse 8) exNoHex ∧ ∃ r, initialise padHash (hexParse 32) (hexParse 8) exNoHex = .ok r) ∧
    (GenesisValid (hexParse 32) (hexParse 8) exHuge ∧ initialise padHash (hexParse 32) (hexParse 8) exHuge = .ub) := by
  have hv := exSmall_valid
  have v1 : GenesisValid (hexParse 32) (hexParse 8) exNoAlloc :=
    ⟨hv.difficulty, hv.gasLimit, hv.timestamp, hv.nonce, hv.extraData, hv.mixHash, hv.config,
      [], .inl ⟨[], rfl, .nil⟩, List.nodup_nil⟩
  have hd : NumberMember (hexParse 32) exHuge.difficulty (2 ^ 256 - 1) := ⟨_, rfl, by decide +kernel⟩
  have v2 : GenesisValid (hexParse 32) (hexParse 8) exHuge :=
    ⟨⟨_, hd⟩, hv.gasLimit, hv.timestamp, hv.nonce, hv.extraData, hv.mixHash, hv.config, hv.alloc⟩
  have v3 : ¬ GenesisValid (hexParse 32) (hexParse 8) exNoHex := by
    intro h
    obtain ⟨b, s, hs, hb⟩ := h.extraData
    rw [← Member.string.inj hs, hexBytes_iff, show fromHex (ascii "silkworm") = none by decide +kernel] at hb
    cases hb
  have i3 : ∃ r, initialise padHash (hexParse 32) (hexParse 8) exNoHex = .ok r := by
    obtain ⟨h, i, hi⟩ := genesis_of_check (d := exNoHex) (by decide +kernel)
    exact ⟨_, hi⟩
  have i1 : initialise padHash (hexParse 32) (hexParse 8) exNoAlloc = .err .noAllocation := by
    have : (match initialise padHash (hexParse 32) (hexParse 8) exNoAlloc with
      | .err e => decide (e = .noAllocation)
      | _ => false) = true := by decide +kernel
    cases hi : initialise padHash (hexParse 32) (hexParse 8) exNoAlloc with
    | ok r => rw [hi] at this; cases this
    | err e => rw [hi] at this; rw [of_decide_eq_true this]
    | ub => rw [hi] at this; cases this
  refine ⟨fun h => ?_, ⟨v1, i1⟩, ⟨v3, i3⟩, v2, ?_⟩
  · exact v3 ((h _ _ _ padHash_fits hexParse_fits exNoHex).mp i3)
  · refine c121_difficulty_violated _ _ _ padHash_fits hexParse_fits exHuge v2 ?_ _ hd (by decide +kernel)
    intro h; cases AllocMember.object.inj h

/-- C122 is violated, by the document of the main network and by the simplest ones. -/
theorem c122_violated : ¬ C122_statement := by
  intro h
  obtain ⟨hd, i, hi⟩ := exSmall_ok
  have hx : hd.extraData.length < 2 ^ 63 := by
    have : (match initialise padHash (hexParse 32) (hexParse 8) exSmall with
      | .ok r => decide (r.1.extraData.length < 2 ^ 63)
      | _ => false) = true := by decide +kernel
    rw [hi] at this
    exact of_decide_eq_true this
  have h1 := (h padHash _ _ (fun _ => ChainConfig.toJson kMainnetConfig) exNoBitmap padHash_fits hexParse_fits exSmall hd i hi hx
    (fun j text e => (ConfigMember.object.inj e).1)).1
  rw [(c122_canonical_violated padHash _ _ (fun _ => ChainConfig.toJson kMainnetConfig) padHash_fits hexParse_fits exSmall hd i
    hi).2.1 true] at h1
  cases Outcome.ok.inj h1

/-- The hypotheses of the theorems are satisfied by this document. -/
example : ∃ h i, initialise padHash (hexParse 32) (hexParse 8) exSmall = .ok (h, i) ∧
    IsGenesis padHash (hexParse 32) (hexParse 8) exSmall h := by
  obtain ⟨h, i, hi⟩ := exSmall_ok
  refine ⟨h, i, hi, c120_genesis_partial _ _ _ padHash_fits hexParse_fits _ _ _ hi ?_ exSmall_valid.extraData ?_⟩
  · intro items hitems item hm
    rw [← AllocMember.object.inj hitems] at hm
    rw [List.mem_singleton.mp hm]
    exact ⟨rfl, rfl, rfl⟩
  · rintro n ⟨s, hs, hn⟩
    rw [← Member.string.inj hs, show hexParse 8 (ascii "0x00") = some 0 by decide +kernel] at hn
    rw [← Option.some.inj hn]
    decide +kernel

/-- The account and the total difficulty of a small number are read back; that of the main network is not. -/
example : (match initialise padHash (hexParse 32) (hexParse 8) exSmall with
    | .ok (h, i) => decide (Db.Buffer.readAccount exNoBitmap i.db none {} exGenesisBytes = .ok (some { balance := 200000000000000000000 })) &&
        decide (readTotalDifficulty i.db 0 (padHash (rlp (headerItem h))) = .ok (some 0x20)) &&
        decide (readHeader i.db 0 (padHash (rlp (headerItem h))) = .ok (some h)) &&
        decide (readBlock i.db 0 true = .ok none)
    | _ => false) = true := by decide +kernel
example : (match initialise padHash (hexParse 32) (hexParse 8) exMainnet with
    | .ok (h, i) => decide (h.nonce = [0x42, 0, 0, 0, 0, 0, 0, 0]) &&
        decide (readTotalDifficulty i.db 0 (padHash (rlp (headerItem h))) ≠ .ok (some 0x0400000000))
    | _ => false) = true := by decide +kernel

end Silkworm.Properties
