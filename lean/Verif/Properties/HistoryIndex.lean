import Verif.Stages.HistoryIndexLemmas
import Verif.Properties.HashState
import Verif.Properties.Bitmap
import Verif.Properties.DbReads

/-!
# C64, C97, C98: the indexes of histories and logs
-/

namespace Silkworm.Properties

open Silkworm.Db Silkworm.Etl Silkworm.Spec Silkworm.Stages

/-! ## C64: the keys of storage history -/

/-- The record is one of a slot: number of the block, address and incarnation, then location and value. -/
def IsSlotRecord (e : Bytes × Bytes) : Prop := e.1.length = 36 ∧ 32 ≤ e.2.length

/-- The address of a record of a slot. -/
def recordAddress (e : Bytes × Bytes) : Bytes := (e.1.drop 8).take 20

/-- The location of a record of a slot. -/
def recordLocation (e : Bytes × Bytes) : Bytes := e.2.take 32

/-- C64 as stated: two records have the same key only if address and location are the same. -/
def C64_statement : Prop :=
  ∀ e f k, IsSlotRecord e → IsSlotRecord f → storageIndexKey e = .ok k → storageIndexKey f = .ok k →
    recordAddress e = recordAddress f ∧ recordLocation e = recordLocation f

/-- The key, exactly: the bytes of address and location before the first zero; reading past the end if there is none. -/
theorem c64_key (e : Bytes × Bytes) (h : IsSlotRecord e) :
    (∀ p s, recordAddress e ++ recordLocation e = p ++ 0 :: s → (0 : UInt8) ∉ p → storageIndexKey e = .ok p) ∧
    ((0 : UInt8) ∉ recordAddress e ++ recordLocation e → storageIndexKey e = .ub) := by
  have hk : storageIndexKey e = cString (recordAddress e ++ recordLocation e) := by
    unfold storageIndexKey
    rw [if_neg (by have := h.1; omega), if_neg (by have := h.1; have := h.2; omega)]
    rfl
  rw [hk]
  unfold cString
  refine ⟨fun p s hp h0 => ?_, fun h0 => if_neg h0⟩
  rw [hp, if_pos (List.mem_append_right _ List.mem_cons_self)]
  congr 1
  clear hp
  induction p with
  | nil => rfl
  | cons x p ih =>
    have hx : x ≠ 0 := fun hx => h0 (hx ▸ List.mem_cons_self)
    rw [List.cons_append, List.takeWhile_cons, if_pos (by simpa using hx), ih fun h => h0 (List.mem_cons_of_mem _ h)]

private theorem firstZero {l : Bytes} (h : (0 : UInt8) ∈ l) : ∃ p s, l = p ++ 0 :: s ∧ (0 : UInt8) ∉ p := by
  induction l with
  | nil => cases h
  | cons x l ih =>
    by_cases hx : x = 0
    · exact ⟨[], l, by rw [hx]; rfl, by simp⟩
    · rcases List.mem_cons.mp h with h | h
      · exact absurd h.symm hx
      · obtain ⟨p, s, h1, h2⟩ := ih h
        refine ⟨x :: p, s, by rw [h1]; rfl, ?_⟩
        rw [List.mem_cons]
        rintro (h | h)
        exacts [hx h.symm, h2 h]

/-- C64 for addresses without a zero byte: records with the same key have the same address. Missing: locations, and other
addresses. -/
theorem c64_address_partial (e f : Bytes × Bytes) (k : Bytes) (he : IsSlotRecord e) (hf : IsSlotRecord f)
    (h0 : (0 : UInt8) ∉ recordAddress e) (h0' : (0 : UInt8) ∉ recordAddress f) (h1 : storageIndexKey e = .ok k)
    (h2 : storageIndexKey f = .ok k) : recordAddress e = recordAddress f := by
  have key : ∀ g : Bytes × Bytes, IsSlotRecord g → (0 : UInt8) ∉ recordAddress g → storageIndexKey g = .ok k →
      k.take 20 = recordAddress g := by
    intro g hg hz hk
    have hl : (recordAddress g).length = 20 := by
      unfold recordAddress
      rw [List.length_take, List.length_drop]
      have := hg.1
      omega
    by_cases hm : (0 : UInt8) ∈ recordLocation g
    · obtain ⟨p, s, hps, hp⟩ := firstZero hm
      have := (c64_key g hg).1 (recordAddress g ++ p) s (by rw [hps, List.append_assoc])
        (by rw [List.mem_append]; rintro (h | h); exacts [hz h, hp h])
      rw [hk] at this
      rw [Outcome.ok.inj this, List.take_append_of_le_length (Nat.le_of_eq hl.symm), List.take_of_length_le (Nat.le_of_eq hl)]
    · have := (c64_key g hg).2 (by rw [List.mem_append]; rintro (h | h); exacts [hz h, hm h])
      rw [hk] at this
      cases this
  rw [← key e he h0 h1, ← key f hf h0' h2]

/-- Address 0x0a00...00: everything after its first byte is lost. -/
def exSlotRecord (last : Nat) (slot : Nat) : Bytes × Bytes :=
  (beFixed 8 4 ++ (10 :: beFixed 19 last) ++ beFixed 8 1, exWord slot ++ [5])

/-- C64 is violated: slots of different contracts have the same key. -/
theorem c64_violated : ¬ C64_statement := by
  intro h
  have := (h (exSlotRecord 1 7) (exSlotRecord 2 8) [10] (by unfold IsSlotRecord; decide +kernel)
    (by unfold IsSlotRecord; decide +kernel) (by decide +kernel) (by decide +kernel)).1
  revert this
  decide +kernel

/-- C64 fails for the stage: keys of records have 36 bytes and the cursor is set to a key of eight exactly, so nothing is ever
indexed. -/
theorem c64_nothing_violated (d : Disk) (R : Roaring) (order : MapOrder) (horder : ∀ m, (order m).Perm m) (db : Database) (p : Nat)
    (hp : getStageProgress db (ascii "StorageHistoryIndex") = .ok p) (h36 : ∀ e ∈ db.storageChangeSet, e.1.length = 36) :
    stageStorageHistory d R order db = .ok (.success, db) := by
  unfold stageStorageHistory historyIndexStage
  simp only [hp, liftDb, Outcome.ok_bind]
  rw [fromKey_absent fun e he hk => ?_]
  · have : order [] = [] := List.Perm.eq_nil (horder [])
    simp only [historyMaps, Outcome.ok_bind, List.flatMap_cons, List.flatMap_nil, flushBitmaps, this, List.map_nil,
      List.append_nil, if_true]
  · have h := h36 e he
    rw [hk] at h
    unfold blockKey at h
    rw [beFixed_length] at h
    cases h

example : storageIndexKey (beFixed 8 4 ++ List.replicate 20 7 ++ beFixed 8 1, exWord 5 ++ [55]) = .ok (List.replicate 20 7) :=
  (c64_key _ ⟨by decide +kernel, by decide +kernel⟩).1 (List.replicate 20 7) (beFixed 31 5) (by decide +kernel) (by decide +kernel)
example : storageIndexKey (beFixed 8 4 ++ List.replicate 20 7 ++ beFixed 8 1, List.replicate 33 1) = .ub :=
  (c64_key _ ⟨by decide +kernel, by decide +kernel⟩).2 (by decide +kernel)
example (f : Bytes × Bytes) (hf : IsSlotRecord f) (h0 : (0 : UInt8) ∉ recordAddress f)
    (h : storageIndexKey f = .ok (List.replicate 20 7 ++ [1])) : recordAddress f = List.replicate 20 7 :=
  (c64_address_partial (beFixed 8 4 ++ List.replicate 20 7 ++ beFixed 8 1, 1 :: beFixed 31 5) f _
    ⟨by decide +kernel, by decide +kernel⟩ hf (by decide +kernel) h0 (by decide +kernel) h).symm.trans (by decide +kernel)

/-! ## C97: the history of accounts -/

/-- A record of the account at this block. -/
def ChangedAt (db : Database) (a : Bytes) (x : Nat) : Prop := ∃ e ∈ db.accountChangeSet, recordBlock e = x ∧ e.2.take 20 = a

/-- The last chunk of a key in an index with suffixes of `w` bytes lists the block. -/
def InLastChunk (R : Roaring) (w : Nat) (t : Table) (k : Bytes) (x : Nat) : Prop :=
  ∃ v bm, t.find (k ++ beFixed w (256 ^ w - 1)) = some (k ++ beFixed w (256 ^ w - 1), v) ∧ R.read v = some bm ∧ x ∈ bm

/-- What is written is read back. -/
def Reads (R : Roaring) : Prop := ∀ bm : List Nat, bm.Pairwise (· < ·) → R.read (R.write bm) = some bm

/-- C97 as stated: after the stage every block from the progress on at which an account was changed is listed in a chunk of its
index. -/
def C97_statement : Prop :=
  ∀ (d : Disk) (R : Roaring) (order : MapOrder) (db db' : Database) (p : Nat), Reads R → (∀ m, (order m).Perm m) →
    MultiOrdered db.accountChangeSet → (∀ e ∈ db.accountChangeSet, e.1.length = 8 ∧ 20 ≤ e.2.length) →
    getStageProgress db (ascii "AccountHistoryIndex") = .ok p → stageAccountHistory d R order db = .ok (.success, db') →
    ∀ a x, a.length = 20 → p ≤ x → ChangedAt db a x →
      ∃ n v bm, (a ++ beFixed 8 n, v) ∈ db'.accountHistory ∧ R.read v = some bm ∧ x ∈ bm

/-- C97 fails whenever the last block processed has no record itself, whatever was changed afterwards: nothing is indexed. -/
theorem c97_gap_violated (d : Disk) (R : Roaring) (order : MapOrder) (horder : ∀ m, (order m).Perm m) (db : Database) (p : Nat)
    (hp : getStageProgress db (ascii "AccountHistoryIndex") = .ok p) (hno : ∀ e ∈ db.accountChangeSet, e.1 ≠ beFixed 8 p) :
    stageAccountHistory d R order db = .ok (.success, db) := by
  unfold stageAccountHistory historyIndexStage
  simp only [hp, liftDb, Outcome.ok_bind]
  rw [show blockKey p = beFixed 8 p from rfl, fromKey_absent hno]
  have : order [] = [] := List.Perm.eq_nil (horder [])
  simp only [historyMaps, Outcome.ok_bind, List.flatMap_cons, List.flatMap_nil, flushBitmaps, this, List.map_nil,
    List.append_nil, if_true]

/-- C97 fails for an account with too many blocks for a chunk: the largest one is lost. -/
theorem c97_cut_violated (R : Roaring) (append : Bool) (t : Table) (e : Entry) (bm : List Nat) (hr : R.read e.value = some bm)
    (hs : bm.Pairwise (· < ·)) (h2 : 2 ≤ bm.length) (hm : ∀ x ∈ bm, x < 2 ^ 32) (hbig : kBitmapChunkLimit < (R.write bm).length)
    (hnew : t.find (e.key ++ beFixed 8 (256 ^ 8 - 1)) = none) :
    loadChunks 8 Bitmap.cutLeft64 R append t e =
      .ok (put append t (e.key ++ beFixed 8 (256 ^ 8 - 1)) (R.write bm.dropLast)) := by
  have hb : bm ≠ [] := by rintro rfl; simp at h2
  have := (c49_cut64_partial (fun c => (R.write c).length) kBitmapChunkLimit bm hb hs hm bm.length (by omega)).2.1 hbig h2
  unfold loadChunks
  rw [hr]
  dsimp only
  rw [hnew]
  dsimp only
  unfold cutChunks
  rw [this]
  rfl

theorem bits_last (R : Roaring) (w : Nat) (t : Table) (k : Bytes) (x : Nat) : x ∈ bitsAt R w t k ↔ InLastChunk R w t k x := by
  unfold bitsAt InLastChunk
  rw [show k ++ beFixed w (256 ^ w - 1) = lastKey w k from rfl]
  cases h : t.find (lastKey w k) with
  | none => simp
  | some p =>
    obtain ⟨j, v⟩ := p
    have hj : j = lastKey w k := by simpa using List.find?_some h
    subst hj
    constructor
    · intro hx
      cases hr : R.read v with
      | none => simp [hr] at hx
      | some bm => exact ⟨v, bm, rfl, hr, by simpa [hr] using hx⟩
    · rintro ⟨v', bm, h1, h2, h3⟩
      have := (Prod.mk.inj (Option.some.inj h1)).2
      subst this
      simpa [h2] using h3

/-- C97 where the last block processed has a record: all blocks from there on are listed, and no others, if the blocks of each
account fit one chunk; other keys stay as they are, and the stage has reached the last block with a record. Missing: everything
else. -/
theorem c97_accounts_partial (d : Disk) (R : Roaring) (order : MapOrder) (db db' : Database) (p : Nat) (hR : Reads R)
    (horder : ∀ m, (order m).Perm m) (ho : MultiOrdered db.accountChangeSet)
    (hl : ∀ e ∈ db.accountChangeSet, e.1.length = 8 ∧ 20 ≤ e.2.length)
    (hp : getStageProgress db (ascii "AccountHistoryIndex") = .ok p) (h64 : p < 2 ^ 64)
    (hpres : ∃ v, (beFixed 8 p, v) ∈ db.accountChangeSet) (h0 : p = 0 → db.accountHistory = [])
    (hidx : ∀ a e, a.length = 20 → db.accountHistory.find (a ++ beFixed 8 (256 ^ 8 - 1)) = some e →
      ∃ bm, R.read e.2 = some bm ∧ bm.Pairwise (· < ·))
    (hsmall : ∀ a bm, a.length = 20 → bm.Pairwise (· < ·) →
      (∀ x ∈ bm, ChangedAt db a x ∨ InLastChunk R 8 db.accountHistory a x) →
      (R.write bm).length ≤ 1950 ∧ ∀ x ∈ bm, x < 2 ^ 32)
    (h : stageAccountHistory d R order db = .ok (.success, db')) :
    (∀ a x, a.length = 20 → (InLastChunk R 8 db'.accountHistory a x ↔
      InLastChunk R 8 db.accountHistory a x ∨ p ≤ x ∧ ChangedAt db a x)) ∧
    (∀ j, (∀ a, a.length = 20 → j ≠ a ++ beFixed 8 (256 ^ 8 - 1)) → db'.accountHistory.find j = db.accountHistory.find j) ∧
    ∃ e ∈ db.accountChangeSet, (∀ f ∈ db.accountChangeSet, recordBlock f ≤ recordBlock e) ∧
      getStageProgress db' (ascii "AccountHistoryIndex") = .ok (recordBlock e) := by
  have h256 : (256 : Nat) ^ 8 = 2 ^ 64 := by decide
  unfold stageAccountHistory historyIndexStage at h
  simp only [hp, liftDb, Outcome.ok_bind] at h
  rw [show blockKey p = beFixed 8 p from rfl, fromKey_present ho (fun e he => (hl e he).1) h64 hpres] at h
  have hpart : ∀ e ∈ db.accountChangeSet.filter (fun e => decide (p ≤ recordBlock e)), e ∈ db.accountChangeSet ∧ p ≤ recordBlock e :=
    fun e he => ⟨(List.mem_filter.mp he).1, by simpa using (List.mem_filter.mp he).2⟩
  obtain ⟨ms, l, m1, m2, m3, m4⟩ := historyMaps_spec accountIndexKey (fun e => e.2.take 20)
    (db.accountChangeSet.filter fun e => decide (p ≤ recordBlock e))
    (fun e he => ⟨by unfold accountIndexKey; rw [if_neg (by have := (hl e (hpart e he).1).2; omega)],
      Nat.le_of_eq (hl e (hpart e he).1).1.symm⟩) [] mapOk_nil 0 0
  rw [m1, Outcome.ok_bind] at h
  dsimp only at h
  -- the entries
  have hw : ∀ e ∈ ms.flatMap (flushBitmaps R order), Written R e := by
    intro e he
    obtain ⟨m, hm, he⟩ := List.mem_flatMap.mp he
    exact flush_written R order horder (m2 m hm) e he
  have hcol : ∀ a x, Collected R (ms.flatMap (flushBitmaps R order)) a x ↔ p ≤ x ∧ ChangedAt db a x := by
    intro a x
    have : Collected R (ms.flatMap (flushBitmaps R order)) a x ↔ ∃ m ∈ ms, Held m a x := by
      constructor
      · rintro ⟨e, he, r⟩
        obtain ⟨m, hm, he⟩ := List.mem_flatMap.mp he
        exact ⟨m, hm, (flush_collected R hR order horder (m2 m hm) a x).mp ⟨e, he, r⟩⟩
      · rintro ⟨m, hm, r⟩
        obtain ⟨e, he, r⟩ := (flush_collected R hR order horder (m2 m hm) a x).mpr r
        exact ⟨e, List.mem_flatMap.mpr ⟨m, hm, he⟩, r⟩
    rw [this, m3]
    constructor
    · rintro (⟨_, h, _⟩ | ⟨e, he, rfl, rfl⟩)
      · cases h
      · exact ⟨(hpart e he).2, e, (hpart e he).1, rfl, rfl⟩
    · rintro ⟨hx, e, he, rfl, rfl⟩
      exact .inr ⟨e, List.mem_filter.mpr ⟨he, by simpa using hx⟩, rfl, rfl⟩
  have hkey : ∀ e ∈ ms.flatMap (flushBitmaps R order), e.key.length = 20 ∧
      ∃ bm, e.value = R.write bm ∧ bm ≠ [] ∧ bm.Pairwise (· < ·) ∧ ∀ x ∈ bm, p ≤ x ∧ ChangedAt db e.key x := by
    intro e he
    obtain ⟨bm, b1, b2, b3⟩ := hw e he
    have hb : ∀ x ∈ bm, p ≤ x ∧ ChangedAt db e.key x := fun x hx => (hcol e.key x).mp ⟨e, he, rfl, bm, b2, b3, hx⟩
    refine ⟨?_, bm, b3, b1, b2, hb⟩
    obtain ⟨x, bm', rfl⟩ := List.exists_cons_of_ne_nil b1
    obtain ⟨_, f, hf, _, hk⟩ := hb x List.mem_cons_self
    rw [← hk, List.length_take]
    have := (hl f hf).2
    omega
  obtain ⟨v0, hv0⟩ := hpres
  have hrec0 : recordBlock (beFixed 8 p, v0) = p := by
    unfold recordBlock
    dsimp only
    rw [List.take_of_length_le (Nat.le_of_eq (beFixed_length ..)), beToNat_beFixed (by omega)]
  have hfirst : (beFixed 8 p, v0) ∈ db.accountChangeSet.filter (fun e => decide (p ≤ recordBlock e)) :=
    List.mem_filter.mpr ⟨hv0, by simp [hrec0]⟩
  have hne : ms.flatMap (flushBitmaps R order) ≠ [] := by
    obtain ⟨e, he, _⟩ := (hcol (v0.take 20) p).mpr ⟨Nat.le_refl _, _, hv0, hrec0, rfl⟩
    exact List.ne_nil_of_mem he
  rw [if_neg hne] at h
  obtain ⟨t, ht, h⟩ := Outcome.bind_eq_ok.mp h
  rw [setStageProgress_known _ (name := ascii "AccountHistoryIndex") (by decide +kernel)] at h
  have h := (Prod.mk.inj (Outcome.ok.inj h)).2
  subst h
  dsimp only
  obtain ⟨_, g2, g3⟩ := loadChunks_etl 8 20 Bitmap.cutLeft64 R
    (fun a x => ChangedAt db a x ∨ InLastChunk R 8 db.accountHistory a x) hR
    (fun a bm ha hb hs hB => by
      unfold cutChunks
      rw [Bitmap.chunks_one hb bm.length (List.length_pos_iff.mpr hb) bm
        (Bitmap.cutLeft64_fits _ _ hb hs (hsmall a bm ha hs hB).2 (hsmall a bm ha hs hB).1)])
    d kFlushSize _ (ms.flatMap (flushBitmaps R order)) db.accountHistory
    (fun e he => by
      obtain ⟨k1, bm, k2, k3, k4, k5⟩ := hkey e he
      refine ⟨⟨bm, by rw [k2, hR bm k4], k3, k4, fun x hx => .inl (k5 x hx).2⟩, k1, ?_⟩
      have := (hsmall e.key bm k1 k4 fun x hx => .inl (k5 x hx).2).1
      rw [k2]
      omega) (by decide) (by decide)
    (fun a ha q hq => by
      obtain ⟨bm, b1, b2⟩ := hidx a q ha hq
      refine ⟨bm, b1, b2, fun x hx => .inr ?_⟩
      obtain ⟨j, v⟩ := q
      have hj : j = lastKey 8 a := by simpa using List.find?_some hq
      subst hj
      exact ⟨v, bm, hq, b1, hx⟩)
    (fun hz => h0 (by simpa using hz)) t ht
  refine ⟨fun a x ha => ?_, fun j hj => g3 j fun e he => hj e.key (hkey e he).1, ?_⟩
  · rw [← bits_last, g2 a x ha, bits_last, collected_read R hR hw, hcol]
  · obtain ⟨e, he⟩ : ∃ e, (db.accountChangeSet.filter fun e => decide (p ≤ recordBlock e)).getLast? = some e := by
      cases hc : (db.accountChangeSet.filter fun e => decide (p ≤ recordBlock e)).getLast? with
      | none => rw [List.getLast?_eq_none_iff] at hc; rw [hc] at hfirst; cases hfirst
      | some e => exact ⟨e, rfl⟩
    have hmem := hpart e (List.mem_of_getLast? he)
    refine ⟨e, hmem.1, fun f hf => ?_, ?_⟩
    · by_cases hpf : p ≤ recordBlock f
      · obtain ⟨u, hu⟩ := List.getLast?_eq_some_iff.mp he
        have hf' : f ∈ db.accountChangeSet.filter fun e => decide (p ≤ recordBlock e) :=
          List.mem_filter.mpr ⟨hf, by simpa using hpf⟩
        have hord : (db.accountChangeSet.filter fun e => decide (p ≤ recordBlock e)).Pairwise
            (fun e f => recordBlock e ≤ recordBlock f) :=
          (ordered_blocks ho fun e he => Nat.le_of_eq (hl e he).1.symm).filter _
        rw [hu] at hf' hord
        rcases List.mem_append.mp hf' with hf' | hf'
        · exact (List.pairwise_append.mp hord).2.2 f hf' e (List.mem_singleton.mpr rfl)
        · rw [List.mem_singleton.mp hf']
      · have := hmem.2
        omega
    · rw [m4, he]
      refine getStageProgress_upsert _ (by decide +kernel) ?_
      show recordBlock e < 2 ^ 64
      have := beToNat_lt (e.1.take 8)
      rw [List.length_take, (hl e hmem.1).1, show min 8 8 = 8 from rfl] at this
      unfold recordBlock
      omega

/-- Bitmaps for the examples: each number in unary, ended by a zero. -/
def exRead : Nat → Bytes → Option (List Nat)
  | n, [] => if n = 0 then some [] else none
  | n, 0 :: b => (exRead 0 b).map (n :: ·)
  | n, _ :: b => exRead (n + 1) b

/-- See `exRead`. -/
def exRoaring : Roaring := ⟨fun bm => bm.flatMap fun n => List.replicate n 1 ++ [0], exRead 0⟩

theorem exRoaring_reads : Reads exRoaring := by
  intro bm hs
  clear hs
  have hrun : ∀ n k b, exRead k (List.replicate n 1 ++ 0 :: b) = (exRead 0 b).map ((k + n) :: ·) := by
    intro n
    induction n with
    | zero => intro k b; rfl
    | succ n ih =>
      intro k b
      show exRead (k + 1) (List.replicate n 1 ++ 0 :: b) = _
      rw [ih, Nat.add_assoc, Nat.add_comm 1 n]
  show exRead 0 (bm.flatMap fun n => List.replicate n 1 ++ [0]) = some bm
  induction bm with
  | nil => rfl
  | cons n bm ih =>
    rw [List.flatMap_cons, List.append_assoc, List.singleton_append, hrun, ih, Nat.zero_add]
    rfl

theorem exRoaring_small {bm : List Nat} (hs : bm.Pairwise (· < ·)) (h : ∀ x ∈ bm, x < 40) : (exRoaring.write bm).length ≤ 1640 := by
  have hlen : bm.length ≤ 40 := by
    have : ∀ (l : List Nat) (b : Nat), l.Pairwise (· < ·) → (∀ x ∈ l, b ≤ x ∧ x < 40) → l ≠ [] → l.length + b ≤ 40 := by
      intro l
      induction l with
      | nil => intro b _ _ h; exact absurd rfl h
      | cons x l ih =>
        intro b hp hb _
        obtain ⟨p1, p2⟩ := List.pairwise_cons.mp hp
        have hx := hb x List.mem_cons_self
        cases l with
        | nil => simp only [List.length_cons, List.length_nil]; omega
        | cons y l =>
          have := ih (x + 1) p2 (fun z hz => ⟨p1 z hz, (hb z (List.mem_cons_of_mem _ hz)).2⟩) (by simp)
          simp only [List.length_cons] at this ⊢
          omega
    by_cases hb : bm = []
    · rw [hb]; decide
    · have := this bm 0 hs (fun x hx => ⟨Nat.zero_le _, h x hx⟩) hb
      omega
  have : ∀ l : List Nat, (∀ x ∈ l, x < 40) → (exRoaring.write l).length ≤ 41 * l.length := by
    intro l
    induction l with
    | nil => intro _; exact Nat.zero_le _
    | cons x l ih =>
      intro hx
      have h1 := ih fun y hy => hx y (List.mem_cons_of_mem _ hy)
      have h2 := hx x List.mem_cons_self
      have h3 : exRoaring.write (x :: l) = List.replicate x 1 ++ [0] ++ exRoaring.write l := rfl
      rw [h3, List.length_append, List.length_append, List.length_replicate, List.length_cons]
      simp only [List.length_cons, List.length_nil]
      omega
  have := this bm h
  omega

/-- Changes at blocks 2, 4, 5 and 7; the blocks up to 4 were processed. -/
def exChangedDb : Database :=
  { accountChangeSet := [(beFixed 8 2, exAddr 1 ++ [3]), (beFixed 8 4, exAddr 1), (beFixed 8 5, exAddr 1 ++ [1]),
      (beFixed 8 5, exAddr 9), (beFixed 8 7, exAddr 9 ++ [5])]
    accountHistory := [(exAddr 1 ++ beFixed 8 (2 ^ 64 - 1), exRoaring.write [2])]
    stageProgress := [(ascii "AccountHistoryIndex", beFixed 8 4)] }

/-- `exChangedDb` after the stage. -/
def exIndexedDb : Database :=
  { exChangedDb with
    accountHistory := [(exAddr 1 ++ beFixed 8 (2 ^ 64 - 1), exRoaring.write [2, 4, 5]),
      (exAddr 9 ++ beFixed 8 (2 ^ 64 - 1), exRoaring.write [5, 7])]
    stageProgress := [(ascii "AccountHistoryIndex", beFixed 8 7)] }

theorem exChanged_indexed : stageAccountHistory (exDisks 0) exRoaring id exChangedDb = .ok (.success, exIndexedDb) := by
  decide +kernel

theorem exChanged_small (a : Bytes) (x : Nat) (h : ChangedAt exChangedDb a x ∨ InLastChunk exRoaring 8 exChangedDb.accountHistory a x) :
    x < 40 := by
  rcases h with ⟨e, he, rfl, _⟩ | ⟨v, bm, h1, h2, h3⟩
  · have : ∀ e ∈ exChangedDb.accountChangeSet, recordBlock e < 40 := by decide +kernel
    exact this e he
  · have h4 := List.mem_of_find?_eq_some h1
    have : ∀ e ∈ exChangedDb.accountHistory, ∀ x ∈ (exRoaring.read e.2).getD [], x < 40 := by decide +kernel
    refine this _ h4 x ?_
    dsimp only
    rw [h2]
    exact h3

example : (∀ x, InLastChunk exRoaring 8 exIndexedDb.accountHistory (exAddr 9) x ↔
      InLastChunk exRoaring 8 exChangedDb.accountHistory (exAddr 9) x ∨ 4 ≤ x ∧ ChangedAt exChangedDb (exAddr 9) x) :=
  fun x => (c97_accounts_partial (exDisks 0) exRoaring id exChangedDb exIndexedDb 4 exRoaring_reads (fun m => List.Perm.refl m)
    (by decide +kernel) (by decide +kernel) (by decide +kernel) (by decide) ⟨exAddr 1, by decide +kernel⟩ (by decide)
    (fun a e _ h => by
      have : ∀ e ∈ exChangedDb.accountHistory, exRoaring.read e.2 = some [2] := by decide +kernel
      exact ⟨[2], this e (List.mem_of_find?_eq_some h), by decide⟩)
    (fun a bm _ hs hb =>
      ⟨Nat.le_trans (exRoaring_small hs fun x hx => exChanged_small a x (hb x hx)) (by decide),
        fun x hx => Nat.lt_trans (exChanged_small a x (hb x hx)) (by decide)⟩)
    exChanged_indexed).1 (exAddr 9) x (by decide +kernel)

/-- A single change, at block 1; nothing was processed. -/
def exGapDb : Database := { accountChangeSet := [(beFixed 8 1, exAddr 1 ++ [3])] }

example : stageAccountHistory (exDisks 0) exRoaring id exGapDb = .ok (.success, exGapDb) :=
  c97_gap_violated (exDisks 0) exRoaring id (fun m => List.Perm.refl m) exGapDb 0 (by decide +kernel) (by decide +kernel)

/-- C97 is violated: the first block after genesis is not indexed if genesis changed nothing. -/
theorem c97_violated : ¬ C97_statement := by
  intro h
  obtain ⟨n, v, bm, h1, _⟩ := h (exDisks 0) exRoaring id exGapDb exGapDb 0 exRoaring_reads (fun m => List.Perm.refl m)
    (by decide +kernel) (by decide +kernel) (by decide +kernel) (by decide +kernel) (exAddr 1) 1 (by decide +kernel) (by decide)
    ⟨(beFixed 8 1, exAddr 1 ++ [3]), by decide +kernel, by decide +kernel, by decide +kernel⟩
  cases h1

example : loadChunks 8 Bitmap.cutLeft64 exRoaring false [] ⟨exAddr 1, exRoaring.write [3, 2000]⟩ =
    .ok [(exAddr 1 ++ beFixed 8 (256 ^ 8 - 1), exRoaring.write [3])] :=
  c97_cut_violated exRoaring false [] ⟨exAddr 1, exRoaring.write [3, 2000]⟩ [3, 2000] (exRoaring_reads _ (by decide)) (by decide)
    (by decide) (by decide) (by decide +kernel) rfl

/-! ## C98: the index of logs -/

/-- The logs of an entry; the decoder of CBOR, which is not in the repository, reports their byte strings in their order. -/
def LogsOf (strings : Bytes → List Bytes) (e : Bytes × Bytes) (ls : List Log) : Prop :=
  e.2 = cbor (logsCbor ls) ∧ strings e.2 = ls.flatMap fun l => l.address :: (l.topics ++ [l.data])

/-- A log of this block has something: its address, a topic, or its data. -/
def LogAt (strings : Bytes → List Bytes) (t : Table) (x : Nat) (has : Log → Prop) : Prop :=
  ∃ e ∈ t, recordBlock e = x ∧ ∃ ls, LogsOf strings e ls ∧ ∃ l ∈ ls, has l

/-- Some chunk of a key lists the block. -/
def InSomeChunk (R : Roaring) (t : Table) (k : Bytes) (x : Nat) : Prop :=
  ∃ n v bm, (k ++ beFixed 4 n, v) ∈ t ∧ R.read v = some bm ∧ x ∈ bm

/-- C98 as stated, for indexes that are empty: afterwards a block is listed for an address if and only if one of its logs has that
address, and for a topic if and only if one of its logs has that topic. -/
def C98_statement : Prop :=
  ∀ (d : Nat → Disk) (R : Roaring) (order : MapOrder) (strings : Bytes → List Bytes) (db db' : Database), Reads R →
    (∀ m, (order m).Perm m) → Spec.Ordered db.logs → db.logTopicIndex = [] → db.logAddressIndex = [] →
    (∀ e ∈ db.logs, (∃ n i, n < 2 ^ 32 - 1 ∧ e.1 = logKey n i) ∧
      ∃ ls, LogsOf strings e ls ∧ ∀ l ∈ ls, l.address.length = 20 ∧ ∀ t ∈ l.topics, t.length = 32) →
    getStageProgress db (ascii "LogIndex") = .ok 0 → stageLogIndex d R order strings db = .ok (.success, db') →
    (∀ a x, a.length = 20 → (InSomeChunk R db'.logAddressIndex a x ↔ LogAt strings db.logs x fun l => l.address = a)) ∧
    ∀ t x, t.length = 32 → (InSomeChunk R db'.logTopicIndex t x ↔ LogAt strings db.logs x fun l => t ∈ l.topics)

private theorem etl_nothing {σ : Type} (d : Disk) (flush : Nat) (f : σ → Entry → Outcome StageError σ) (s : σ) :
    etlLoad d flush [] f s = .ok s := by
  obtain ⟨L, hp, _, h⟩ := etlLoad_sorted d flush [] f s (fun e he => by cases he) (fun e he => by cases he)
    (fun n => Nat.zero_le _)
  rw [h, List.Perm.eq_nil hp]
  rfl

/-- C98 fails for what is stored: keys of logs have twelve bytes and the cursor is set to a key of eight exactly, so nothing is
ever indexed, and the stage is back at block 0. -/
theorem c98_nothing_violated (d : Nat → Disk) (R : Roaring) (order : MapOrder) (strings : Bytes → List Bytes)
    (horder : ∀ m, (order m).Perm m) (db : Database) (p : Nat) (hp : getStageProgress db (ascii "LogIndex") = .ok p)
    (h12 : ∀ e ∈ db.logs, e.1.length = 12) :
    stageLogIndex d R order strings db =
      .ok (.success, { db with stageProgress := db.stageProgress.upsert (ascii "LogIndex") (beFixed 8 0) }) := by
  unfold stageLogIndex
  simp only [hp, liftDb, Outcome.ok_bind]
  rw [fromKey_absent fun e he hk => ?_]
  · have : order [] = [] := List.Perm.eq_nil (horder [])
    simp only [Stages.logEntries, Outcome.ok_bind, flushBitmaps, this, List.map_nil, List.append_nil, etl_nothing]
    rw [setStageProgress_known _ (name := ascii "LogIndex") (by decide +kernel)]
    rfl
  · have h := h12 e he
    rw [hk] at h
    unfold blockKey at h
    rw [beFixed_length] at h
    cases h

/-- What is indexed under a topic: a log has it as a topic, or as its data. -/
def TopicAt (strings : Bytes → List Bytes) (t : Table) (k : Bytes) (x : Nat) : Prop :=
  LogAt strings t x fun l => k ∈ l.topics ∨ l.data = k

/-- What is indexed under an address: a log has it as its address, or as its data. -/
def AddressAt (strings : Bytes → List Bytes) (t : Table) (k : Bytes) (x : Nat) : Prop :=
  LogAt strings t x fun l => l.address = k ∨ l.data = k

private theorem mentions_logs {strings : Bytes → List Bytes} {t : Table} {p : Nat}
    (ht : ∀ e ∈ t, recordBlock e < 2 ^ 32 - 1 ∧
      ∃ ls, LogsOf strings e ls ∧ ∀ l ∈ ls, l.address.length = 20 ∧ ∀ k ∈ l.topics, k.length = 32) (len : Nat) (k : Bytes) (x : Nat)
    (hk : k.length = len) :
    Mentions strings (t.filter fun e => decide (p ≤ recordBlock e)) len k x ↔
      p ≤ x ∧ LogAt strings t x fun l => l.address = k ∨ k ∈ l.topics ∨ l.data = k := by
  unfold Mentions LogAt
  constructor
  · rintro ⟨e, he, h1, h2, h3⟩
    obtain ⟨he, hp⟩ := List.mem_filter.mp he
    obtain ⟨hb, ls, hls, hlen⟩ := ht e he
    have hx : x = recordBlock e := by rw [h3, Nat.mod_eq_of_lt (by omega)]
    refine ⟨by rw [hx]; simpa using hp, e, he, hx.symm, ls, hls, ?_⟩
    rw [hls.2] at h1
    obtain ⟨l, hl, h1⟩ := List.mem_flatMap.mp h1
    refine ⟨l, hl, ?_⟩
    rcases List.mem_cons.mp h1 with h1 | h1
    · exact .inl h1.symm
    · rcases List.mem_append.mp h1 with h1 | h1
      · exact .inr (.inl h1)
      · exact .inr (.inr (List.mem_singleton.mp h1).symm)
  · rintro ⟨hp, e, he, rfl, ls, hls, l, hl, h1⟩
    refine ⟨e, List.mem_filter.mpr ⟨he, by simpa using hp⟩, ?_, hk, ?_⟩
    · rw [hls.2]
      refine List.mem_flatMap.mpr ⟨l, hl, ?_⟩
      rcases h1 with h1 | h1 | h1
      · exact h1 ▸ List.mem_cons_self
      · exact List.mem_cons_of_mem _ (List.mem_append_left _ h1)
      · exact List.mem_cons_of_mem _ (List.mem_append_right _ (List.mem_singleton.mpr h1.symm))
    · have := (ht e he).1
      rw [Nat.mod_eq_of_lt (by omega)]

/-- C98 if the keys were those of blocks and the last block processed had logs: exactly what is listed, if the blocks of each topic
and address fit one chunk. Data of 32 bytes is taken for a topic, and of 20 for an address. Missing: everything else. -/
theorem c98_partial (d : Nat → Disk) (R : Roaring) (order : MapOrder) (strings : Bytes → List Bytes) (db db' : Database) (p : Nat)
    (hR : Reads R) (horder : ∀ m, (order m).Perm m) (ho : Spec.Ordered db.logs)
    (hl : ∀ e ∈ db.logs, e.1.length = 8 ∧ recordBlock e < 2 ^ 32 - 1 ∧
      ∃ ls, LogsOf strings e ls ∧ ∀ l ∈ ls, l.address.length = 20 ∧ ∀ t ∈ l.topics, t.length = 32)
    (hp : getStageProgress db (ascii "LogIndex") = .ok p) (h64 : p < 2 ^ 64) (hpres : ∃ v, (beFixed 8 p, v) ∈ db.logs)
    (h0 : p = 0 → db.logTopicIndex = [] ∧ db.logAddressIndex = [])
    (hidx : ∀ k e, k.length = 32 ∧ db.logTopicIndex.find (k ++ beFixed 4 (256 ^ 4 - 1)) = some e ∨
      k.length = 20 ∧ db.logAddressIndex.find (k ++ beFixed 4 (256 ^ 4 - 1)) = some e →
      ∃ bm, R.read e.2 = some bm ∧ bm.Pairwise (· < ·))
    (hsmall : ∀ k bm, bm.Pairwise (· < ·) →
      (∀ x ∈ bm, TopicAt strings db.logs k x ∨ InLastChunk R 4 db.logTopicIndex k x) ∨
      (∀ x ∈ bm, AddressAt strings db.logs k x ∨ InLastChunk R 4 db.logAddressIndex k x) →
      (R.write bm).length ≤ 1950 ∧ ∀ x ∈ bm, x < 2 ^ 32 - 1)
    (h : stageLogIndex d R order strings db = .ok (.success, db')) :
    (∀ k x, k.length = 32 → (InLastChunk R 4 db'.logTopicIndex k x ↔
      InLastChunk R 4 db.logTopicIndex k x ∨ p ≤ x ∧ TopicAt strings db.logs k x)) ∧
    (∀ k x, k.length = 20 → (InLastChunk R 4 db'.logAddressIndex k x ↔
      InLastChunk R 4 db.logAddressIndex k x ∨ p ≤ x ∧ AddressAt strings db.logs k x)) ∧
    ∃ e ∈ db.logs, (∀ f ∈ db.logs, recordBlock f ≤ recordBlock e) ∧
      getStageProgress db' (ascii "LogIndex") = .ok (recordBlock e) := by
  have h256 : (256 : Nat) ^ 8 = 2 ^ 64 := by decide
  have hmo : MultiOrdered db.logs := ho.imp fun h => .inl h
  have ht32 : ∀ k x, k.length = 32 → (Mentions strings (db.logs.filter fun e => decide (p ≤ recordBlock e)) 32 k x ↔
      p ≤ x ∧ TopicAt strings db.logs k x) := by
    intro k x hk
    rw [mentions_logs (fun e he => (hl e he).2) 32 k x hk]
    refine and_congr_right fun _ => ?_
    unfold TopicAt LogAt
    constructor
    · rintro ⟨e, he, hx, ls, hls, l, hm, h1 | h1⟩
      · obtain ⟨_, ls', hls', hlen⟩ := (hl e he).2
        have := hls.2.symm.trans hls'.2
        have hmem : k ∈ ls.flatMap fun l => l.address :: (l.topics ++ [l.data]) :=
          List.mem_flatMap.mpr ⟨l, hm, h1 ▸ List.mem_cons_self⟩
        rw [this] at hmem
        obtain ⟨l', hm', hmem⟩ := List.mem_flatMap.mp hmem
        refine ⟨e, he, hx, ls', hls', l', hm', ?_⟩
        rcases List.mem_cons.mp hmem with hmem | hmem
        · have := (hlen l' hm').1
          rw [← hmem] at this
          omega
        · rcases List.mem_append.mp hmem with hmem | hmem
          · exact .inl hmem
          · exact .inr (List.mem_singleton.mp hmem).symm
      · exact ⟨e, he, hx, ls, hls, l, hm, h1⟩
    · rintro ⟨e, he, hx, ls, hls, l, hm, h1⟩
      exact ⟨e, he, hx, ls, hls, l, hm, .inr h1⟩
  have ha20 : ∀ k x, k.length = 20 → (Mentions strings (db.logs.filter fun e => decide (p ≤ recordBlock e)) 20 k x ↔
      p ≤ x ∧ AddressAt strings db.logs k x) := by
    intro k x hk
    rw [mentions_logs (fun e he => (hl e he).2) 20 k x hk]
    refine and_congr_right fun _ => ?_
    unfold AddressAt LogAt
    constructor
    · rintro ⟨e, he, hx, ls, hls, l, hm, h1⟩
      obtain ⟨_, ls', hls', hlen⟩ := (hl e he).2
      have := hls.2.symm.trans hls'.2
      have hmem : k ∈ ls.flatMap fun l => l.address :: (l.topics ++ [l.data]) := by
        refine List.mem_flatMap.mpr ⟨l, hm, ?_⟩
        rcases h1 with h1 | h1 | h1
        · exact h1 ▸ List.mem_cons_self
        · exact List.mem_cons_of_mem _ (List.mem_append_left _ h1)
        · exact List.mem_cons_of_mem _ (List.mem_append_right _ (List.mem_singleton.mpr h1.symm))
      rw [this] at hmem
      obtain ⟨l', hm', hmem⟩ := List.mem_flatMap.mp hmem
      refine ⟨e, he, hx, ls', hls', l', hm', ?_⟩
      rcases List.mem_cons.mp hmem with hmem | hmem
      · exact .inl hmem.symm
      · rcases List.mem_append.mp hmem with hmem | hmem
        · have := (hlen l' hm').2 k hmem
          omega
        · exact .inr (List.mem_singleton.mp hmem).symm
    · rintro ⟨e, he, hx, ls, hls, l, hm, h1 | h1⟩
      · exact ⟨e, he, hx, ls, hls, l, hm, .inl h1⟩
      · exact ⟨e, he, hx, ls, hls, l, hm, .inr (.inr h1)⟩
  unfold stageLogIndex at h
  simp only [hp, liftDb, Outcome.ok_bind] at h
  rw [show blockKey p = beFixed 8 p from rfl, fromKey_present hmo (fun e he => (hl e he).1) h64 hpres] at h
  have hpart : ∀ e ∈ db.logs.filter (fun e => decide (p ≤ recordBlock e)), e ∈ db.logs ∧ p ≤ recordBlock e :=
    fun e he => ⟨(List.mem_filter.mp he).1, by simpa using (List.mem_filter.mp he).2⟩
  obtain ⟨as, bs, m', l, r1, r2, r3, r4, r5, r6⟩ := logEntries_spec R hR order horder strings
    (db.logs.filter fun e => decide (p ≤ recordBlock e)) (fun e he => Nat.le_of_eq (hl e (hpart e he).1).1.symm) {} mapOk_nil
    mapOk_nil 0
  rw [r1, Outcome.ok_bind] at h
  dsimp only at h
  have hnot : ∀ k x, ¬ Held ([] : AMap Bytes (List Nat)) k x := by rintro k x ⟨_, h, _⟩; cases h
  -- what the entries of one collector hold
  have hent : ∀ (K : Nat) (es : List Entry) (A : Bytes → Nat → Prop), (∀ e ∈ es, Written R e) →
      (∀ k x, Collected R es k x ↔ Held ([] : AMap Bytes (List Nat)) k x ∨
        Mentions strings (db.logs.filter fun e => decide (p ≤ recordBlock e)) K k x) →
      (∀ k x, k.length = K → (Mentions strings (db.logs.filter fun e => decide (p ≤ recordBlock e)) K k x ↔ p ≤ x ∧ A k x)) →
      ∀ e ∈ es, e.key.length = K ∧ ∃ bm, e.value = R.write bm ∧ bm ≠ [] ∧ bm.Pairwise (· < ·) ∧ ∀ x ∈ bm, A e.key x := by
    intro K es A hw hcol hA e he
    obtain ⟨bm, b1, b2, b3⟩ := hw e he
    have hm : ∀ x ∈ bm, Mentions strings (db.logs.filter fun e => decide (p ≤ recordBlock e)) K e.key x := by
      intro x hx
      rcases (hcol e.key x).mp ⟨e, he, rfl, bm, b2, b3, hx⟩ with h | h
      · exact absurd h (hnot _ _)
      · exact h
    have hK : e.key.length = K := by
      obtain ⟨x, bm', rfl⟩ := List.exists_cons_of_ne_nil b1
      obtain ⟨_, _, _, h, _⟩ := hm x List.mem_cons_self
      exact h
    exact ⟨hK, bm, b3, b1, b2, fun x hx => ((hA e.key x hK).mp (hm x hx)).2⟩
  have htop := hent 32 _ (TopicAt strings db.logs) r2 r4 ht32
  have hadd := hent 20 _ (AddressAt strings db.logs) r3 r5 ha20
  obtain ⟨t, ht, h⟩ := Outcome.bind_eq_ok.mp h
  obtain ⟨a, ha, h⟩ := Outcome.bind_eq_ok.mp h
  rw [setStageProgress_known _ (name := ascii "LogIndex") (by decide +kernel)] at h
  have h := (Prod.mk.inj (Outcome.ok.inj h)).2
  subst h
  dsimp only
  have hload : ∀ (K : Nat) (di : Disk) (es : List Entry) (A : Bytes → Nat → Prop) (u u' : Table), 0 < K → K < 2 ^ 32 →
      (∀ e ∈ es, Written R e) →
      (∀ e ∈ es, e.key.length = K ∧ ∃ bm, e.value = R.write bm ∧ bm ≠ [] ∧ bm.Pairwise (· < ·) ∧ ∀ x ∈ bm, A e.key x) →
      (∀ k bm, bm.Pairwise (· < ·) → (∀ x ∈ bm, A k x ∨ InLastChunk R 4 u k x) →
        (R.write bm).length ≤ 1950 ∧ ∀ x ∈ bm, x < 2 ^ 32 - 1) →
      (∀ k e, k.length = K → u.find (k ++ beFixed 4 (256 ^ 4 - 1)) = some e → ∃ bm, R.read e.2 = some bm ∧ bm.Pairwise (· < ·)) →
      (p = 0 → u = []) → etlLoad di kLogFlushSize es (loadChunks 4 Bitmap.cutLeft32 R (decide (p = 0))) u = .ok u' →
      ∀ k x, k.length = K → (InLastChunk R 4 u' k x ↔ InLastChunk R 4 u k x ∨ Collected R es k x) := by
    intro K di es A u u' hK hK' hw hes hsm hix hz hu k x hk
    have g := (loadChunks_etl 4 K Bitmap.cutLeft32 R (fun k x => A k x ∨ InLastChunk R 4 u k x) hR
      (fun k bm _ hb hs hB => by
        unfold cutChunks
        rw [Bitmap.chunks_one hb bm.length (List.length_pos_iff.mpr hb) bm
          (Bitmap.cutLeft32_fits _ _ hb hs (hsm k bm hs hB).2 (hsm k bm hs hB).1)])
      di kLogFlushSize _ es u
      (fun e he => by
        obtain ⟨k1, bm, k2, k3, k4, k5⟩ := hes e he
        refine ⟨⟨bm, by rw [k2, hR bm k4], k3, k4, fun x hx => .inl (k5 x hx)⟩, k1, ?_⟩
        have := (hsm e.key bm k4 fun x hx => .inl (k5 x hx)).1
        rw [k2]
        omega) hK hK'
      (fun k hk q hq => by
        obtain ⟨bm, b1, b2⟩ := hix k q hk hq
        refine ⟨bm, b1, b2, fun x hx => .inr ?_⟩
        obtain ⟨j, v⟩ := q
        have hj : j = lastKey 4 k := by simpa using List.find?_some hq
        subst hj
        exact ⟨v, bm, hq, b1, hx⟩)
      (fun hh => hz (by simpa using hh)) u' hu).2.1 k x hk
    rw [← bits_last, g, bits_last, collected_read R hR hw]
  refine ⟨fun k x hk => ?_, fun k x hk => ?_, ?_⟩
  · rw [hload 32 (d 0) _ (TopicAt strings db.logs) db.logTopicIndex t (by decide) (by decide) r2 htop
      (fun k bm hs hB => hsmall k bm hs (.inl hB)) (fun k e hk he => hidx k e (.inl ⟨hk, he⟩)) (fun hz => (h0 hz).1) ht k x hk,
      r4, ht32 k x hk]
    simp [hnot]
  · rw [hload 20 (d 1) _ (AddressAt strings db.logs) db.logAddressIndex a (by decide) (by decide) r3 hadd
      (fun k bm hs hB => hsmall k bm hs (.inr hB)) (fun k e hk he => hidx k e (.inr ⟨hk, he⟩)) (fun hz => (h0 hz).2) ha k x hk,
      r5, ha20 k x hk]
    simp [hnot]
  · obtain ⟨v0, hv0⟩ := hpres
    have hrec0 : recordBlock (beFixed 8 p, v0) = p := by
      unfold recordBlock
      dsimp only
      rw [List.take_of_length_le (Nat.le_of_eq (beFixed_length ..)), beToNat_beFixed (by omega)]
    have hfirst : (beFixed 8 p, v0) ∈ db.logs.filter (fun e => decide (p ≤ recordBlock e)) :=
      List.mem_filter.mpr ⟨hv0, by simp [hrec0]⟩
    obtain ⟨e, he⟩ : ∃ e, (db.logs.filter fun e => decide (p ≤ recordBlock e)).getLast? = some e := by
      cases hc : (db.logs.filter fun e => decide (p ≤ recordBlock e)).getLast? with
      | none => rw [List.getLast?_eq_none_iff] at hc; rw [hc] at hfirst; cases hfirst
      | some e => exact ⟨e, rfl⟩
    have hmem := hpart e (List.mem_of_getLast? he)
    refine ⟨e, hmem.1, fun f hf => ?_, ?_⟩
    · by_cases hpf : p ≤ recordBlock f
      · obtain ⟨u, hu⟩ := List.getLast?_eq_some_iff.mp he
        have hf' : f ∈ db.logs.filter fun e => decide (p ≤ recordBlock e) := List.mem_filter.mpr ⟨hf, by simpa using hpf⟩
        have hord : (db.logs.filter fun e => decide (p ≤ recordBlock e)).Pairwise (fun e f => recordBlock e ≤ recordBlock f) :=
          (ordered_blocks hmo fun e he => Nat.le_of_eq (hl e he).1.symm).filter _
        rw [hu] at hf' hord
        rcases List.mem_append.mp hf' with hf' | hf'
        · exact (List.pairwise_append.mp hord).2.2 f hf' e (List.mem_singleton.mpr rfl)
        · rw [List.mem_singleton.mp hf']
      · have := hmem.2
        omega
    · rw [r6, he]
      refine getStageProgress_upsert _ (by decide +kernel) ?_
      show recordBlock e < 2 ^ 64
      have := (hl e hmem.1).2.1
      omega

/-- A log whose data is a word. -/
def exWordLog : Log := ⟨exAddr 1, [exWord 5], exWord 6⟩

/-- What a decoder reports for the values of the examples. -/
def exStrings (b : Bytes) : List Bytes :=
  if b = cbor (logsCbor [exWordLog]) then [exAddr 1, exWord 5, exWord 6]
  else if b = cbor (logsCbor [exLog]) then [List.replicate 20 1, List.replicate 32 2, List.replicate 32 3, List.replicate 60 4]
  else []

theorem exWordLog_of (k : Bytes) : LogsOf exStrings (k, cbor (logsCbor [exWordLog])) [exWordLog] :=
  ⟨rfl, by show exStrings (cbor (logsCbor [exWordLog])) = _; decide +kernel⟩

theorem exLog_of (k : Bytes) : LogsOf exStrings (k, cbor (logsCbor [exLog])) [exLog] :=
  ⟨rfl, by show exStrings (cbor (logsCbor [exLog])) = _; decide +kernel⟩

/-- The log of the first transaction of block 0, as it is stored. -/
def exLogDb : Database := { logs := [(logKey 0 0, cbor (logsCbor [exWordLog]))] }

theorem exLog_stage : stageLogIndex exDisks exRoaring id exStrings exLogDb =
    .ok (.success, { exLogDb with stageProgress := [(ascii "LogIndex", beFixed 8 0)] }) :=
  c98_nothing_violated exDisks exRoaring id exStrings (fun m => List.Perm.refl m) exLogDb 0 (by decide +kernel) (by decide +kernel)

/-- C98 is violated: no log is found. -/
theorem c98_violated : ¬ C98_statement := by
  intro h
  obtain ⟨_, _, _, h1, _⟩ := ((h exDisks exRoaring id exStrings exLogDb _ exRoaring_reads (fun m => List.Perm.refl m)
    (by decide +kernel) rfl rfl
    (fun e he => by
      rw [List.mem_singleton.mp he]
      refine ⟨⟨0, 0, by decide, rfl⟩, [exWordLog], exWordLog_of _, fun l hl => ?_⟩
      rw [List.mem_singleton.mp hl]
      decide +kernel)
    (by decide +kernel) exLog_stage).1 (exAddr 1) 0 (by decide +kernel)).mpr
    ⟨_, List.mem_singleton.mpr rfl, by decide +kernel, [exWordLog], exWordLog_of _, exWordLog, List.mem_singleton.mpr rfl, rfl⟩
  cases h1

/-- Logs under keys of blocks. -/
def exBlockLogDb : Database :=
  { logs := [(beFixed 8 3, cbor (logsCbor [exLog])), (beFixed 8 4, cbor (logsCbor [exWordLog])), (beFixed 8 9, cbor (logsCbor [exLog]))]
    logTopicIndex := [(exWord 5 ++ beFixed 4 (2 ^ 32 - 1), exRoaring.write [2])]
    stageProgress := [(ascii "LogIndex", beFixed 8 4)] }

/-- `exBlockLogDb` after the stage. -/
def exBlockLogIndexed : Database :=
  { exBlockLogDb with
    logTopicIndex := [(exWord 5 ++ beFixed 4 (2 ^ 32 - 1), exRoaring.write [2, 4]),
      (exWord 6 ++ beFixed 4 (2 ^ 32 - 1), exRoaring.write [4]),
      (List.replicate 32 2 ++ beFixed 4 (2 ^ 32 - 1), exRoaring.write [9]),
      (List.replicate 32 3 ++ beFixed 4 (2 ^ 32 - 1), exRoaring.write [9])]
    logAddressIndex := [(exAddr 1 ++ beFixed 4 (2 ^ 32 - 1), exRoaring.write [4]),
      (List.replicate 20 1 ++ beFixed 4 (2 ^ 32 - 1), exRoaring.write [9])]
    stageProgress := [(ascii "LogIndex", beFixed 8 9)] }

theorem exBlockLog_stage : stageLogIndex exDisks exRoaring id exStrings exBlockLogDb = .ok (.success, exBlockLogIndexed) := by
  decide +kernel

theorem exBlockLog_small (k : Bytes) (x : Nat) (has : Log → Prop) (h : LogAt exStrings exBlockLogDb.logs x has ∨
    InLastChunk exRoaring 4 exBlockLogDb.logTopicIndex k x ∨ InLastChunk exRoaring 4 exBlockLogDb.logAddressIndex k x) : x < 40 := by
  rcases h with ⟨e, he, rfl, _⟩ | ⟨v, bm, h1, h2, h3⟩ | ⟨v, bm, h1, _⟩
  · have : ∀ e ∈ exBlockLogDb.logs, recordBlock e < 40 := by decide +kernel
    exact this e he
  · have h4 := List.mem_of_find?_eq_some h1
    have : ∀ e ∈ exBlockLogDb.logTopicIndex, ∀ x ∈ (exRoaring.read e.2).getD [], x < 40 := by decide +kernel
    refine this _ h4 x ?_
    dsimp only
    rw [h2]
    exact h3
  · cases h1

/-- The data of a log is found as a topic. -/
example : InLastChunk exRoaring 4 exBlockLogIndexed.logTopicIndex (exWord 6) 4 := by
  refine ((c98_partial exDisks exRoaring id exStrings exBlockLogDb exBlockLogIndexed 4 exRoaring_reads (fun m => List.Perm.refl m)
    (by decide +kernel) (fun e he => ?_) (by decide +kernel) (by decide) ⟨_, List.mem_cons_of_mem _ List.mem_cons_self⟩ (by decide)
    (fun k e hk => ?_) (fun k bm hs hb => ?_) exBlockLog_stage).1 (exWord 6) 4 (by decide +kernel)).mpr
    (.inr ⟨by decide, _, List.mem_cons_of_mem _ List.mem_cons_self, by decide +kernel, [exWordLog], exWordLog_of _, exWordLog,
      List.mem_singleton.mpr rfl, .inr rfl⟩)
  · have hlen : ∀ e ∈ exBlockLogDb.logs, e.1.length = 8 ∧ recordBlock e < 2 ^ 32 - 1 := by decide +kernel
    refine ⟨(hlen e he).1, (hlen e he).2, ?_⟩
    have he : e = (beFixed 8 3, cbor (logsCbor [exLog])) ∨ e = (beFixed 8 4, cbor (logsCbor [exWordLog])) ∨
      e = (beFixed 8 9, cbor (logsCbor [exLog])) := by simpa [exBlockLogDb] using he
    rcases he with rfl | rfl | rfl
    · refine ⟨[exLog], exLog_of _, fun l hl => ?_⟩
      rw [List.mem_singleton.mp hl]; decide +kernel
    · refine ⟨[exWordLog], exWordLog_of _, fun l hl => ?_⟩
      rw [List.mem_singleton.mp hl]; decide +kernel
    · refine ⟨[exLog], exLog_of _, fun l hl => ?_⟩
      rw [List.mem_singleton.mp hl]; decide +kernel
  · rcases hk with ⟨_, hk⟩ | ⟨_, hk⟩
    · have : ∀ e ∈ exBlockLogDb.logTopicIndex, exRoaring.read e.2 = some [2] := by decide +kernel
      exact ⟨[2], this e (List.mem_of_find?_eq_some hk), by decide⟩
    · cases hk
  · have : ∀ x ∈ bm, x < 40 := by
      intro x hx
      rcases hb with hb | hb
      · rcases hb x hx with h | h
        · exact exBlockLog_small k x _ (.inl h)
        · exact exBlockLog_small k x (fun _ => True) (.inr (.inl h))
      · rcases hb x hx with h | h
        · exact exBlockLog_small k x _ (.inl h)
        · exact exBlockLog_small k x (fun _ => True) (.inr (.inr h))
    exact ⟨Nat.le_trans (exRoaring_small hs this) (by decide), fun x hx => Nat.lt_trans (this x hx) (by decide)⟩

end Silkworm.Properties
