import Verif.Trie.StateRoot
import Verif.Trie.RootLemmas
import Verif.Spec.StateRoot
import Verif.Types.AccountLemmas
import Verif.State.BufferLemmas
import Verif.Common.UtilLemmas

/-!
# Lemmas about state roots
-/

namespace Silkworm.Trie

open Silkworm.Rlp
open Silkworm.Spec (Item rlp num KeyLt Increasing PrefixFree trieRoot fromBe storageRoot stateRoot accountItem)

theorem fromBe_eq : ∀ b : Bytes, fromBe b = beToNat b
  | [] => rfl
  | x :: b => by rw [beToNat_cons, fromBe, fromBe_eq b]

theorem zerolessView_be (v : Bytes) : zerolessView v = Spec.be (beToNat v) := by
  obtain ⟨k, h1, h2⟩ := zerolessView_spec v
  have h3 : beToNat v = beToNat (zerolessView v) := by
    conv => lhs; rw [h1]
    exact beToNat_replicate_zero _ _
  rw [h3, spec_be_eq]
  cases hz : zerolessView v with
  | nil => rfl
  | cons x xs =>
    rw [hz] at h2
    have hx : x ≠ 0 := fun h => h2 (by rw [h]; rfl)
    rw [byteLen_beToNat hx]
    exact (beFixed_beToNat (x :: xs)).symm

theorem lexLt_trichotomy : ∀ (a b : Bytes), a ≠ b → Db.lexLt a b = false → Db.lexLt b a = true
  | [], [], h, _ => absurd rfl h
  | [], _ :: _, _, h => by cases h
  | _ :: _, [], _, _ => rfl
  | x :: a, y :: b, h, hl => by
    unfold Db.lexLt at hl ⊢
    by_cases h1 : x < y
    · rw [if_pos h1] at hl; cases hl
    · by_cases h2 : y < x
      · rw [if_pos h2]
      · rw [if_neg h1, if_neg h2] at hl
        rw [if_neg h2, if_neg h1]
        have e : x = y := by
          apply uint8_ext
          rw [UInt8.lt_iff_toNat_lt] at h1 h2
          omega
        subst e
        exact lexLt_trichotomy a b (fun he => h (by rw [he])) hl

theorem lexLt_trans : ∀ {a b c : Bytes}, Db.lexLt a b = true → Db.lexLt b c = true → Db.lexLt a c = true
  | a, [], _, h, _ => by cases a <;> cases h
  | _, _ :: _, [], _, h => by cases h
  | [], _ :: _, _ :: _, _, _ => rfl
  | x :: a, y :: b, z :: c, h1, h2 => by
    unfold Db.lexLt at h1 h2 ⊢
    by_cases hxy : x < y
    · by_cases hyz : y < z
      · rw [if_pos (by rw [UInt8.lt_iff_toNat_lt] at *; omega)]
      · rw [if_neg hyz] at h2
        by_cases hzy : z < y
        · rw [if_pos hzy] at h2; cases h2
        · rw [if_pos (by rw [UInt8.lt_iff_toNat_lt] at *; omega)]
    · rw [if_neg hxy] at h1
      by_cases hyx : y < x
      · rw [if_pos hyx] at h1; cases h1
      · rw [if_neg hyx] at h1
        have e : x = y := by
          apply uint8_ext
          rw [UInt8.lt_iff_toNat_lt] at hxy hyx
          omega
        subst e
        by_cases hyz : x < z
        · rw [if_pos hyz]
        · rw [if_neg hyz] at h2 ⊢
          by_cases hzy : z < x
          · rw [if_pos hzy] at h2; cases h2
          · rw [if_neg hzy] at h2 ⊢
            exact lexLt_trans h1 h2

/-- A new key goes to its place. -/
theorem upsert_fresh : ∀ {t : Db.Table} {k v : Bytes}, Increasing t → (∀ e ∈ t, e.1 ≠ k) →
    Increasing (t.upsert k v) ∧ (t.upsert k v).Perm ((k, v) :: t)
  | [], k, v, _, _ => ⟨List.pairwise_singleton _ _, List.Perm.refl _⟩
  | (k', v') :: t, k, v, hi, hf => by
    have hi' := List.pairwise_cons.mp hi
    unfold Db.Table.upsert
    rw [if_neg (hf (k', v') (List.mem_cons_self ..))]
    by_cases hl : Db.lexLt k k' = true
    · rw [if_pos hl]
      refine ⟨List.pairwise_cons.mpr ⟨?_, hi⟩, List.Perm.refl _⟩
      intro e he
      rcases List.mem_cons.mp he with rfl | he
      · exact keyLt_iff.mpr hl
      · exact keyLt_iff.mpr (lexLt_trans hl (keyLt_iff.mp (hi'.1 e he)))
    · rw [if_neg hl]
      obtain ⟨h1, h2⟩ := upsert_fresh (v := v) hi'.2 (fun e he => hf e (List.mem_cons_of_mem _ he))
      constructor
      · refine List.pairwise_cons.mpr ⟨?_, h1⟩
        intro e he
        rcases List.mem_cons.mp (h2.mem_iff.mp he) with rfl | he
        · exact keyLt_iff.mpr (lexLt_trichotomy _ _ (fun h0 => hf (k', v') (List.mem_cons_self ..) h0.symm) (by
            cases h0 : Db.lexLt k k'
            · rfl
            · exact absurd h0 hl))
        · exact hi'.1 e he
      · exact (h2.cons _).trans (List.Perm.swap ..)

theorem insertAll_distinct : ∀ {es : List (Bytes × Bytes)} {t : Db.Table}, Increasing t →
    (t ++ es).Pairwise (fun a b => a.1 ≠ b.1) → Increasing (insertAll t es) ∧ (insertAll t es).Perm (t ++ es)
  | [], t, hi, _ => ⟨hi, by rw [List.append_nil]; exact List.Perm.refl _⟩
  | e :: es, t, hi, hd => by
    have hd' := List.pairwise_append.mp hd
    have hf : ∀ x ∈ t, x.1 ≠ e.1 := fun x hx => hd'.2.2 x hx e (List.mem_cons_self ..)
    obtain ⟨h1, h2⟩ := upsert_fresh (v := e.2) hi hf
    have hp : (t.upsert e.1 e.2 ++ es).Perm (t ++ e :: es) :=
      (h2.append_right es).trans (List.perm_middle (l₁ := t) (a := e) (l₂ := es)).symm
    have hd2 : (t.upsert e.1 e.2 ++ es).Pairwise (fun a b => a.1 ≠ b.1) :=
      (hp.pairwise_iff (fun h => fun h0 => h h0.symm)).mpr hd
    obtain ⟨h3, h4⟩ := insertAll_distinct h1 hd2
    exact ⟨h3, h4.trans hp⟩

theorem prefixFree_of_length {es : List (Bytes × Bytes)} (hl : ∀ e ∈ es, e.1.length = 32)
    (hd : es.Pairwise (fun a b => a.1 ≠ b.1)) : PrefixFree es := by
  refine hd.imp_of_mem ?_
  intro a b ha hb hab
  constructor
  · intro h; exact hab (h.eq_of_length (by rw [hl a ha, hl b hb]))
  · intro h; exact hab (h.eq_of_length (by rw [hl a ha, hl b hb])).symm

/-- Distinct keys of 32 bytes: the root of the ordered map is the root of the trie. -/
theorem rootOfTable_spec {keccak : Bytes → Bytes} (hk : ∀ x, (keccak x).length = 32) {es : List (Bytes × Bytes)}
    (hne : es ≠ []) (hl : ∀ e ∈ es, e.1.length = 32) (hd : es.Pairwise (fun a b => a.1 ≠ b.1))
    (hv : ∀ e ∈ es, e.2.length < 2 ^ 62) :
    rootOfTable keccak (insertAll [] es) = .ok (trieRoot keccak es) := by
  obtain ⟨h1, h2⟩ := insertAll_distinct (es := es) (t := []) List.Pairwise.nil hd
  rw [List.nil_append] at h2
  have hpf : PrefixFree (insertAll [] es) := by
    apply prefixFree_of_length
    · intro e he; exact hl e (h2.mem_iff.mp he)
    · exact (h2.pairwise_iff (fun h => fun h0 => h h0.symm)).mpr hd
  have hz : Sized (insertAll [] es) := by
    intro e he
    have h3 := hl e (h2.mem_iff.mp he)
    have h4 := hv e (h2.mem_iff.mp he)
    omega
  have hne' : insertAll [] es ≠ [] := fun h0 => hne (List.nil_perm.mp (h0 ▸ h2))
  obtain ⟨r, s, h⟩ := buildRoot_total hk hz h1 hpf (by
    intro e he h0
    have := hl e (h2.mem_iff.mp he)
    rw [h0] at this
    cases this)
  unfold rootOfTable
  rw [h]
  show Outcome.ok r = _
  rw [(buildRoot_ok hk hz hne' h).1, trieRoot_perm keccak h2 hpf]

theorem pairwise_keys {K V W : Type} {m : AMap K V} {f : K × V → W} {keccak : K → Bytes} {g : K × V → Bytes × W}
    (hg : ∀ e, g e = (keccak e.1, f e)) (hw : AMap.WF m)
    (hinj : ∀ a ∈ AMap.keys m, ∀ b ∈ AMap.keys m, keccak a = keccak b → a = b) :
    (m.map g).Pairwise (fun a b => a.1 ≠ b.1) := by
  rw [List.pairwise_map]
  have hw' : m.Pairwise (fun a b => a.1 ≠ b.1) := List.pairwise_map.mp hw
  refine hw'.imp_of_mem ?_
  intro a b ha hb hab h
  rw [hg, hg] at h
  exact hab (hinj _ (List.mem_map_of_mem ha) _ (List.mem_map_of_mem hb) h)

theorem encodeBytes_length_lt {s : Bytes} (h : s.length ≤ 32) : (encodeBytes s).length < 2 ^ 62 := by
  rw [← Spec.rlp_str_eq (by omega)]
  show (Spec.rlpStr s).length < _
  unfold Spec.rlpStr
  split
  · split
    · simp
    · simp [Spec.lenPrefix]
  · unfold Spec.lenPrefix
    rw [if_pos (by omega)]
    simp only [List.length_append, List.length_singleton]
    omega

theorem zerolessView_length (v : Bytes) : (zerolessView v).length ≤ v.length := by
  obtain ⟨k, h1, _⟩ := zerolessView_spec v
  have := congrArg List.length h1
  rw [List.length_append] at this
  omega

theorem accountRlp_length {a : Account} (hw : a.WF) {root : Bytes} (hr : root.length = 32) :
    (a.rlp root).length < 2 ^ 62 := by
  have hu : ∀ k n, k ≤ 32 → n < 256 ^ k → (encodeUint k n).length ≤ 33 := by
    intro k n hk hn
    unfold encodeUint
    split
    · simp
    · split
      · simp
      · simp only [List.length_cons, bigEndian_length hn]
        have := byteLen_le hn
        omega
  have h1 := hu 8 a.nonce (by omega) (by have := hw.nonce; rw [pow256]; exact this)
  have h2 := hu 32 a.balance (by omega) (by have := hw.balance; rw [pow256]; exact this)
  have h3 : ∀ h, (encodeHeader h).length ≤ 9 := by
    intro h
    unfold encodeHeader
    split
    · simp
    · simp only [List.length_cons, bigEndian, List.length_drop, beFixed_length]
      omega
  have h4 : ∀ b : Bytes, b.length = 32 → (encodeArray b).length = 33 := by
    intro b hb
    simp [encodeArray, hb]
  unfold Account.rlp
  simp only [List.length_append, h4 _ hr, h4 _ hw.codeHash]
  have h5 := h3 ⟨true, lengthUint 8 a.nonce + lengthUint 32 a.balance + (32 + 1) + (32 + 1)⟩
  omega

/-- What the maps of a buffer satisfy: one entry for a key, values of 32 bytes, no value zero. -/
structure StorageOk (m : AMap Bytes Bytes) : Prop where
  wf : AMap.WF m
  length : ∀ e ∈ m, e.2.length = 32
  nonzero : ∀ e ∈ m, e.2 ≠ zero32

theorem beToNat_zero {v : Bytes} (hl : v.length = 32) (h : beToNat v = 0) : v = zero32 := by
  have := beFixed_beToNat v
  rw [hl, h] at this
  rw [← this]
  decide

/-- No two keys of the map have the same hash. -/
def NoCollision {V : Type} (keccak : Bytes → Bytes) (m : AMap Bytes V) : Prop :=
  ∀ a ∈ AMap.keys m, ∀ b ∈ AMap.keys m, keccak a = keccak b → a = b

theorem accountStorageRoot_spec {keccak : Bytes → Bytes} (hk : ∀ x, (keccak x).length = 32)
    (h0 : keccak [0x80] = kEmptyRoot) {b : MemoryBuffer} {a : Bytes} {i : Nat} (hs : StorageOk (storageOf b a i))
    (hn : NoCollision keccak (storageOf b a i)) :
    accountStorageRoot keccak b a i = .ok (storageRoot keccak (storageOf b a i)) := by
  unfold accountStorageRoot
  simp only
  by_cases he : storageOf b a i = []
  · rw [if_pos he, he]
    exact congrArg Outcome.ok h0.symm
  · rw [if_neg he]
    have hm : ∀ e ∈ storageOf b a i, (keccak e.1, encodeBytes (zerolessView e.2)) = (keccak e.1, rlp (num (fromBe e.2))) := by
      intro e hm
      rw [fromBe_eq]
      unfold num
      have h1 := zerolessView_length e.2
      rw [Spec.rlp_str_eq (by rw [← zerolessView_be]; have := hs.length e hm; omega), zerolessView_be]
    have hf : (storageOf b a i).filter (fun e => fromBe e.2 ≠ 0) = storageOf b a i := by
      rw [List.filter_eq_self]
      intro e hm
      rw [fromBe_eq, decide_eq_true_eq]
      exact fun h => hs.nonzero e hm (beToNat_zero (hs.length e hm) h)
    rw [rootOfTable_spec hk (by simpa using he)]
    · unfold storageRoot
      rw [hf, List.map_congr_left hm]
    · intro e hm
      obtain ⟨x, _, rfl⟩ := List.mem_map.mp hm
      exact hk _
    · exact pairwise_keys (keccak := keccak) (fun e => rfl) hs.wf hn
    · intro e hm
      obtain ⟨x, hx, rfl⟩ := List.mem_map.mp hm
      apply encodeBytes_length_lt
      have h1 := zerolessView_length x.2
      have h2 := hs.length x hx
      omega

theorem accountEntries_spec {keccak : Bytes → Bytes} (hk : ∀ x, (keccak x).length = 32)
    (h0 : keccak [0x80] = kEmptyRoot) {b : MemoryBuffer} :
    ∀ {es : List (Bytes × Account)}, (∀ e ∈ es, e.2.WF) → (∀ e ∈ es, StorageOk (storageOf b e.1 e.2.incarnation)) →
    (∀ e ∈ es, NoCollision keccak (storageOf b e.1 e.2.incarnation)) →
    accountEntries keccak b es = .ok (es.map (fun e => (keccak e.1,
      rlp (accountItem e.2 (storageRoot keccak (storageOf b e.1 e.2.incarnation))))))
  | [], _, _, _ => rfl
  | e :: es, hw, hs, hn => by
    unfold accountEntries
    rw [accountStorageRoot_spec hk h0 (hs e (List.mem_cons_self ..)) (hn e (List.mem_cons_self ..)),
      accountEntries_spec hk h0 (fun x hx => hw x (List.mem_cons_of_mem _ hx)) (fun x hx => hs x (List.mem_cons_of_mem _ hx))
        (fun x hx => hn x (List.mem_cons_of_mem _ hx))]
    show Outcome.ok _ = _
    rw [accountRlp_spec (hw e (List.mem_cons_self ..)) (show (storageRoot keccak _).length = 32 from hk _)]
    rfl

theorem stateRootHash_spec {keccak : Bytes → Bytes} (hk : ∀ x, (keccak x).length = 32)
    (h0 : keccak [0x80] = kEmptyRoot) {b : MemoryBuffer} (hw : AMap.WF b.accounts) (ha : ∀ e ∈ b.accounts, e.2.WF)
    (hs : ∀ e ∈ b.accounts, StorageOk (storageOf b e.1 e.2.incarnation)) (hn : NoCollision keccak b.accounts)
    (hn2 : ∀ e ∈ b.accounts, NoCollision keccak (storageOf b e.1 e.2.incarnation)) :
    stateRootHash keccak b =
      .ok (stateRoot keccak (b.accounts.map (fun e => (e.1, e.2, storageOf b e.1 e.2.incarnation)))) := by
  unfold stateRootHash
  by_cases he : b.accounts = []
  · rw [if_pos he, he]
    exact congrArg Outcome.ok h0.symm
  · rw [if_neg he, accountEntries_spec hk h0 ha hs hn2]
    show rootOfTable keccak _ = _
    rw [rootOfTable_spec hk (by simpa using he)]
    · unfold stateRoot
      rw [List.map_map]
      rfl
    · intro e hm
      obtain ⟨x, _, rfl⟩ := List.mem_map.mp hm
      exact hk _
    · exact pairwise_keys (keccak := keccak) (fun e => rfl) hw hn
    · intro e hm
      obtain ⟨x, hx, rfl⟩ := List.mem_map.mp hm
      have hr : (storageRoot keccak (storageOf b x.1 x.2.incarnation)).length = 32 := hk _
      show (rlp (accountItem x.2 _)).length < _
      rw [← accountRlp_spec (ha x hx) hr]
      exact accountRlp_length (ha x hx) hr

/-! ## The conditions hold for every buffer -/

/-- All inner maps of the storage satisfy the conditions. -/
def NestedOk (m : AMap Bytes (AMap Nat (AMap Bytes Bytes))) : Prop :=
  ∀ a m1 n m2, m.get? a = some m1 → m1.get? n = some m2 → StorageOk m2

theorem storageOk_nil : StorageOk [] := ⟨AMap.WF_nil, fun e h => (by cases h), fun e h => (by cases h)⟩

theorem storageOk_erase {m : AMap Bytes Bytes} (h : StorageOk m) (k : Bytes) : StorageOk (m.erase k) :=
  ⟨AMap.WF_erase h.wf k, fun e he => h.length e ((List.mem_filter.mp he).1), fun e he => h.nonzero e ((List.mem_filter.mp he).1)⟩

theorem storageOk_set {m : AMap Bytes Bytes} (h : StorageOk m) {k v : Bytes} (hl : v.length = 32) (hv : v ≠ zero32) :
    StorageOk (m.set k v) := by
  refine ⟨AMap.WF_set h.wf k v, ?_, ?_⟩
  · intro e he
    rcases List.mem_cons.mp he with rfl | he
    · exact hl
    · exact h.length e ((List.mem_filter.mp he).1)
  · intro e he
    rcases List.mem_cons.mp he with rfl | he
    · exact hv
    · exact h.nonzero e ((List.mem_filter.mp he).1)

theorem nestedOk_inner {m : AMap Bytes (AMap Nat (AMap Bytes Bytes))} (h : NestedOk m) (a : Bytes) (n : Nat) :
    StorageOk ((((m.get? a).getD []).get? n).getD []) := by
  cases h1 : m.get? a with
  | none => exact storageOk_nil
  | some m1 =>
    cases h2 : m1.get? n with
    | none => simp only [Option.getD_some, h2, Option.getD_none]; exact storageOk_nil
    | some m2 => simp only [Option.getD_some, h2]; exact h a m1 n m2 h1 h2

theorem nestedOk_put {m : AMap Bytes (AMap Nat (AMap Bytes Bytes))} (h : NestedOk m) (a : Bytes) (n : Nat)
    {m2 : AMap Bytes Bytes} (h2 : StorageOk m2) : NestedOk (m.set a (((m.get? a).getD []).set n m2)) := by
  intro b m1 j m3 e1 e2
  rw [AMap.get?_set] at e1
  by_cases hb : b = a
  · rw [if_pos hb] at e1
    cases e1
    rw [AMap.get?_set] at e2
    by_cases hj : j = n
    · rw [if_pos hj] at e2
      cases e2
      exact h2
    · rw [if_neg hj] at e2
      cases h1 : m.get? a with
      | none => rw [h1] at e2; cases e2
      | some m1 => rw [h1] at e2; exact h a m1 j m3 h1 e2
  · rw [if_neg hb] at e1
    exact h b m1 j m3 e1 e2

theorem nestedOk_storeValue {m : AMap Bytes (AMap Nat (AMap Bytes Bytes))} (h : NestedOk m) (a : Bytes) (n : Nat)
    (k : Bytes) {v : Bytes} (hl : v.length = 32) : NestedOk (MemoryBuffer.storeValue m a n k v) := by
  unfold MemoryBuffer.storeValue
  by_cases hv : v = zero32
  · rw [if_pos hv]
    exact nestedOk_put h a n (storageOk_erase (nestedOk_inner h a n) k)
  · rw [if_neg hv]
    exact nestedOk_put h a n (storageOk_set (nestedOk_inner h a n) hl hv)

theorem storageOf_ok {b : MemoryBuffer} (h : NestedOk b.storage) (a : Bytes) (n : Nat) : StorageOk (storageOf b a n) := by
  unfold storageOf
  cases h1 : b.storage.get? a with
  | none => exact storageOk_nil
  | some m1 =>
    have := nestedOk_inner h a n
    rw [h1] at this
    exact this

/-- The values of a nested map have 32 bytes. -/
def ValuesOk (m : AMap Bytes (AMap Nat (AMap Bytes Bytes))) : Prop :=
  ∀ e1 ∈ m, ∀ e2 ∈ e1.2, ∀ e3 ∈ e2.2, e3.2.length = 32

theorem valuesOk_nestedSet {m : AMap Bytes (AMap Nat (AMap Bytes Bytes))} (h : ValuesOk m) (a : Bytes) (n : Nat)
    (k : Bytes) {v : Bytes} (hv : v.length = 32) : ValuesOk (MemoryBuffer.nestedSet m a n k v) := by
  unfold MemoryBuffer.nestedSet
  simp only
  intro e1 h1 e2 h2 e3 h3
  rcases List.mem_cons.mp h1 with rfl | h1
  · rcases List.mem_cons.mp h2 with rfl | h2
    · rcases List.mem_cons.mp h3 with rfl | h3
      · exact hv
      · have h3 := (List.mem_filter.mp h3).1
        cases ha : m.get? a with
        | none => rw [ha] at h3; cases h3
        | some m1 =>
          rw [ha] at h3
          cases hn : m1.get? n with
          | none => simp only [Option.getD_some, hn] at h3; cases h3
          | some m2 =>
            simp only [Option.getD_some, hn] at h3
            exact h _ (AMap.mem_of_get? ha) _ (AMap.mem_of_get? hn) _ h3
    · have h2 := (List.mem_filter.mp h2).1
      cases ha : m.get? a with
      | none => rw [ha] at h2; cases h2
      | some m1 =>
        rw [ha] at h2
        exact h _ (AMap.mem_of_get? ha) _ h2 _ h3
  · exact h _ (List.mem_filter.mp h1).1 _ h2 _ h3

theorem valuesOk_entries {m : AMap Bytes (AMap Nat (AMap Bytes Bytes))} (h : ValuesOk m) :
    ∀ e ∈ MemoryBuffer.nestedEntries m, e.2.2.2.length = 32 := by
  intro e he
  unfold MemoryBuffer.nestedEntries at he
  obtain ⟨e1, h1, he⟩ := List.mem_flatMap.mp he
  obtain ⟨e2, h2, he⟩ := List.mem_flatMap.mp he
  obtain ⟨e3, h3, rfl⟩ := List.mem_map.mp he
  exact h e1 h1 e2 h2 e3 h3

/-- The accounts in a change set are well-formed. -/
def ChangesOk (m : AMap Bytes (Option Account)) : Prop := ∀ e ∈ m, ∀ x, e.2 = some x → x.WF

/-- What every buffer satisfies. -/
structure BufferOk (b : MemoryBuffer) : Prop where
  keys : AMap.WF b.accounts
  accounts : ∀ e ∈ b.accounts, e.2.WF
  storage : NestedOk b.storage
  accountChanges : ∀ e ∈ b.accountChanges, ChangesOk e.2
  storageChanges : ∀ e ∈ b.storageChanges, ValuesOk e.2

/-- The arguments have the values their types allow. -/
def CallOk : BufferCall → Prop
  | .updateAccount _ i c => (∀ x, i = some x → x.WF) ∧ (∀ x, c = some x → x.WF)
  | .updateStorage _ _ _ i c => i.length = 32 ∧ c.length = 32
  | _ => True

theorem bufferOk_empty : BufferOk {} :=
  ⟨AMap.WF_nil, (fun e h => by cases h), (fun a m1 n m2 h => by cases h), (fun e h => by cases h), (fun e h => by cases h)⟩

theorem getD_changes {b : MemoryBuffer} (h : BufferOk b) (n : Nat) : ChangesOk ((b.accountChanges.get? n).getD []) := by
  cases h1 : b.accountChanges.get? n with
  | none => intro e he; cases he
  | some m => exact h.accountChanges _ (AMap.mem_of_get? h1)

theorem getD_storageChanges {b : MemoryBuffer} (h : BufferOk b) (n : Nat) :
    ValuesOk ((b.storageChanges.get? n).getD []) := by
  cases h1 : b.storageChanges.get? n with
  | none => intro e he; cases he
  | some m => exact h.storageChanges _ (AMap.mem_of_get? h1)

theorem bufferOk_apply {b : MemoryBuffer} (h : BufferOk b) {c : BufferCall} (hc : CallOk c) : BufferOk (b.apply c) := by
  cases c with
  | beginBlock n =>
    exact ⟨h.keys, h.accounts, h.storage, fun e he => h.accountChanges e (List.mem_filter.mp he).1,
      fun e he => h.storageChanges e (List.mem_filter.mp he).1⟩
  | updateAccount a i c =>
    have hch : ∀ e ∈ b.accountChanges.set b.blockNumber (((b.accountChanges.get? b.blockNumber).getD []).set a i),
        ChangesOk e.2 := by
      intro e he
      rcases List.mem_cons.mp he with rfl | he
      · intro x hx y hy
        rcases List.mem_cons.mp hx with rfl | hx
        · exact hc.1 y hy
        · exact getD_changes h _ x (List.mem_filter.mp hx).1 y hy
      · exact h.accountChanges e (List.mem_filter.mp he).1
    cases c with
    | none =>
      exact ⟨AMap.WF_erase h.keys a, fun e he => h.accounts e (List.mem_filter.mp he).1, h.storage, hch, h.storageChanges⟩
    | some x =>
      refine ⟨AMap.WF_set h.keys a x, ?_, h.storage, hch, h.storageChanges⟩
      intro e he
      rcases List.mem_cons.mp he with rfl | he
      · exact hc.2 x rfl
      · exact h.accounts e (List.mem_filter.mp he).1
  | updateAccountCode a n x y => exact ⟨h.keys, h.accounts, h.storage, h.accountChanges, h.storageChanges⟩
  | updateStorage a n k i c =>
    refine ⟨h.keys, h.accounts, nestedOk_storeValue h.storage a n k hc.2, h.accountChanges, ?_⟩
    intro e he
    rcases List.mem_cons.mp he with rfl | he
    · exact valuesOk_nestedSet (getD_storageChanges h _) a n k hc.1
    · exact h.storageChanges e (List.mem_filter.mp he).1

theorem restore_ok : ∀ {l : List (Bytes × Option Account)} {m : AMap Bytes Account}, (∀ e ∈ l, ∀ x, e.2 = some x → x.WF) →
    AMap.WF m → (∀ e ∈ m, e.2.WF) → AMap.WF (l.foldl MemoryBuffer.restoreAccount m) ∧
      ∀ e ∈ l.foldl MemoryBuffer.restoreAccount m, e.2.WF
  | [], _, _, hw, ha => ⟨hw, ha⟩
  | e :: l, m, hl, hw, ha => by
    rw [List.foldl_cons]
    apply restore_ok (fun x hx => hl x (List.mem_cons_of_mem _ hx))
    · unfold MemoryBuffer.restoreAccount
      cases e.2 with
      | none => exact AMap.WF_erase hw _
      | some a => exact AMap.WF_set hw _ _
    · intro x hx
      unfold MemoryBuffer.restoreAccount at hx
      cases he : e.2 with
      | none => rw [he] at hx; exact ha x (List.mem_filter.mp hx).1
      | some a =>
        rw [he] at hx
        rcases List.mem_cons.mp hx with rfl | hx
        · exact hl e (List.mem_cons_self ..) a he
        · exact ha x (List.mem_filter.mp hx).1

theorem bufferOk_unwind {b : MemoryBuffer} (h : BufferOk b) (n : Nat) : BufferOk (b.unwindStateChanges n) := by
  have h1 := restore_ok (getD_changes h n) h.keys h.accounts
  refine ⟨h1.1, h1.2, ?_, h.accountChanges, h.storageChanges⟩
  have hv := valuesOk_entries (getD_storageChanges h n)
  have key : ∀ (l : List (Bytes × Nat × Bytes × Bytes)) (m : AMap Bytes (AMap Nat (AMap Bytes Bytes))),
      (∀ e ∈ l, e.2.2.2.length = 32) → NestedOk m →
      NestedOk (l.foldl (fun m e => MemoryBuffer.storeValue m e.1 e.2.1 e.2.2.1 e.2.2.2) m) := by
    intro l
    induction l with
    | nil => intro m _ hm; exact hm
    | cons e l ih =>
      intro m hl hm
      rw [List.foldl_cons]
      exact ih _ (fun x hx => hl x (List.mem_cons_of_mem _ hx)) (nestedOk_storeValue hm _ _ _ (hl e (List.mem_cons_self ..)))
  exact key _ _ hv h.storage

end Silkworm.Trie
