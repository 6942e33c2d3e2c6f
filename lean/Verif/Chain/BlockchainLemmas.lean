import Verif.Chain.Blockchain
import Verif.Chain.ValidityLemmas
import Verif.Trie.StateRootLemmas
import Verif.Spec.Blockchain

/-!
# Lemmas about the model of `Blockchain`
-/

namespace Silkworm.Blockchain

open Silkworm.Spec (ChainTo CanonicalChain)
open MemoryBuffer (indexGet? indexSet grow)

/-- The parts about blocks are the same. -/
def Same (b c : MemoryBuffer) : Prop :=
  c.headers = b.headers ∧ c.bodies = b.bodies ∧ c.difficulty = b.difficulty ∧ c.canonicalHashes = b.canonicalHashes

theorem Same.refl (b : MemoryBuffer) : Same b b := ⟨rfl, rfl, rfl, rfl⟩

theorem Same.trans {a b c : MemoryBuffer} (h : Same a b) (k : Same b c) : Same a c :=
  ⟨k.1.trans h.1, k.2.1.trans h.2.1, k.2.2.1.trans h.2.2.1, k.2.2.2.trans h.2.2.2⟩

theorem same_apply (b : MemoryBuffer) (c : BufferCall) : Same b (b.apply c) := by
  cases c with
  | beginBlock n => exact ⟨rfl, rfl, rfl, rfl⟩
  | updateAccount a i c => cases c <;> exact ⟨rfl, rfl, rfl, rfl⟩
  | updateAccountCode _ _ h code => exact ⟨rfl, rfl, rfl, rfl⟩
  | updateStorage a n k i c => exact ⟨rfl, rfl, rfl, rfl⟩

theorem same_applyAll (L : List BufferCall) (b : MemoryBuffer) : Same b (b.applyAll L) := by
  induction L generalizing b with
  | nil => exact Same.refl b
  | cons c L ih => exact (same_apply b c).trans (ih (b.apply c))

theorem same_unwind (b : MemoryBuffer) (n : Nat) : Same b (b.unwindStateChanges n) := ⟨rfl, rfl, rfl, rfl⟩

theorem same_unwinds (l : List Nat) (b : MemoryBuffer) : Same b (l.foldl (fun b n => b.unwindStateChanges n) b) := by
  induction l generalizing b with
  | nil => exact Same.refl b
  | cons n l ih => exact (same_unwind b n).trans (ih _)

theorem same_unwindLast {b c : MemoryBuffer} {a t : Nat} (h : unwindLast b a t = .ok c) : Same b c ∧ a ≤ t := by
  unfold unwindLast at h
  by_cases hlt : t < a
  · rw [if_pos hlt] at h; cases h
  · rw [if_neg hlt] at h
    injection h with h
    subst h
    exact ⟨same_unwinds _ b, by omega⟩

theorem same_checkStateRoot {env : ChainEnv} {b : MemoryBuffer} {x : Block} {r : MemoryBuffer × Option ValidationError}
    (h : checkStateRoot env b x = .ok r) : Same b r.1 := by
  unfold checkStateRoot at h
  obtain ⟨root, _, h⟩ := Trie.bind_ok.mp h
  split at h
  · injection h with h; subst h; exact same_unwind b _
  · injection h with h; subst h; exact Same.refl b

theorem same_executeBlock {env : ChainEnv} {b : MemoryBuffer} {x : Block} {check : Bool}
    {r : MemoryBuffer × Option ValidationError} (h : executeBlock env b x check = .ok r) : Same b r.1 := by
  unfold executeBlock at h
  cases he : env.execute b x with
  | ub => rw [he] at h; cases h
  | err e => rw [he] at h; injection h with h; subst h; exact Same.refl b
  | ok calls =>
    rw [he] at h
    dsimp only at h
    cases check with
    | false =>
      simp only [Bool.false_eq_true, if_false] at h
      injection h with h; subst h; exact same_applyAll calls b
    | true =>
      simp only [if_true] at h
      exact (same_applyAll calls b).trans (same_checkStateRoot h)

theorem same_executeChain {env : ChainEnv} {check : Bool} (L : List (Block × Bytes)) {b : MemoryBuffer}
    {r : MemoryBuffer × Nat × Option ValidationError} (h : executeChain env check b L = .ok r) : Same b r.1 := by
  induction L generalizing b r with
  | nil => injection h with h; subst h; exact Same.refl b
  | cons x L ih =>
    unfold executeChain at h
    obtain ⟨⟨b', o⟩, h1, h⟩ := Trie.bind_ok.mp h
    have hs := same_executeBlock h1
    cases o with
    | some e => injection h with h; subst h; exact hs
    | none =>
      obtain ⟨q, h2, h⟩ := Trie.bind_ok.mp h
      injection h with h
      subst h
      exact hs.trans (show Same b' q.1 from ih h2)

theorem same_reExecuteBlock {env : ChainEnv} {b c : MemoryBuffer} {n : Nat} (h : reExecuteBlock env b n = .ok c) :
    Same b c := by
  unfold reExecuteBlock at h
  cases hh : b.canonicalHash n with
  | none => rw [hh] at h; cases h
  | some hash =>
    rw [hh] at h
    obtain ⟨x, _, h⟩ := Trie.bind_ok.mp h
    obtain ⟨⟨b', o⟩, h1, h⟩ := Trie.bind_ok.mp h
    cases o with
    | some e => cases h
    | none => injection h with h; subst h; exact same_executeBlock h1

theorem same_reExecuteLoop {env : ChainEnv} (l : List Nat) {b c : MemoryBuffer} (h : reExecuteLoop env b l = .ok c) :
    Same b c := by
  induction l generalizing b with
  | nil => injection h with h; subst h; exact Same.refl b
  | cons n l ih =>
    unfold reExecuteLoop at h
    obtain ⟨b', h1, h⟩ := Trie.bind_ok.mp h
    exact (same_reExecuteBlock h1).trans (ih h)

theorem same_restore {env : ChainEnv} {b c : MemoryBuffer} {a e t : Nat} (h : restore env b a e t = .ok c) : Same b c := by
  unfold restore at h
  obtain ⟨b', h1, h⟩ := Trie.bind_ok.mp h
  unfold reExecute at h
  split at h
  · cases h
  · exact (same_unwindLast h1).1.trans (same_reExecuteLoop _ h)

/-! ### Vectors of maps -/

theorem indexGet?_set_grow {V : Type} (m : List (AMap Bytes V)) (n : Nat) (h : Bytes) (v : V) (i : Nat) (k : Bytes) :
    indexGet? (indexSet (grow m n) n h v) i k = if i = n ∧ k = h then some v else indexGet? m i k := by
  unfold indexGet? indexSet grow
  rw [List.getElem?_modify]
  by_cases hi : i < m.length
  · rw [List.getElem?_append_left hi, List.getElem?_eq_getElem hi]
    by_cases hn : n = i
    · subst hn
      simp only [true_and, if_true, Option.map_eq_map, Option.map_some, AMap.get?_set]
    · have : ¬ (i = n ∧ k = h) := fun e => hn e.1.symm
      simp [hn, this]
  · rw [List.getElem?_append_right (by omega)]
    have hm : m[i]? = none := List.getElem?_eq_none (by omega)
    rw [hm, List.getElem?_replicate]
    by_cases hn : n = i
    · subst hn
      have : n - m.length < n + 1 - m.length := by omega
      simp only [this, if_true, Option.map_eq_map, Option.map_some, true_and, AMap.get?_set, AMap.get?_nil]
    · have h2 : ¬ (i = n ∧ k = h) := fun e => hn e.1.symm
      rw [if_neg h2]
      by_cases h3 : i - m.length < n + 1 - m.length
      · simp [hn, h3]
      · simp [hn, h3]

theorem indexGet?_grow {V : Type} (m : List (AMap Bytes V)) (n i : Nat) (k : Bytes) :
    indexGet? (grow m n) i k = indexGet? m i k := by
  unfold indexGet? grow
  by_cases hi : i < m.length
  · rw [List.getElem?_append_left hi]
  · rw [List.getElem?_append_right (by omega)]
    have hm : m[i]? = none := List.getElem?_eq_none (by omega)
    rw [hm, List.getElem?_replicate]
    by_cases h3 : i - m.length < n + 1 - m.length
    · simp [h3]
    · simp [h3]

theorem indexGet?_set {V : Type} (m : List (AMap Bytes V)) (n : Nat) (h : Bytes) (v : V) (i : Nat) (k : Bytes)
    (hn : n < m.length) :
    indexGet? (indexSet m n h v) i k = if i = n ∧ k = h then some v else indexGet? m i k := by
  have hg : grow m n = m := by
    unfold grow
    rw [show n + 1 - m.length = 0 by omega]
    simp
  have := indexGet?_set_grow m n h v i k
  rw [hg] at this
  exact this

theorem insertDifficulty_get {m : List (AMap Bytes Nat)} {n : Nat} {p h : Bytes} {d e : Nat}
    (hp : indexGet? m n p = some e) (i : Nat) (k : Bytes) :
    indexGet? (MemoryBuffer.insertDifficulty m (n + 1) p h d) i k =
      if i = n + 1 ∧ k = h then some ((e + d) % 2 ^ 256) else indexGet? m i k := by
  unfold MemoryBuffer.insertDifficulty
  simp only [Nat.add_one_ne_zero, if_false, Nat.add_sub_cancel, indexGet?_grow, hp, Option.getD_some]
  have hl : n + 1 < (grow m (n + 1)).length := by
    unfold grow
    rw [List.length_append, List.length_replicate]
    omega
  have hl2 : (indexSet (grow m (n + 1)) n p e).length = (grow m (n + 1)).length := by
    unfold indexSet; rw [List.length_modify]
  rw [indexGet?_set _ _ _ _ _ _ (by omega), indexGet?_set _ _ _ _ _ _ (by omega), indexGet?_grow]
  by_cases h1 : i = n + 1 ∧ k = h
  · rw [if_pos h1, if_pos h1]
  · rw [if_neg h1, if_neg h1]
    by_cases h2 : i = n ∧ k = p
    · rw [if_pos h2, h2.1, h2.2, hp]
    · rw [if_neg h2]

/-! ### Chains -/

theorem ChainTo.mono {H : BlockHeader → Bytes} {g : BlockHeader} {A B : List BlockHeader} (hAB : ∀ x ∈ A, x ∈ B)
    {h : Bytes} {d n : Nat} (c : ChainTo H g A h d n) : ChainTo H g B h d n := by
  induction c with
  | genesis => exact .genesis
  | step p d n x _ hx hp hn ih => exact .step p d n x ih (hAB x hx) hp hn

/-- The header at the end of a chain. -/
theorem ChainTo.last {H : BlockHeader → Bytes} {g : BlockHeader} {A : List BlockHeader} (hg : g ∈ A)
    {h : Bytes} {d n : Nat} (c : ChainTo H g A h d n) : ∃ x ∈ A, H x = h ∧ x.number = n := by
  cases c with
  | genesis => exact ⟨g, hg, rfl, rfl⟩
  | step p d n x _ hx hp hn => exact ⟨x, hx, rfl, rfl⟩

/-- Without collisions there is one chain to a block. -/
theorem ChainTo.unique {H : BlockHeader → Bytes} {g : BlockHeader} {A : List BlockHeader} (hg : g ∈ A)
    (hg0 : g.number = 0) (inj : ∀ x ∈ A, ∀ y ∈ A, H x = H y → x = y)
    {h : Bytes} {d n e m : Nat} (c : ChainTo H g A h d n) (c' : ChainTo H g A h e m) : d = e ∧ n = m := by
  induction c generalizing e m with
  | genesis =>
    generalize hh : H g = h at c'
    cases c' with
    | genesis => exact ⟨rfl, rfl⟩
    | step p d n x _ hx hp hn =>
      have := inj g hg x hx hh
      subst this
      omega
  | step p d n x c1 hx hp hn ih =>
    generalize hh : H x = h at c'
    cases c' with
    | genesis =>
      have := inj x hx g hg hh
      subst this
      omega
    | step p' d' n' x' c2 hx' hp' hn' =>
      have := inj x hx x' hx' hh
      subst this
      have hpp : p = p' := hp.symm.trans hp'
      subst hpp
      have := ih c2
      exact ⟨by omega, rfl⟩

theorem CanonicalChain.mono {H : BlockHeader → Bytes} {g : BlockHeader} {A B : List BlockHeader} (hAB : ∀ x ∈ A, x ∈ B)
    {hs : List Bytes} (c : CanonicalChain H g A hs) : CanonicalChain H g B hs :=
  ⟨c.genesis, fun n h e => by
    obtain ⟨x, hx, r⟩ := c.linked n h e
    exact ⟨x, hAB x hx, r⟩⟩

theorem CanonicalChain.take {H : BlockHeader → Bytes} {g : BlockHeader} {A : List BlockHeader}
    {hs : List Bytes} (c : CanonicalChain H g A hs) (k : Nat) : CanonicalChain H g A (hs.take (k + 1)) := by
  refine ⟨?_, fun n h e => ?_⟩
  · rw [List.getElem?_take_of_lt (by omega)]; exact c.genesis
  · have hlt : n + 1 < k + 1 := by
      rcases Nat.lt_or_ge (n + 1) (k + 1) with hl | hl
      · exact hl
      · rw [List.getElem?_take_eq_none hl] at e; cases e
    rw [List.getElem?_take_of_lt hlt] at e
    obtain ⟨x, hx, h1, h2, h3⟩ := c.linked n h e
    exact ⟨x, hx, h1, h2, by rw [List.getElem?_take_of_lt (by omega)]; exact h3⟩

theorem CanonicalChain.snoc {H : BlockHeader → Bytes} {g : BlockHeader} {A : List BlockHeader}
    {hs : List Bytes} {k : Nat} {x : BlockHeader} (c : CanonicalChain H g A hs) (hk : hs.length = k + 1) (hx : x ∈ A)
    (hn : x.number = k + 1) (hp : hs[k]? = some x.parentHash) : CanonicalChain H g A (hs ++ [H x]) := by
  refine ⟨?_, fun n h e => ?_⟩
  · rw [List.getElem?_append_left (by omega)]; exact c.genesis
  · rcases Nat.lt_trichotomy (n + 1) hs.length with hl | hl | hl
    · rw [List.getElem?_append_left hl] at e
      obtain ⟨y, hy, h1, h2, h3⟩ := c.linked n h e
      exact ⟨y, hy, h1, h2, by rw [List.getElem?_append_left (by omega)]; exact h3⟩
    · rw [List.getElem?_append_right (by omega), hl, Nat.sub_self] at e
      injection e with e
      have : n = k := by omega
      subst this
      exact ⟨x, hx, e, hn, by rw [List.getElem?_append_left (by omega)]; exact hp⟩
    · rw [List.getElem?_eq_none (by rw [List.length_append]; simp; omega)] at e
      cases e

/-- A list of blocks that continues the block with number `k` and hash `p` and ends in the hash `q`. -/
inductive Link (H : BlockHeader → Bytes) (A : List BlockHeader) (p : Bytes) (k : Nat) : List (Block × Bytes) → Bytes → Prop
  | nil : Link H A p k [] p
  | snoc (L : List (Block × Bytes)) (q : Bytes) (x : Block) : Link H A p k L q → x.header ∈ A → x.header.parentHash = q →
      x.header.number = k + L.length + 1 → Link H A p k (L ++ [(x, H x.header)]) (H x.header)

theorem Link.mono {H : BlockHeader → Bytes} {A B : List BlockHeader} (hAB : ∀ x ∈ A, x ∈ B) {p q : Bytes} {k : Nat}
    {L : List (Block × Bytes)} (l : Link H A p k L q) : Link H B p k L q := by
  induction l with
  | nil => exact .nil
  | snoc L q x _ hx hp hn ih => exact .snoc L q x ih (hAB _ hx) hp hn

theorem Link.canonical {H : BlockHeader → Bytes} {g : BlockHeader} {A : List BlockHeader} {hs : List Bytes} {p q : Bytes}
    {k : Nat} {L : List (Block × Bytes)} (c : CanonicalChain H g A hs) (hk : hs.length = k + 1) (hp : hs[k]? = some p)
    (l : Link H A p k L q) :
    CanonicalChain H g A (hs ++ L.map (·.2)) ∧ (hs ++ L.map (·.2))[k + L.length]? = some q := by
  induction l with
  | nil => simpa using ⟨c, hp⟩
  | snoc L q x _ hx hpx hn ih =>
    obtain ⟨i1, i2⟩ := ih
    rw [List.map_append, ← List.append_assoc]
    refine ⟨CanonicalChain.snoc i1 (k := k + L.length) (by rw [List.length_append, List.length_map]; omega) hx hn (hpx ▸ i2), ?_⟩
    rw [List.getElem?_append_right (by rw [List.length_append, List.length_map, List.length_append]; simp; omega)]
    simp only [List.length_append, List.length_map, List.length_cons, List.length_nil, List.map_cons, List.map_nil]
    rw [show k + (L.length + (0 + 1)) - (hs.length + L.length) = 0 by omega]
    rfl

theorem decanonize_hashes (l : List Nat) (b : MemoryBuffer) :
    (l.foldl (fun b i => b.decanonizeBlock i) b).headers = b.headers ∧
    (l.foldl (fun b i => b.decanonizeBlock i) b).bodies = b.bodies ∧
    (l.foldl (fun b i => b.decanonizeBlock i) b).difficulty = b.difficulty := by
  induction l generalizing b with
  | nil => exact ⟨rfl, rfl, rfl⟩
  | cons n l ih => exact ih (b.decanonizeBlock n)

theorem decanonize_range (k a : Nat) (b : MemoryBuffer) (hl : b.canonicalHashes.length = a + k + 1) :
    ((List.range' (a + 1) k).reverse.foldl (fun b i => b.decanonizeBlock i) b).canonicalHashes =
      b.canonicalHashes.take (a + 1) := by
  induction k generalizing b with
  | zero =>
    simp only [List.range'_zero, List.reverse_nil, List.foldl_nil]
    rw [List.take_of_length_le (by omega)]
  | succ k ih =>
    rw [List.range'_concat, List.reverse_append]
    simp only [List.reverse_cons, List.reverse_nil, List.nil_append, List.singleton_append, List.foldl_cons, Nat.one_mul]
    have hd : (b.decanonizeBlock (a + 1 + k)).canonicalHashes = b.canonicalHashes.take (a + 1 + k) := by
      show b.canonicalHashes.take (a + 1 + k) ++ List.replicate (a + 1 + k - b.canonicalHashes.length) zero32 = _
      rw [show a + 1 + k - b.canonicalHashes.length = 0 by omega]
      simp
    rw [ih _ (by rw [hd, List.length_take]; omega), hd, List.take_take]
    congr 1
    omega

theorem canonize_fields (L : List (Block × Bytes)) (b : MemoryBuffer) :
    (L.foldl (fun b x => b.canonizeBlock x.1.header.number x.2) b).headers = b.headers ∧
    (L.foldl (fun b x => b.canonizeBlock x.1.header.number x.2) b).bodies = b.bodies ∧
    (L.foldl (fun b x => b.canonizeBlock x.1.header.number x.2) b).difficulty = b.difficulty := by
  induction L generalizing b with
  | nil => exact ⟨rfl, rfl, rfl⟩
  | cons n l ih => exact ih (b.canonizeBlock n.1.header.number n.2)

theorem canonize_link {H : BlockHeader → Bytes} {A : List BlockHeader} {p q : Bytes} {k : Nat} {L : List (Block × Bytes)}
    (l : Link H A p k L q) (b : MemoryBuffer) (hk : b.canonicalHashes.length = k + 1) :
    (L.foldl (fun b x => b.canonizeBlock x.1.header.number x.2) b).canonicalHashes =
      b.canonicalHashes ++ L.map (·.2) := by
  induction l with
  | nil => simp
  | snoc L q x _ hx hp hn ih =>
    rw [List.foldl_append, List.map_append]
    simp only [List.foldl_cons, List.foldl_nil, List.map_cons, List.map_nil]
    generalize hb : L.foldl (fun b x => b.canonizeBlock x.1.header.number x.2) b = b' at ih ⊢
    have hl : b'.canonicalHashes.length = k + L.length + 1 := by
      rw [ih, List.length_append, List.length_map]; omega
    show (b'.canonicalHashes ++ List.replicate (x.header.number + 1 - b'.canonicalHashes.length) zero32).set
      x.header.number (H x.header) = _
    rw [hn, show k + L.length + 1 + 1 - b'.canonicalHashes.length = 1 by omega,
      List.set_append_right _ _ (by omega), show k + L.length + 1 - b'.canonicalHashes.length = 0 by omega, ih,
      List.append_assoc]
    rfl

/-! ### The invariant -/

/-- What holds for the stored blocks. `A` are the headers of the genesis block and of the accepted blocks. -/
structure Inv (H : BlockHeader → Bytes) (g : BlockHeader) (A : List BlockHeader) (b : MemoryBuffer) : Prop where
  headers : ∀ n h x, b.readHeader n h = some x ↔ x ∈ A ∧ n = x.number ∧ h = H x
  bodies : ∀ n h, (b.readBody n h).isSome = (b.readHeader n h).isSome
  td : ∀ x ∈ A, ∃ d, b.totalDifficulty x.number (H x) = some d ∧ ChainTo H g A (H x) d x.number
  canon : CanonicalChain H g A b.canonicalHashes
  heavy : ∃ x ∈ A, ∃ D, b.canonicalHashes.length = x.number + 1 ∧ b.canonicalHashes[x.number]? = some (H x) ∧
    b.totalDifficulty x.number (H x) = some D ∧ ∀ y ∈ A, ∀ d, b.totalDifficulty y.number (H y) = some d → d ≤ D

theorem Inv.same {H : BlockHeader → Bytes} {g : BlockHeader} {A : List BlockHeader} {b c : MemoryBuffer} (i : Inv H g A b)
    (s : Same b c) : Inv H g A c := by
  obtain ⟨s1, s2, s3, s4⟩ := s
  have h1 : c.readHeader = b.readHeader := by unfold MemoryBuffer.readHeader; rw [s1]
  have h2 : c.readBody = b.readBody := by unfold MemoryBuffer.readBody; rw [s2]
  have h3 : c.totalDifficulty = b.totalDifficulty := by unfold MemoryBuffer.totalDifficulty; rw [s3]
  refine ⟨by rw [h1]; exact i.headers, by rw [h1, h2]; exact i.bodies, by rw [h3]; exact i.td, by rw [s4]; exact i.canon, ?_⟩
  rw [h3, s4]
  exact i.heavy

theorem Inv.init (H : BlockHeader → Bytes) (g : Block) (s : MemoryBuffer) (hn : g.header.number = 0)
    (h1 : s.headers = []) (h2 : s.bodies = []) (h3 : s.difficulty = []) (h4 : s.canonicalHashes = [])
    (hd : g.header.difficulty < 2 ^ 256) :
    Inv H g.header [g.header] ((s.insertBlock g (H g.header)).canonizeBlock g.header.number (H g.header)) := by
  generalize hb : (s.insertBlock g (H g.header)).canonizeBlock g.header.number (H g.header) = b
  have e1 : ∀ n h, b.readHeader n h = if n = 0 ∧ h = H g.header then some g.header else none := by
    intro n h
    rw [← hb]
    show indexGet? (indexSet (grow s.headers g.header.number) g.header.number (H g.header) g.header) n h = _
    rw [indexGet?_set_grow, h1, hn]
    rfl
  have e2 : ∀ n h, b.readBody n h = if n = 0 ∧ h = H g.header then some g.toBlockBody else none := by
    intro n h
    rw [← hb]
    show indexGet? (indexSet (grow s.bodies g.header.number) g.header.number (H g.header) g.toBlockBody) n h = _
    rw [indexGet?_set_grow, h2, hn]
    rfl
  have e3 : ∀ n h, b.totalDifficulty n h = if n = 0 ∧ h = H g.header then some g.header.difficulty else none := by
    intro n h
    rw [← hb]
    show indexGet? (MemoryBuffer.insertDifficulty s.difficulty g.header.number g.header.parentHash (H g.header)
      g.header.difficulty) n h = _
    unfold MemoryBuffer.insertDifficulty
    rw [if_pos hn, indexGet?_set_grow, h3, hn, Nat.mod_eq_of_lt hd]
    rfl
  have e4 : b.canonicalHashes = [H g.header] := by
    rw [← hb]
    show (s.canonicalHashes ++ List.replicate (g.header.number + 1 - s.canonicalHashes.length) zero32).set g.header.number
      (H g.header) = _
    rw [h4, hn]
    rfl
  refine ⟨?_, ?_, ?_, ?_, ?_⟩
  · intro n h x
    rw [e1]
    by_cases hc : n = 0 ∧ h = H g.header
    · rw [if_pos hc]
      constructor
      · intro e
        injection e with e
        subst e
        exact ⟨List.mem_singleton.mpr rfl, by omega, hc.2⟩
      · rintro ⟨hx, _, _⟩
        rw [List.mem_singleton.mp hx]
    · rw [if_neg hc]
      constructor
      · intro e; cases e
      · rintro ⟨hx, h5, h6⟩
        rw [List.mem_singleton.mp hx] at h5 h6
        exact absurd ⟨by omega, h6⟩ hc
  · intro n h
    rw [e1, e2]
    by_cases hc : n = 0 ∧ h = H g.header
    · rw [if_pos hc, if_pos hc]; rfl
    · rw [if_neg hc, if_neg hc]; rfl
  · intro x hx
    rw [List.mem_singleton.mp hx]
    exact ⟨g.header.difficulty, by rw [e3, if_pos ⟨hn, rfl⟩], .genesis⟩
  · rw [e4]
    exact ⟨rfl, fun n h e => by cases e⟩
  · refine ⟨g.header, List.mem_singleton.mpr rfl, g.header.difficulty, by rw [e4, hn]; rfl, by rw [e4, hn]; rfl,
      by rw [e3, if_pos ⟨hn, rfl⟩], ?_⟩
    intro y hy d
    rw [List.mem_singleton.mp hy, e3, if_pos ⟨hn, rfl⟩]
    intro e
    injection e with e
    omega

/-- The hash of a canonical block is that of an accepted header with this number. -/
theorem Inv.canonical_mem {H : BlockHeader → Bytes} {g : BlockHeader} {A : List BlockHeader} {b : MemoryBuffer}
    (i : Inv H g A b) (hg : g ∈ A) (hg0 : g.number = 0) {n : Nat} {h : Bytes} (e : b.canonicalHash n = some h) :
    ∃ x ∈ A, H x = h ∧ x.number = n := by
  unfold MemoryBuffer.canonicalHash at e
  cases n with
  | zero =>
    rw [i.canon.genesis] at e
    injection e with e
    exact ⟨g, hg, e, hg0⟩
  | succ n =>
    obtain ⟨x, hx, h1, h2, _⟩ := i.canon.linked n h e
    exact ⟨x, hx, h1, h2⟩

theorem sub64_succ (n : Nat) (h : n < 2 ^ 64) : sub64 (n + 1) 1 = n := by
  unfold sub64
  rw [show n + 1 + 2 ^ 64 - 1 % 2 ^ 64 = n + 2 ^ 64 by omega, Nat.add_mod_right, Nat.mod_eq_of_lt h]

theorem storedBlock_ok {b : MemoryBuffer} {n : Nat} {h : Bytes} {x : Block} (e : storedBlock b n h = .ok x) :
    b.readHeader n h = some x.header := by
  unfold storedBlock at e
  cases h1 : b.readBody n h with
  | none => rw [h1] at e; cases e
  | some body =>
    cases h2 : b.readHeader n h with
    | none => rw [h1, h2] at e; cases e
    | some header => rw [h1, h2] at e; injection e with e; subst e; rfl

/-- The walk to the canonical ancestor and the walk that collects the blocks meet. -/
theorem ancestor_link {H : BlockHeader → Bytes} {g : BlockHeader} {A : List BlockHeader} {b : MemoryBuffer}
    (i : Inv H g A b) (hA : ∀ x ∈ A, x.number < 2 ^ 64 - 1) (fuel : Nat) {h : BlockHeader} {a : Nat} (hh : h ∈ A)
    (ea : canonicalAncestor b fuel h (H h) = .ok a) :
    a ≤ h.number ∧ ∃ p, b.canonicalHash a = some p ∧
      ∀ L, chainBack b (h.number - a) h.number (H h) = .ok L → Link H A p a L (H h) ∧ L.length = h.number - a := by
  induction fuel generalizing h a with
  | zero => cases ea
  | succ fuel ih =>
    unfold canonicalAncestor at ea
    by_cases hc : b.canonicalHash h.number = some (H h)
    · rw [if_pos hc] at ea
      injection ea with ea
      subst ea
      refine ⟨Nat.le_refl _, H h, hc, fun L e => ?_⟩
      rw [Nat.sub_self] at e ⊢
      injection e with e
      subst e
      exact ⟨.nil, rfl⟩
    · rw [if_neg hc] at ea
      cases hp : b.readHeader (sub64 h.number 1) h.parentHash with
      | none => rw [hp] at ea; cases ea
      | some parent =>
        rw [hp] at ea
        dsimp only at ea
        obtain ⟨q1, q2, q3⟩ := (i.headers _ _ _).mp hp
        have hpn := hA parent q1
        have hhn := hA h hh
        have hnum : h.number = parent.number + 1 := by
          rcases Nat.eq_zero_or_pos h.number with h0 | h0
          · rw [h0] at q2
            have : sub64 0 1 = 2 ^ 64 - 1 := by decide
            omega
          · obtain ⟨m, hm⟩ : ∃ m, h.number = m + 1 := ⟨h.number - 1, by omega⟩
            rw [hm, sub64_succ m (by omega)] at q2
            omega
        rw [q3] at ea
        obtain ⟨r1, p, r2, r3⟩ := ih q1 ea
        refine ⟨by omega, p, r2, fun L e => ?_⟩
        rw [show h.number - a = (parent.number - a) + 1 by omega] at e
        unfold chainBack at e
        obtain ⟨x, e1, e⟩ := Trie.bind_ok.mp e
        obtain ⟨rest, e2, e⟩ := Trie.bind_ok.mp e
        injection e with e
        have hx : x.header = h := by
          have hr := storedBlock_ok e1
          rw [(i.headers _ _ h).mpr ⟨hh, rfl, rfl⟩] at hr
          exact (Option.some.inj hr).symm
        rw [hx, hnum, Nat.add_sub_cancel, q3] at e2
        obtain ⟨l1, l2⟩ := r3 rest e2
        subst e
        have l := Link.snoc (H := H) rest (H parent) x l1 (by rw [hx]; exact hh) (by rw [hx]; exact q3)
          (by rw [hx, l2]; omega)
        rw [hx] at l
        exact ⟨l, by rw [List.length_append, l2]; simp; omega⟩

/-- Storing a block with a known parent. -/
theorem Inv.insert {H : BlockHeader → Bytes} {g : BlockHeader} {A : List BlockHeader} {b : MemoryBuffer} (i : Inv H g A b)
    {x : Block} {p : BlockHeader} (hp : p ∈ A) (hn : x.header.number = p.number + 1) (hph : x.header.parentHash = H p)
    (inj : ∀ y ∈ A, H y = H x.header → y = x.header)
    (htd : ∀ h d n, ChainTo H g (x.header :: A) h d n → d < 2 ^ 256) :
    (∀ n h y, (b.insertBlock x (H x.header)).readHeader n h = some y ↔ y ∈ x.header :: A ∧ n = y.number ∧ h = H y) ∧
    (∀ n h, ((b.insertBlock x (H x.header)).readBody n h).isSome = ((b.insertBlock x (H x.header)).readHeader n h).isSome) ∧
    (∀ y ∈ x.header :: A, ∃ d, (b.insertBlock x (H x.header)).totalDifficulty y.number (H y) = some d ∧
      ChainTo H g (x.header :: A) (H y) d y.number) ∧
    (∀ y ∈ A, y ≠ x.header → (b.insertBlock x (H x.header)).totalDifficulty y.number (H y) =
      b.totalDifficulty y.number (H y)) := by
  generalize hb : b.insertBlock x (H x.header) = b'
  have e1 : ∀ n h, b'.readHeader n h =
      if n = x.header.number ∧ h = H x.header then some x.header else b.readHeader n h := by
    intro n h
    rw [← hb]
    exact indexGet?_set_grow _ _ _ _ _ _
  have e2 : ∀ n h, b'.readBody n h =
      if n = x.header.number ∧ h = H x.header then some x.toBlockBody else b.readBody n h := by
    intro n h
    rw [← hb]
    exact indexGet?_set_grow _ _ _ _ _ _
  obtain ⟨e, he1, he2⟩ := i.td p hp
  have hchain : ChainTo H g (x.header :: A) (H x.header) (e + x.header.difficulty) x.header.number :=
    .step (H p) e p.number x.header (ChainTo.mono (fun y hy => List.mem_cons_of_mem _ hy) he2) List.mem_cons_self hph hn
  have hlt := htd _ _ _ hchain
  have e3 : ∀ n h, b'.totalDifficulty n h =
      if n = x.header.number ∧ h = H x.header then some (e + x.header.difficulty) else b.totalDifficulty n h := by
    intro n h
    rw [← hb]
    show indexGet? (MemoryBuffer.insertDifficulty b.difficulty x.header.number x.header.parentHash (H x.header)
      x.header.difficulty) n h = _
    rw [hn, hph, insertDifficulty_get he1, Nat.mod_eq_of_lt hlt]
    rfl
  have hne : ∀ y ∈ A, y ≠ x.header → ¬ (y.number = x.header.number ∧ H y = H x.header) :=
    fun y hy hyx hc => hyx (inj y hy hc.2)
  refine ⟨?_, ?_, ?_, ?_⟩
  · intro n h y
    rw [e1]
    by_cases hc : n = x.header.number ∧ h = H x.header
    · rw [if_pos hc]
      constructor
      · intro e
        rw [← Option.some.inj e]
        exact ⟨List.mem_cons_self, hc⟩
      · rintro ⟨hy, h1, h2⟩
        rcases List.mem_cons.mp hy with rfl | hy
        · rfl
        · rw [inj y hy (h2.symm.trans hc.2)]
    · rw [if_neg hc, i.headers]
      constructor
      · rintro ⟨h1, h2⟩
        exact ⟨List.mem_cons_of_mem _ h1, h2⟩
      · rintro ⟨hy, h1, h2⟩
        rcases List.mem_cons.mp hy with rfl | hy
        · exact absurd ⟨h1, h2⟩ hc
        · exact ⟨hy, h1, h2⟩
  · intro n h
    rw [e1, e2]
    by_cases hc : n = x.header.number ∧ h = H x.header
    · rw [if_pos hc, if_pos hc]; rfl
    · rw [if_neg hc, if_neg hc, i.bodies]
  · intro y hy
    by_cases hyx : y = x.header
    · subst hyx
      exact ⟨_, by rw [e3, if_pos ⟨rfl, rfl⟩], hchain⟩
    · have hyA : y ∈ A := (List.mem_cons.mp hy).resolve_left hyx
      obtain ⟨d, d1, d2⟩ := i.td y hyA
      exact ⟨d, by rw [e3, if_neg (hne y hyA hyx)]; exact d1, ChainTo.mono (fun z hz => List.mem_cons_of_mem _ hz) d2⟩
  · intro y hy hyx
    rw [e3, if_neg (hne y hy hyx)]

/-- What one insertion of a new block does. -/
structure Step (H : BlockHeader → Bytes) (g : BlockHeader) (A : List BlockHeader) (x : BlockHeader) (c c' : Blockchain)
    (r : InsertResult) : Prop where
  inv : Inv H g (if r = .ok then x :: A else A) c'.state
  frame : r ≠ .ok → Same c.state c'.state
  head : c'.state.canonicalHashes ≠ c.state.canonicalHashes →
    ∃ d D h, c'.state.canonicalHashes[x.number]? = some (H x) ∧ c'.state.canonicalHashes.length = x.number + 1 ∧
      c'.state.totalDifficulty x.number (H x) = some d ∧
      c.state.canonicalHashes.getLast? = some h ∧ c'.state.totalDifficulty (c.state.canonicalHashes.length - 1) h = some D ∧ D < d

set_option maxHeartbeats 1000000 in
theorem process_step {env : ChainEnv} {g : BlockHeader} {A : List BlockHeader} {c c' : Blockchain} {x : Block} {check : Bool}
    {r : InsertResult} {p : BlockHeader} (i : Inv (·.hash env.keccak) g A c.state)
    (hA : ∀ y ∈ A, y.number < 2 ^ 64 - 1) (hp : p ∈ A) (hn : x.header.number = p.number + 1)
    (hph : x.header.parentHash = p.hash env.keccak)
    (inj : ∀ y ∈ A, y.hash env.keccak = x.header.hash env.keccak → y = x.header)
    (htd : ∀ h d n, ChainTo (·.hash env.keccak) g (x.header :: A) h d n → d < 2 ^ 256)
    (e : process env c x (x.header.hash env.keccak) check = .ok (c', r)) :
    Step (·.hash env.keccak) g A x.header c c' r := by
  have noHead : ∀ {s : MemoryBuffer}, Same c.state s → s.canonicalHashes ≠ c.state.canonicalHashes → False :=
    fun hs hne => hne hs.2.2.2
  unfold process at e
  obtain ⟨a, ea, e⟩ := Trie.bind_ok.mp e
  obtain ⟨b, eb, e⟩ := Trie.bind_ok.mp e
  have hb := same_unwindLast eb
  have ib := i.same hb.1
  have hpn := hA p hp
  rw [hn, sub64_succ p.number (by omega)] at e
  unfold canonicalAncestor at ea
  by_cases hcan : c.state.canonicalHash x.header.number = some (x.header.hash env.keccak)
  · rw [if_pos hcan] at ea
    injection ea with ea
    rw [if_pos (by omega)] at e
    injection e with e
    injection e with e1 e2
    subst e1 e2
    refine ⟨?_, fun _ => hb.1, fun hne => (noHead hb.1 hne).elim⟩
    rw [if_neg (by decide)]
    exact ib
  · rw [if_neg hcan] at ea
    have hpar : c.state.readHeader (sub64 x.header.number 1) x.header.parentHash = some p := by
      rw [hn, sub64_succ p.number (by omega)]
      exact (i.headers _ _ _).mpr ⟨hp, rfl, hph⟩
    rw [hpar] at ea
    dsimp only at ea
    rw [hph] at ea
    obtain ⟨ha, q, hq, hlink⟩ := ancestor_link i hA _ hp ea
    rw [if_neg (show ¬ p.number < a by omega)] at e
    obtain ⟨L, eL, e⟩ := Trie.bind_ok.mp e
    obtain ⟨⟨b2, k, o⟩, ex, e⟩ := Trie.bind_ok.mp e
    have hex := same_executeChain _ ex
    dsimp only at hex
    have i2 := ib.same hex
    have hs2 : Same c.state b2 := hb.1.trans hex
    have eL' : chainBack c.state (p.number - a) p.number (p.hash env.keccak) = .ok L := by
      rw [← eL, hph]
      have hh1 : b.headers = c.state.headers := hb.1.1
      have hh2 : b.bodies = c.state.bodies := hb.1.2.1
      have : ∀ k n h, chainBack c.state k n h = chainBack b k n h := by
        intro k
        induction k with
        | zero => intro n h; rfl
        | succ k ih =>
          intro n h
          unfold chainBack storedBlock MemoryBuffer.readBody MemoryBuffer.readHeader
          rw [hh1, hh2]
          simp only [ih]
      exact this _ _ _
    obtain ⟨l1, l2⟩ := hlink L eL'
    unfold conclude at e
    cases o with
    | some err =>
      obtain ⟨b3, e3, e⟩ := Trie.bind_ok.mp e
      injection e with e
      injection e with e4 e5
      subst e4 e5
      have hs := hs2.trans (same_restore e3)
      refine ⟨?_, fun _ => hs, fun hne => (noHead hs hne).elim⟩
      rw [if_neg (by simp)]
      exact i.same hs
    | none =>
      dsimp only at e
      obtain ⟨D', eD, e⟩ := Trie.bind_ok.mp e
      obtain ⟨n1, n2, n3, n4⟩ := i2.insert hp hn hph inj htd
      generalize hb3 : b2.insertBlock x (x.header.hash env.keccak) = b3 at *
      have hcan3 : b3.canonicalHashes = c.state.canonicalHashes := by rw [← hb3]; exact hs2.2.2.2
      obtain ⟨z, hz, D, z1, z2, z3, z4⟩ := i2.heavy
      have hzA := hA z hz
      have hcur : c.state.currentCanonicalBlock = z.number := by
        unfold MemoryBuffer.currentCanonicalBlock
        rw [← hs2.2.2.2, z1]
        omega
      have hzx : z ≠ x.header := by
        intro hzx
        apply hcan
        unfold MemoryBuffer.canonicalHash
        rw [← hs2.2.2.2, ← hzx]
        exact z2
      have hD : D' = D := by
        rw [hcur] at eD
        unfold headDifficulty MemoryBuffer.canonicalHash at eD
        rw [hcan3, ← hs2.2.2.2, z2] at eD
        dsimp only at eD
        rw [n4 z hz hzx, z3] at eD
        exact (Outcome.ok.inj eD).symm
      subst hD
      have hmono : ∀ y ∈ A, y ∈ x.header :: A := fun y hy => List.mem_cons_of_mem _ hy
      have hcc : CanonicalChain (·.hash env.keccak) g (x.header :: A) b3.canonicalHashes := by
        rw [hcan3]; exact CanonicalChain.mono hmono i.canon
      obtain ⟨dn, hdn, _⟩ := n3 x.header List.mem_cons_self
      rw [hdn] at e
      by_cases hgt : optionGreater (some dn) D' = true
      · rw [if_pos hgt] at e
        injection e with e
        injection e with e4 e5
        subst e4 e5
        have hgt' : D' < dn := by simpa [optionGreater] using hgt
        have hz1' : c.state.canonicalHashes.length = z.number + 1 := by rw [← hs2.2.2.2]; exact z1
        have haz : a ≤ z.number := by
          have := List.getElem?_eq_some_iff.mp hq
          obtain ⟨h, _⟩ := this
          omega
        have hdec := decanonize_range (c.state.currentCanonicalBlock - a) a b3 (by rw [hcan3, hz1', hcur]; omega)
        have hdf := decanonize_hashes (List.range' (a + 1) (c.state.currentCanonicalBlock - a)).reverse b3
        have htk : CanonicalChain (·.hash env.keccak) g (x.header :: A) (b3.canonicalHashes.take (a + 1)) :=
          CanonicalChain.take hcc a
        have htl : (b3.canonicalHashes.take (a + 1)).length = a + 1 := by
          rw [List.length_take, hcan3, hz1']; omega
        have htq : (b3.canonicalHashes.take (a + 1))[a]? = some q := by
          rw [List.getElem?_take_of_lt (by omega), hcan3]; exact hq
        have hlk : Link (·.hash env.keccak) (x.header :: A) q a (L ++ [(x, x.header.hash env.keccak)])
            (x.header.hash env.keccak) :=
          Link.snoc (H := (·.hash env.keccak)) L _ x (Link.mono hmono l1) List.mem_cons_self hph (by rw [l2]; omega)
        have hlen : (L ++ [(x, x.header.hash env.keccak)]).length = p.number - a + 1 := by
          rw [List.length_append, l2]; rfl
        obtain ⟨f1, f2⟩ := Link.canonical htk htl htq hlk
        have hcanon : (canonizeChain b3 a c.state.currentCanonicalBlock (L ++ [(x, x.header.hash env.keccak)])).canonicalHashes =
            b3.canonicalHashes.take (a + 1) ++ (L ++ [(x, x.header.hash env.keccak)]).map (·.2) := by
          unfold canonizeChain
          dsimp only
          rw [canonize_link hlk _ (by rw [hdec]; exact htl), hdec]
        have hcf := canonize_fields (L ++ [(x, x.header.hash env.keccak)])
          ((List.range' (a + 1) (c.state.currentCanonicalBlock - a)).reverse.foldl (fun b i => b.decanonizeBlock i) b3)
        generalize hb4 : canonizeChain b3 a c.state.currentCanonicalBlock (L ++ [(x, x.header.hash env.keccak)]) = b4 at *
        have g1 : b4.headers = b3.headers := by rw [← hb4]; exact hcf.1.trans hdf.1
        have g2 : b4.bodies = b3.bodies := by rw [← hb4]; exact hcf.2.1.trans hdf.2.1
        have g3 : b4.difficulty = b3.difficulty := by rw [← hb4]; exact hcf.2.2.trans hdf.2.2
        have g1' : b4.readHeader = b3.readHeader := by unfold MemoryBuffer.readHeader; rw [g1]
        have g2' : b4.readBody = b3.readBody := by unfold MemoryBuffer.readBody; rw [g2]
        have g3' : b4.totalDifficulty = b3.totalDifficulty := by unfold MemoryBuffer.totalDifficulty; rw [g3]
        have hnum : a + (L ++ [(x, x.header.hash env.keccak)]).length = x.header.number := by rw [hlen]; omega
        have hfl : b4.canonicalHashes.length = x.header.number + 1 := by
          rw [hcanon, List.length_append, htl, List.length_map]; omega
        have hfx : b4.canonicalHashes[x.header.number]? = some (x.header.hash env.keccak) := by
          rw [hcanon, ← hnum]; exact f2
        refine ⟨?_, fun h => absurd rfl h, fun _ => ?_⟩
        · rw [if_pos rfl]
          refine ⟨by rw [g1']; exact n1, by rw [g1', g2']; exact n2, by rw [g3']; exact n3, by rw [hcanon]; exact f1, ?_⟩
          refine ⟨x.header, List.mem_cons_self, dn, hfl, hfx, by rw [g3']; exact hdn, ?_⟩
          intro y hy d hd
          rw [g3'] at hd
          by_cases hyx : y = x.header
          · subst hyx
            rw [hdn] at hd
            exact Nat.le_of_eq (Option.some.inj hd).symm
          · have hyA : y ∈ A := (List.mem_cons.mp hy).resolve_left hyx
            rw [n4 y hyA hyx] at hd
            have := z4 y hyA d hd
            omega
        · refine ⟨dn, D', z.hash env.keccak, hfx, hfl, by rw [g3']; exact hdn, ?_, ?_, hgt'⟩
          · rw [List.getLast?_eq_getElem?, hz1', Nat.add_sub_cancel, ← hs2.2.2.2]; exact z2
          · rw [g3', hz1', Nat.add_sub_cancel, n4 z hz hzx]; exact z3
      · rw [if_neg hgt] at e
        obtain ⟨b4, e4, e⟩ := Trie.bind_ok.mp e
        injection e with e
        injection e with e5 e6
        subst e5 e6
        have hs4 := same_restore e4
        have hle : dn ≤ D' := by simpa [optionGreater] using hgt
        have iv : Inv (·.hash env.keccak) g (x.header :: A) b3 := by
          refine ⟨n1, n2, n3, hcc, z, List.mem_cons_of_mem _ hz, D', by rw [hcan3, ← hs2.2.2.2]; exact z1,
            by rw [hcan3, ← hs2.2.2.2]; exact z2, by rw [n4 z hz hzx]; exact z3, ?_⟩
          intro y hy d hd
          by_cases hyx : y = x.header
          · subst hyx
            rw [hdn] at hd
            rw [← Option.some.inj hd]
            exact hle
          · have hyA : y ∈ A := (List.mem_cons.mp hy).resolve_left hyx
            rw [n4 y hyA hyx] at hd
            exact z4 y hyA d hd
        refine ⟨?_, fun h => absurd rfl h, fun hne => ?_⟩
        · rw [if_pos rfl]; exact iv.same hs4
        · exact absurd (hs4.2.2.2.trans hcan3) hne

/-- One insertion. -/
theorem insertBlock_step {env : ChainEnv} {g : BlockHeader} {A : List BlockHeader} {c c' : Blockchain} {x : Block}
    {check : Bool} {r : InsertResult} (i : Inv (·.hash env.keccak) g A c.state)
    (hA : ∀ y ∈ A, y.number < 2 ^ 64 - 1) (hx : x.header.number < 2 ^ 64 - 1)
    (inj : ∀ y ∈ A, y.hash env.keccak = x.header.hash env.keccak → y = x.header)
    (htd : ∀ h d n, ChainTo (·.hash env.keccak) g (x.header :: A) h d n → d < 2 ^ 256)
    (e : insertBlock env c x check = .ok (c', r)) :
    Step (·.hash env.keccak) g A x.header c c' r := by
  have triv : ∀ err, (Outcome.ok (c, InsertResult.invalid err) : Outcome Empty _) = .ok (c', r) →
      Step (·.hash env.keccak) g A x.header c c' r := by
    intro err e
    injection e with e
    injection e with e1 e2
    subst e1 e2
    exact ⟨by rw [if_neg (by simp)]; exact i, fun _ => Same.refl _, fun hne => absurd rfl hne⟩
  unfold insertBlock at e
  cases hv : preValidateBlock env.keccak env.listRoot env.sealOk x c.state.headerStore env.config with
  | ub => rw [hv] at e; cases e
  | err er => rw [hv] at e; exact triv er e
  | ok u =>
    rw [hv] at e
    dsimp only at e
    cases hbad : c.badBlocks.get? (x.header.hash env.keccak) with
    | some er => rw [hbad] at e; exact triv er e
    | none =>
      rw [hbad] at e
      dsimp only at e
      unfold preValidateBlock at hv
      obtain ⟨_, hv1, _⟩ := Outcome.bind_eq_ok.mp hv
      obtain ⟨p, hp⟩ := validateBlockHeader_parent hv1
      obtain ⟨q1, q2, q3⟩ := (i.headers _ _ _).mp hp
      have hpn := hA p q1
      have hnum : x.header.number = p.number + 1 := by
        rcases Nat.eq_zero_or_pos x.header.number with h0 | h0
        · rw [h0] at q2
          have : sub64 0 1 = 2 ^ 64 - 1 := by decide
          omega
        · obtain ⟨m, hm⟩ : ∃ m, x.header.number = m + 1 := ⟨x.header.number - 1, by omega⟩
          rw [hm, sub64_succ m (by omega)] at q2
          omega
      exact process_step (x := recoverSenders env x) i hA q1 hnum q3 inj htd e

end Silkworm.Blockchain
