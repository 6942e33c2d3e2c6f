import Verif.Trie.NodeLemmas

/-!
# The state of the hash builder as a function of the entries added

Helper definitions and lemmas: `groupsOf` and `stackOf` say what `groups_` and `stack_` are when the entries `K` are
finished and the pending key is `p`.
-/

namespace Silkworm.Trie

open Silkworm.Rlp
open Silkworm.Spec (Item rlp rlpItems rlpStr hexPrefix joinNibbles nibbles reference trieNode depthBound commonPrefix
  children branchValue digits lcp)

/-! ## Order -/

/-- `a` and `b` differ somewhere within both, and `a` has the smaller nibble there. -/
def Before : Bytes → Bytes → Prop
  | a :: as, b :: bs => a < b ∨ (a = b ∧ Before as bs)
  | _, _ => False

theorem before_trans : ∀ {a b c : Bytes}, Before a b → Before b c → Before a c
  | [], _, _, h, _ => by cases h
  | _ :: _, [], _, h, _ => by cases h
  | _ :: _, _ :: _, [], _, h => by cases h
  | a :: as, b :: bs, c :: cs, h1, h2 => by
    rcases h1 with h1 | ⟨rfl, h1⟩
    · rcases h2 with h2 | ⟨rfl, h2⟩
      · left; rw [UInt8.lt_iff_toNat_lt] at *; omega
      · exact Or.inl h1
    · rcases h2 with h2 | ⟨rfl, h2⟩
      · exact Or.inl h2
      · exact Or.inr ⟨rfl, before_trans h1 h2⟩

theorem before_append {a b : Bytes} (h : Before a b) (s t : Bytes) : Before (a ++ s) (b ++ t) := by
  induction a generalizing b with
  | nil => cases h
  | cons x xs ih =>
    cases b with
    | nil => cases h
    | cons y ys =>
      rcases h with h | ⟨rfl, h⟩
      · exact Or.inl h
      · exact Or.inr ⟨rfl, ih h⟩

/-- All paths come before `p`. -/
def AllBefore (K : Ents) (p : Bytes) : Prop := ∀ e ∈ K, Before e.1 p

/-- Paths are increasing and none is a prefix of another one. -/
def Sorted (K : Ents) : Prop := K.Pairwise (fun a b => Before a.1 b.1)

/-! ## Children -/

theorem children_append (d : UInt8) (a b : Ents) : children d (a ++ b) = children d a ++ children d b := by
  induction a with
  | nil => rfl
  | cons e es ih =>
    obtain ⟨k, v⟩ := e
    cases k with
    | nil => exact ih
    | cons x k =>
      show (if x = d then (k, v) :: children d (es ++ b) else children d (es ++ b)) =
        (if x = d then (k, v) :: children d es else children d es) ++ children d b
      rw [ih]
      split <;> rfl

theorem mem_children {d : UInt8} {k v : Bytes} {es : Ents} : (k, v) ∈ children d es ↔ (d :: k, v) ∈ es := by
  induction es with
  | nil => simp [children]
  | cons e es ih =>
    obtain ⟨k', v'⟩ := e
    cases k' with
    | nil =>
      show (k, v) ∈ children d es ↔ _
      rw [ih]; simp
    | cons x k' =>
      unfold children
      split
      · rename_i h
        subst h
        simp [ih]
      · rename_i h
        rw [ih]
        simp only [List.mem_cons, Prod.mk.injEq, List.cons.injEq]
        constructor
        · exact Or.inr
        · rintro (⟨⟨rfl, _⟩, _⟩ | h')
          · exact absurd rfl h
          · exact h'

theorem children_under (d x : UInt8) (s : Bytes) (es : Ents) :
    children d (under (x :: s) es) = if x = d then under s es else [] := by
  induction es with
  | nil => simp [under, children]
  | cons e es ih =>
    show (if x = d then (s ++ e.1, e.2) :: children d (under (x :: s) es) else children d (under (x :: s) es)) = _
    rw [ih]
    split <;> rfl

theorem children_eq_nil {d : UInt8} {es : Ents} : children d es = [] ↔ ∀ k v, (d :: k, v) ∉ es := by
  rw [List.eq_nil_iff_forall_not_mem]
  constructor
  · intro h k v hm
    exact h (k, v) (mem_children.mpr hm)
  · rintro h ⟨k, v⟩ hm
    exact h k v (mem_children.mp hm)

theorem allBefore_children {K : Ents} {x : UInt8} {c : Bytes} (h : AllBefore K (x :: c)) : AllBefore (children x K) c := by
  rintro ⟨k, v⟩ hm
  rcases h (x :: k, v) (mem_children.mp hm) with h | ⟨_, h⟩
  · exact absurd h (by rw [UInt8.lt_iff_toNat_lt]; omega)
  · exact h

theorem allBefore_nil {K : Ents} (h : AllBefore K []) : K = [] := by
  cases K with
  | nil => rfl
  | cons e es =>
    have := h e (List.mem_cons_self ..)
    cases he : e.1 <;> rw [he] at this <;> cases this

/-- All paths start with a nibble below `x`. -/
def HeadsBelow (x : UInt8) (L : Ents) : Prop := ∀ e ∈ L, ∃ a k, e.1 = a :: k ∧ a < x

theorem headsBelow_of_before {K : Ents} {x : UInt8} {c : Bytes} (h : AllBefore K (x :: c)) (hc : children x K = []) :
    HeadsBelow x K := by
  rintro ⟨k, v⟩ hm
  have := h _ hm
  cases k with
  | nil => cases this
  | cons a k =>
    rcases this with h' | ⟨rfl, _⟩
    · exact ⟨a, k, rfl, h'⟩
    · exact absurd hm (children_eq_nil.mp hc k v)

theorem children_headsBelow {L : Ents} {x d : UInt8} (h : HeadsBelow x L) (hd : ¬ d < x) : children d L = [] := by
  rw [children_eq_nil]
  intro k v hm
  obtain ⟨a, k', e, ha⟩ := h _ hm
  cases e
  exact hd ha

/-- Split off the entries under the first nibble of the pending key. -/
theorem split_children {K : Ents} {x : UInt8} {c : Bytes} (hs : Sorted K) (hb : AllBefore K (x :: c)) :
    ∃ A, K = A ++ under [x] (children x K) ∧ HeadsBelow x A := by
  induction K with
  | nil => exact ⟨[], rfl, fun e h => by cases h⟩
  | cons e es ih =>
    obtain ⟨k, v⟩ := e
    have hs' := List.pairwise_cons.mp hs
    have he := hb _ (List.mem_cons_self ..)
    cases k with
    | nil => cases he
    | cons a k =>
      obtain ⟨A, hA, hh⟩ := ih hs'.2 (fun e h => hb e (List.mem_cons_of_mem _ h))
      rcases he with he | ⟨rfl, he⟩
      · refine ⟨(a :: k, v) :: A, ?_, ?_⟩
        · have : children x ((a :: k, v) :: es) = children x es := by
            show (if a = x then _ else _) = _
            rw [if_neg]
            rintro rfl
            rw [UInt8.lt_iff_toNat_lt] at he
            omega
          rw [this, List.cons_append, ← hA]
        · intro e h
          rcases List.mem_cons.mp h with rfl | h
          · exact ⟨a, k, rfl, he⟩
          · exact hh e h
      · refine ⟨[], ?_, fun e h => by cases h⟩
        have : A = [] := by
          cases A with
          | nil => rfl
          | cons f fs =>
            obtain ⟨b, k', e1, e2⟩ := hh f (List.mem_cons_self ..)
            have := hs'.1 f (by rw [hA]; simp)
            rw [e1] at this
            rcases this with h | ⟨rfl, _⟩
            · rw [UInt8.lt_iff_toNat_lt] at *; omega
            · rw [UInt8.lt_iff_toNat_lt] at *; omega
        rw [this, List.nil_append] at hA
        show _ = under [a] (if a = a then (k, v) :: children a es else _)
        rw [if_pos rfl]
        show _ = (a :: k, v) :: under [a] (children a es)
        rw [← hA]

theorem sorted_children {K : Ents} (hs : Sorted K) (x : UInt8) : Sorted (children x K) := by
  induction K with
  | nil => exact List.Pairwise.nil
  | cons e es ih =>
    obtain ⟨k, v⟩ := e
    have hs' := List.pairwise_cons.mp hs
    cases k with
    | nil => exact ih hs'.2
    | cons a k =>
      unfold children
      split
      · rename_i h
        subst h
        refine List.pairwise_cons.mpr ⟨?_, ih hs'.2⟩
        rintro ⟨k', v'⟩ hm
        rcases hs'.1 _ (mem_children.mp hm) with h | ⟨_, h⟩
        · exact absurd h (by rw [UInt8.lt_iff_toNat_lt]; omega)
        · exact h
      · exact ih hs'.2

theorem sorted_under {K : Ents} (hs : Sorted K) (s : Bytes) : Sorted (under s K) := by
  unfold Sorted under
  rw [List.pairwise_map]
  refine hs.imp ?_
  intro a b h
  simp only
  induction s with
  | nil => exact h
  | cons x xs ih => exact Or.inr ⟨rfl, ih⟩

theorem commonPrefix_nil_of_heads {es : Ents} {a b : UInt8} {k l v w : Bytes} (h1 : (a :: k, v) ∈ es)
    (h2 : (b :: l, w) ∈ es) (hab : a ≠ b) : commonPrefix es = [] := by
  have p1 := commonPrefix_prefix es _ h1
  have p2 := commonPrefix_prefix es _ h2
  cases h : commonPrefix es with
  | nil => rfl
  | cons x xs =>
    rw [h] at p1 p2
    have e1 := (List.cons_prefix_cons.mp p1).1
    have e2 := (List.cons_prefix_cons.mp p2).1
    exact absurd (e1.symm.trans e2) hab

theorem branchValue_nil {es : Ents} (h : ∀ e ∈ es, e.1 ≠ []) : branchValue es = [] := by
  induction es with
  | nil => rfl
  | cons e es ih =>
    obtain ⟨k, v⟩ := e
    cases k with
    | nil => exact absurd rfl (h _ (List.mem_cons_self ..))
    | cons x k => exact ih (fun e he => h e (List.mem_cons_of_mem _ he))

/-! ## Masks and references -/

/-- The bits of the nibbles below `n` that start a path. -/
def maskBelow : Nat → Ents → Nat
  | 0, _ => 0
  | n + 1, K => maskBelow n K ||| (if children (UInt8.ofNat n) K = [] then 0 else 2 ^ n)

/-- The references of the children at the nibbles below `n`. -/
def refsBelow (keccak : Bytes → Bytes) : Nat → Ents → List Bytes
  | 0, _ => []
  | n + 1, K => refsBelow keccak n K ++
      (if children (UInt8.ofNat n) K = [] then [] else [refB keccak (children (UInt8.ofNat n) K)])

theorem maskBelow_succ (n : Nat) (K : Ents) : maskBelow (n + 1) K =
    maskBelow n K ||| (if children (UInt8.ofNat n) K = [] then 0 else 2 ^ n) := rfl

theorem refsBelow_succ (keccak : Bytes → Bytes) (n : Nat) (K : Ents) : refsBelow keccak (n + 1) K =
    refsBelow keccak n K ++ (if children (UInt8.ofNat n) K = [] then [] else
      [refB keccak (children (UInt8.ofNat n) K)]) := rfl

theorem maskBelow_nil (n : Nat) : maskBelow n [] = 0 := by
  induction n with
  | zero => rfl
  | succ n ih => simp [maskBelow, ih, children]

theorem refsBelow_nil (keccak : Bytes → Bytes) (n : Nat) : refsBelow keccak n [] = [] := by
  induction n with
  | zero => rfl
  | succ n ih => simp [refsBelow, ih, children]

theorem testBit_maskBelow (n i : Nat) (K : Ents) :
    (maskBelow n K).testBit i = (decide (i < n) && decide (children (UInt8.ofNat i) K ≠ [])) := by
  induction n with
  | zero => simp [maskBelow]
  | succ n ih =>
    unfold maskBelow
    rw [Nat.testBit_or, ih]
    by_cases hi : i = n
    · subst hi
      by_cases hc : children (UInt8.ofNat i) K = [] <;> simp [hc]
    · have h2 : (if children (UInt8.ofNat n) K = [] then 0 else 2 ^ n).testBit i = false := by
        split
        · simp
        · rw [Nat.testBit_two_pow]; simp; omega
      rw [h2, Bool.or_false]
      have : (i < n + 1) ↔ i < n := by omega
      simp [this]

theorem maskBelow_congr {n : Nat} {K L : Ents}
    (h : ∀ i, i < n → (children (UInt8.ofNat i) K = [] ↔ children (UInt8.ofNat i) L = [])) :
    maskBelow n K = maskBelow n L := by
  induction n with
  | zero => rfl
  | succ n ih =>
    unfold maskBelow
    rw [ih (fun i hi => h i (by omega))]
    simp only [h n (by omega)]

theorem refsBelow_congr {keccak : Bytes → Bytes} {n : Nat} {K L : Ents}
    (h : ∀ i, i < n → children (UInt8.ofNat i) K = children (UInt8.ofNat i) L) :
    refsBelow keccak n K = refsBelow keccak n L := by
  induction n with
  | zero => rfl
  | succ n ih =>
    unfold refsBelow
    rw [ih (fun i hi => h i (by omega)), h n (by omega)]

theorem ofNat_lt {i : Nat} {x : UInt8} (hi : i < 256) : UInt8.ofNat i < x ↔ i < x.toNat := by
  rw [UInt8.lt_iff_toNat_lt, uint8_ofNat_toNat i hi]

theorem ofNat_eq {i : Nat} {x : UInt8} (hi : i < 256) : UInt8.ofNat i = x ↔ i = x.toNat := by
  constructor
  · rintro rfl; rw [uint8_ofNat_toNat i hi]
  · rintro rfl; simp

/-- Below the first nibble of a prefix the entries under that prefix do not show. -/
theorem children_append_under_below {L J : Ents} {x : UInt8} {s : Bytes} {i : Nat} (hi : i < x.toNat) :
    children (UInt8.ofNat i) (L ++ under (x :: s) J) = children (UInt8.ofNat i) L := by
  have hx := UInt8.toNat_lt x
  rw [children_append, children_under, if_neg, List.append_nil]
  intro h
  have := (ofNat_eq (by omega)).mp h.symm
  omega

theorem maskBelow_append_le {L J : Ents} {x : UInt8} {s : Bytes} {n : Nat} (hn : n ≤ x.toNat) :
    maskBelow n (L ++ under (x :: s) J) = maskBelow n L :=
  maskBelow_congr fun i hi => by rw [children_append_under_below (by omega)]

theorem refsBelow_append_le {keccak : Bytes → Bytes} {L J : Ents} {x : UInt8} {s : Bytes} {n : Nat} (hn : n ≤ x.toNat) :
    refsBelow keccak n (L ++ under (x :: s) J) = refsBelow keccak n L :=
  refsBelow_congr fun i hi => children_append_under_below (by omega)

theorem children_append_under_self {L J : Ents} {x : UInt8} {s : Bytes} (hL : HeadsBelow x L) :
    children x (L ++ under (x :: s) J) = under s J := by
  rw [children_append, children_under, if_pos rfl,
    children_headsBelow hL (by rw [UInt8.lt_iff_toNat_lt]; omega), List.nil_append]

theorem under_ne_nil {s : Bytes} {J : Ents} (h : J ≠ []) : under s J ≠ [] := by
  cases J with
  | nil => exact absurd rfl h
  | cons e es => simp [under]

theorem below_append_gt {keccak : Bytes → Bytes} {L J : Ents} {x : UInt8} {s : Bytes} {n : Nat} (hL : HeadsBelow x L)
    (hJ : J ≠ []) (hn : x.toNat < n) (hn2 : n ≤ 16) :
    maskBelow n (L ++ under (x :: s) J) = maskBelow x.toNat L ||| 2 ^ x.toNat ∧
    refsBelow keccak n (L ++ under (x :: s) J) = refsBelow keccak x.toNat L ++ [refB keccak (under s J)] := by
  induction n with
  | zero => omega
  | succ n ih =>
    rw [maskBelow_succ, refsBelow_succ]
    by_cases hx : n = x.toNat
    · have e : UInt8.ofNat n = x := by rw [hx]; simp
      rw [e, children_append_under_self hL, if_neg (under_ne_nil hJ), if_neg (under_ne_nil hJ), hx,
        maskBelow_append_le (Nat.le_refl _), refsBelow_append_le (Nat.le_refl _)]
      exact ⟨rfl, rfl⟩
    · have hc : children (UInt8.ofNat n) (L ++ under (x :: s) J) = [] := by
        rw [children_append, children_under, if_neg, List.append_nil,
          children_headsBelow hL (by rw [ofNat_lt (by omega)]; omega)]
        intro h
        have := (ofNat_eq (by omega)).mp h.symm
        omega
      rw [hc, if_pos rfl, if_pos rfl, Nat.or_zero, List.append_nil]
      exact ih (by omega) (by omega)

theorem maskBelow_zero {n : Nat} {K : Ents} (h : maskBelow n K = 0) {i : Nat} (hi : i < n) :
    children (UInt8.ofNat i) K = [] := by
  have := testBit_maskBelow n i K
  rw [h] at this
  simp only [Nat.zero_testBit] at this
  by_contra hc
  simp [hi, hc] at this

theorem maskBelow_ne_zero {L : Ents} {x : UInt8} (hL : HeadsBelow x L) (hne : L ≠ []) : maskBelow x.toNat L ≠ 0 := by
  intro h
  cases L with
  | nil => exact hne rfl
  | cons e es =>
    obtain ⟨a, k, e1, e2⟩ := hL e (List.mem_cons_self ..)
    rw [UInt8.lt_iff_toNat_lt] at e2
    have := maskBelow_zero h e2
    simp only [UInt8.ofNat_toNat] at this
    rw [children_eq_nil] at this
    exact this k e.2 (by rw [← e1]; exact List.mem_cons_self ..)

theorem refsBelow_eq (keccak : Bytes → Bytes) (n : Nat) (K : Ents) :
    refsBelow keccak n K = ((List.range n).filter (fun i => decide (children (UInt8.ofNat i) K ≠ []))).map
      (fun i => refB keccak (children (UInt8.ofNat i) K)) := by
  induction n with
  | zero => rfl
  | succ n ih =>
    rw [List.range_succ, List.filter_append, List.map_append, ← ih]
    rw [refsBelow_succ]
    congr 1
    by_cases h : children (UInt8.ofNat n) K = []
    · rw [if_pos h]; simp [h]
    · rw [if_neg h]; simp [h]

/-! ## Groups and stack -/

/-- `groups_` when the entries `K` are finished and the pending key is the second argument. -/
def groupsOf : Ents → Bytes → List Nat
  | _, [] => []
  | K, x :: p => if K = [] then [] else maskBelow x.toNat K :: groupsOf (children x K) p

/-- `stack_` when the entries `K` are finished and the pending key is the second argument. -/
def stackOf (keccak : Bytes → Bytes) : Ents → Bytes → List Bytes
  | _, [] => []
  | K, x :: p => refsBelow keccak x.toNat K ++ stackOf keccak (children x K) p

theorem groupsOf_cons (K : Ents) (x : UInt8) (p : Bytes) : groupsOf K (x :: p) =
    if K = [] then [] else maskBelow x.toNat K :: groupsOf (children x K) p := rfl

theorem stackOf_cons (keccak : Bytes → Bytes) (K : Ents) (x : UInt8) (p : Bytes) : stackOf keccak K (x :: p) =
    refsBelow keccak x.toNat K ++ stackOf keccak (children x K) p := rfl

theorem groupsOf_nil (p : Bytes) : groupsOf [] p = [] := by
  cases p <;> simp [groupsOf]

theorem stackOf_nil (keccak : Bytes → Bytes) (p : Bytes) : stackOf keccak [] p = [] := by
  induction p with
  | nil => rfl
  | cons x p ih => simp [stackOf, refsBelow_nil, children, ih]

theorem groupsOf_eq_nil {K : Ents} {p : Bytes} (hb : AllBefore K p) : groupsOf K p = [] ↔ K = [] := by
  constructor
  · intro h
    cases p with
    | nil => exact allBefore_nil hb
    | cons x p =>
      by_contra hK
      simp [groupsOf, hK] at h
  · rintro rfl; exact groupsOf_nil p

theorem resize_cons (m : Nat) (l : List Nat) (n : Nat) : resize (m :: l) (n + 1) = m :: resize l n := by
  simp [resize]

theorem resize_nil_succ (n : Nat) : resize [] (n + 1) = 0 :: resize [] n := by
  simp [resize, List.replicate_succ]

theorem resize_zero (l : List Nat) : resize l 0 = [] := by simp [resize]

theorem resize_of_length {l : List Nat} {n : Nat} (h : l.length = n) : resize l n = l := by
  simp [resize, ← h]

theorem resize_length (l : List Nat) (n : Nat) : (resize l n).length = n := by
  simp [resize]; omega

theorem resize_groupsOf (K : Ents) (x : UInt8) (c : Bytes) (n : Nat) :
    resize (groupsOf K (x :: c)) (n + 1) = maskBelow x.toNat K :: resize (groupsOf (children x K) c) n := by
  rw [groupsOf_cons]
  split
  · rename_i h
    subst h
    rw [resize_nil_succ, maskBelow_nil]
    have : children x ([] : Ents) = [] := rfl
    rw [this, groupsOf_nil]
  · rw [resize_cons]

theorem flag_eq {d : UInt8} (h : d.toNat < 16) : flag d = 2 ^ d.toNat := by
  unfold flag
  rw [Nat.mod_eq_of_lt]
  exact Nat.pow_lt_pow_right (by omega) h

/-- The prefix length and the digits where the pending key and the next one part. -/
theorem before_prefixLength : ∀ {c q : Bytes}, Before c q → prefixLength q c < c.length
  | [], _, h => by cases h
  | _ :: _, [], h => by cases h
  | x :: c, y :: q, h => by
    unfold prefixLength
    split
    · simp
    · rename_i hne
      rcases h with h | ⟨_, h⟩
      · exfalso
        have : y = x := Decidable.of_not_not hne
        rw [this, UInt8.lt_iff_toNat_lt] at h
        omega
      · have := before_prefixLength h
        simp only [List.length_cons]; omega

/-- When the pending subtree `J` under `c` is not to be closed, the state for the next key. -/
theorem advance {keccak : Bytes → Bytes} {J : Ents} (hJ : J ≠ []) : ∀ {c q : Bytes} {K : Ents}, IsPath q →
    Before c q → AllBefore K c → (groupsOf K c).length ≤ prefixLength q c + 1 → ∀ d, c[prefixLength q c]? = some d →
    stackOf keccak (K ++ under c J) q =
      stackOf keccak K c ++ [refB keccak (under (c.drop (prefixLength q c + 1)) J)] ∧
    ∃ m, (resize (groupsOf K c) (prefixLength q c + 1))[prefixLength q c]? = some m ∧
      groupsOf (K ++ under c J) q =
        (resize (groupsOf K c) (prefixLength q c + 1)).set (prefixLength q c) (m ||| 2 ^ d.toNat)
  | [], _, _, _, h, _, _, _, _ => by cases h
  | _ :: _, [], _, _, h, _, _, _, _ => by cases h
  | x :: c, y :: q, K, hp, h, hb, hl, d, hd => by
    have hy := (isPath_cons.mp hp).1
    rcases h with h | ⟨rfl, h⟩
    · -- the keys part here
      have hne : y ≠ x := by rintro rfl; rw [UInt8.lt_iff_toNat_lt] at h; omega
      have e : prefixLength (y :: q) (x :: c) = 0 := by simp [prefixLength, hne]
      rw [e] at hl hd ⊢
      have hd' : d = x := by simpa using hd.symm
      subst hd'
      have hch : children d K = [] := by
        by_cases hK : K = []
        · subst hK; rfl
        · have hl' : (groupsOf (children d K) c).length = 0 := by
            simp only [groupsOf, if_neg hK, List.length_cons] at hl; omega
          exact (groupsOf_eq_nil (allBefore_children hb)).mp (List.length_eq_zero_iff.mp hl')
      have hH := headsBelow_of_before hb hch
      have hx := UInt8.lt_iff_toNat_lt.mp h
      have hg := below_append_gt (keccak := keccak) (s := c) hH hJ hx (by omega)
      have hcy : children y (K ++ under (d :: c) J) = [] := by
        rw [children_append, children_under, if_neg hne.symm, List.append_nil]
        exact children_headsBelow hH (by rw [UInt8.lt_iff_toNat_lt]; omega)
      refine ⟨?_, maskBelow d.toNat K, ?_, ?_⟩
      · rw [stackOf_cons, stackOf_cons, hg.2, hcy, stackOf_nil, hch, stackOf_nil, List.append_nil, List.append_nil]
        simp
      · rw [resize_groupsOf]; simp
      · rw [resize_groupsOf]
        rw [groupsOf_cons, if_neg (by simp [under_ne_nil hJ]), hg.1, hcy, groupsOf_nil, resize_zero]
        rfl
    · -- the keys share this nibble
      have e : prefixLength (x :: q) (x :: c) = prefixLength q c + 1 := by simp [prefixLength]
      rw [e] at hl hd ⊢
      have hl' : (groupsOf (children x K) c).length ≤ prefixLength q c + 1 := by
        by_cases hK : K = []
        · subst hK
          have : children x ([] : Ents) = [] := rfl
          rw [this, groupsOf_nil]; simp
        · simp only [groupsOf, if_neg hK, List.length_cons] at hl; omega
      obtain ⟨h1, m, h2, h3⟩ := advance hJ (isPath_cons.mp hp).2 h (allBefore_children hb) hl' d (by simpa using hd)
      have hc : children x (K ++ under (x :: c) J) = children x K ++ under c J := by
        rw [children_append, children_under, if_pos rfl]
      refine ⟨?_, m, ?_, ?_⟩
      · rw [stackOf_cons, hc, h1, refsBelow_append_le (Nat.le_refl _), stackOf_cons]
        simp
      · rw [resize_groupsOf]; simpa using h2
      · rw [resize_groupsOf]
        rw [groupsOf_cons, if_neg (by simp [under_ne_nil hJ]), hc, h3, maskBelow_append_le (Nat.le_refl _)]
        rfl

theorem popZeros_nil : popZeros [] = [] := rfl

theorem popZeros_cons (m : Nat) (l : List Nat) :
    popZeros (m :: l) = if popZeros l = [] then (if m = 0 then [] else [m]) else m :: popZeros l := by
  unfold popZeros
  rw [List.reverse_cons, List.dropWhile_append]
  by_cases h : List.dropWhile (fun g => g == 0) l.reverse = []
  · simp only [h, List.isEmpty_nil, if_true, List.reverse_nil]
    by_cases hm : m = 0
    · simp [hm]
    · simp [hm]
  · have : (List.dropWhile (fun g => g == 0) l.reverse).isEmpty = false := by simpa using h
    simp [this, h]

/-- What closing the last group leaves. -/
theorem decompose {keccak : Bytes → Bytes} : ∀ {c : Bytes} {K : Ents}, Sorted K → AllBefore K c → K ≠ [] →
    ∃ (n : Nat) (K' L : Ents) (x : UInt8) (s : Bytes),
      (groupsOf K c).length = n + 1 ∧ c.drop n = x :: s ∧ K = K' ++ under (c.take n) L ∧ L ≠ [] ∧ HeadsBelow x L ∧
      Sorted K' ∧ AllBefore K' (c.take n) ∧
      stackOf keccak K c = stackOf keccak K' (c.take n) ++ refsBelow keccak x.toNat L ∧
      groupsOf K c = (groupsOf K c).take n ++ [maskBelow x.toNat L] ∧
      popZeros ((groupsOf K c).take n) = groupsOf K' (c.take n)
  | [], K, _, hb, hne => absurd (allBefore_nil hb) hne
  | x :: c, K, hs, hb, hne => by
    by_cases hc : children x K = []
    · refine ⟨0, [], K, x, c, ?_, rfl, ?_, hne, headsBelow_of_before hb hc, List.Pairwise.nil,
        (fun e h => by cases h), ?_, ?_, ?_⟩
      · simp [groupsOf, hne, hc, groupsOf_nil]
      · simp [under_nil]
      · simp [stackOf, hc, stackOf_nil]
      · simp [groupsOf, hne, hc, groupsOf_nil]
      · simp [groupsOf, popZeros_nil]
    · obtain ⟨n, K2, L, y, s, h1, h2, h3, h4, h5, h6, h7, h8, h9, h10⟩ :=
        decompose (keccak := keccak) (sorted_children hs x) (allBefore_children hb) hc
      obtain ⟨A, hA, hh⟩ := split_children hs hb
      have hK : K = (A ++ under [x] K2) ++ under (x :: c.take n) L := by
        rw [List.append_assoc]
        have : under (x :: c.take n) L = under [x] (under (c.take n) L) := by rw [under_under]; rfl
        rw [this, ← under_append, ← h3]
        exact hA
      have hcK' : children x (A ++ under [x] K2) = K2 := by
        rw [children_append_under_self hh, under_nil]
      have hmask : maskBelow x.toNat (A ++ under [x] K2) = maskBelow x.toNat K := by
        conv => rhs; rw [hK]
        exact (maskBelow_append_le (Nat.le_refl _)).symm
      have hrefs : refsBelow keccak x.toNat (A ++ under [x] K2) = refsBelow keccak x.toNat K := by
        conv => rhs; rw [hK]
        exact (refsBelow_append_le (Nat.le_refl _)).symm
      refine ⟨n + 1, A ++ under [x] K2, L, y, s, ?_, ?_, ?_, h4, h5, ?_, ?_, ?_, ?_, ?_⟩
      · simp [groupsOf, hne, h1]
      · simpa using h2
      · exact hK
      · have : Sorted ((A ++ under [x] K2) ++ under (x :: c.take n) L) := hK ▸ hs
        exact (List.pairwise_append.mp this).1
      · intro e he
        rcases List.mem_append.mp he with he | he
        · obtain ⟨a, k, e1, e2⟩ := hh e he
          rw [e1]
          exact Or.inl e2
        · simp only [under, List.mem_map] at he
          obtain ⟨f, hf, rfl⟩ := he
          exact Or.inr ⟨rfl, h7 f hf⟩
      · show refsBelow keccak x.toNat K ++ stackOf keccak (children x K) c =
          (refsBelow keccak x.toNat (A ++ under [x] K2) ++ stackOf keccak (children x (A ++ under [x] K2)) (c.take n)) ++ _
        rw [hcK', hrefs, h8, List.append_assoc]
      · have e : groupsOf K (x :: c) = maskBelow x.toNat K :: groupsOf (children x K) c := by
          simp [groupsOf, hne]
        rw [e, List.take_succ_cons, List.cons_append, ← h9]
      · have e : groupsOf K (x :: c) = maskBelow x.toNat K :: groupsOf (children x K) c := by
          simp [groupsOf, hne]
        rw [e, List.take_succ_cons, popZeros_cons, h10]
        show _ = groupsOf _ (x :: c.take n)
        rw [groupsOf_cons, hcK', hmask]
        by_cases hK2 : K2 = []
        · subst hK2
          rw [groupsOf_nil, if_pos rfl]
          by_cases hAe : A = []
          · subst hAe
            have hm : maskBelow x.toNat K = 0 := hmask ▸ maskBelow_nil x.toNat
            rw [if_pos hm, if_pos (by rfl)]
          · rw [if_neg, if_neg (by simp [hAe])]
            rw [← hmask]
            have : under [x] ([] : Ents) = [] := rfl
            rw [this, List.append_nil]
            exact maskBelow_ne_zero hh hAe
        · rw [if_neg, if_neg (by simp [under_ne_nil hK2])]
          rw [groupsOf_eq_nil h7]
          exact hK2

/-! ## Branches -/

theorem branchChildren_eq {keccak : Bytes → Bytes} {mask : Nat} {es : Ents} : ∀ (ds : List Nat),
    (∀ i ∈ ds, mask.testBit i = decide (children (UInt8.ofNat i) es ≠ [])) →
    branchChildren mask ds ((ds.filter (fun i => decide (children (UInt8.ofNat i) es ≠ []))).map
      (fun i => refB keccak (children (UInt8.ofNat i) es))) =
    .ok (ds.flatMap (fun i => refB keccak (children (UInt8.ofNat i) es)))
  | [], _ => rfl
  | d :: ds, h => by
    have ih := branchChildren_eq (keccak := keccak) ds (fun i hi => h i (List.mem_cons_of_mem _ hi))
    unfold branchChildren
    rw [h d (List.mem_cons_self ..)]
    by_cases hc : children (UInt8.ofNat d) es = []
    · simp only [hc, ne_eq, not_true_eq_false, decide_false, Bool.false_eq_true, if_false]
      rw [List.filter_cons_of_neg (by simp [hc])]
      simp only [ne_eq] at ih
      rw [ih]
      show Outcome.ok (0x80 :: _) = _
      rw [List.flatMap_cons, hc]
      rfl
    · rw [List.filter_cons_of_pos (by simp [hc]), if_pos (by simp [hc])]
      simp only [List.map_cons]
      rw [ih]
      rfl

/-- The bytes and the stack of a branch node. -/
theorem branchRef_eq {keccak : Bytes → Bytes} (hk : ∀ x, (keccak x).length = 32) {es : Ents} {below : List Bytes}
    {hashMask : Nat} (h2 : 2 ≤ es.length) (hc : commonPrefix es = []) (hv : ∀ e ∈ es, e.1 ≠ [])
    (hsub : subset hashMask (maskBelow 16 es) = true) :
    branchRef keccak (below ++ refsBelow keccak 16 es) (maskBelow 16 es) hashMask =
      .ok (below ++ [refB keccak es],
        childHashes (maskBelow 16 es) hashMask (List.range 16) (refsBelow keccak 16 es)) := by
  have hmask : ∀ i ∈ List.range 16, (maskBelow 16 es).testBit i = decide (children (UInt8.ofNat i) es ≠ []) := by
    intro i hi
    rw [testBit_maskBelow]
    simp [List.mem_range.mp hi]
  have hpop : popcount (maskBelow 16 es) = (refsBelow keccak 16 es).length := by
    rw [refsBelow_eq, List.length_map, ← List.countP_eq_length_filter]
    unfold popcount
    apply List.countP_congr
    intro i hi
    rw [hmask i hi]
  unfold branchRef
  rw [if_neg (by simp [hsub]), if_neg (by rw [hpop, List.length_append]; omega), hpop]
  have hfirst : (below ++ refsBelow keccak 16 es).length - (refsBelow keccak 16 es).length = below.length := by
    rw [List.length_append]; omega
  simp only [hfirst, List.drop_left, List.take_left]
  have hbc : branchChildren (maskBelow 16 es) (List.range 16) (refsBelow keccak 16 es) =
      .ok ((List.range 16).flatMap (fun i => refB keccak (children (UInt8.ofNat i) es))) := by
    conv => lhs; arg 3; rw [refsBelow_eq]
    exact branchChildren_eq _ hmask
  rw [hbc]
  have hitems : rlpItems (digits.map (fun d => reference keccak (node keccak (children d es))) ++
      [.str (branchValue es)]) =
      (List.range 16).flatMap (fun i => refB keccak (children (UInt8.ofNat i) es)) ++ [0x80] := by
    rw [rlpItems_append, rlpItems_map, branchValue_nil hv]
    unfold digits
    rw [List.flatMap_map]
    rfl
  have hlen : ((List.range 16).flatMap (fun i => refB keccak (children (UInt8.ofNat i) es)) ++ [0x80]).length < 2 ^ 64 := by
    have := flatMap_length_le (fun i => refB keccak (children (UInt8.ofNat i) es)) 33
      (fun i => rlp_reference_length hk _) (List.range 16)
    rw [List.length_append]
    simp only [List.length_range, List.length_cons, List.length_nil] at *
    omega
  have hnode : rlp (node keccak es) = encodeHeader ⟨true, ((List.range 16).flatMap
      (fun i => refB keccak (children (UInt8.ofNat i) es)) ++ [0x80]).length⟩ ++
      ((List.range 16).flatMap (fun i => refB keccak (children (UInt8.ofNat i) es)) ++ [0x80]) := by
    rw [node_branch keccak es h2 hc, Spec.rlp_list_eq (by rw [hitems]; exact hlen), hitems]
  show Outcome.ok (_, _) = _
  rw [← hnode, nodeRef_rlp hk]
  rfl

end Silkworm.Trie
