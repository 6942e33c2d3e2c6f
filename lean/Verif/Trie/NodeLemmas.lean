import Verif.Trie.HashBuilder
import Verif.Spec.Trie
import Verif.Spec.RlpLemmas
import Verif.Common.UtilLemmas

/-!
# Node encodings and the specification of the trie

Helper lemmas: hex prefix, the RLP of nodes, unfolding of `Spec.trieNode`.
-/

namespace Silkworm.Trie

open Silkworm.Rlp
open Silkworm.Spec (Item rlp rlpItems rlpStr hexPrefix joinNibbles nibbles reference trieNode depthBound commonPrefix
  children branchValue digits lcp)

/-- Entries of a trie: paths and values. -/
abbrev Ents := List (Bytes × Bytes)

/-! ## Nibbles and hex prefix -/

theorem unpack_eq (b : Bytes) : unpackNibbles b = nibbles b := by
  induction b with
  | nil => rfl
  | cons x xs ih =>
    have h : ∀ x : UInt8, x >>> 4 = UInt8.ofNat (x.toNat / 16) ∧ x &&& 0xF = UInt8.ofNat (x.toNat % 16) := by
      apply forall_uint8; decide +kernel
    show [x >>> 4, x &&& 0xF] ++ unpackNibbles xs = _
    rw [ih, (h x).1, (h x).2]
    rfl

/-- All elements are nibbles. -/
def IsPath (p : Bytes) : Prop := ∀ x ∈ p, x.toNat < 16

theorem nibbles_path (b : Bytes) : IsPath (nibbles b) := by
  induction b with
  | nil => intro x hx; cases hx
  | cons y ys ih =>
    intro x hx
    have hy := UInt8.toNat_lt y
    simp only [nibbles, List.mem_cons] at hx
    rcases hx with rfl | rfl | hx
    · rw [uint8_ofNat_toNat _ (by omega)]; omega
    · rw [uint8_ofNat_toNat _ (by omega)]; omega
    · exact ih x hx

theorem isPath_cons {x : UInt8} {p : Bytes} : IsPath (x :: p) ↔ x.toNat < 16 ∧ IsPath p := by
  simp [IsPath]

theorem isPath_drop {p : Bytes} (h : IsPath p) (n : Nat) : IsPath (p.drop n) := fun x hx => h x (List.mem_of_mem_drop hx)

theorem isPath_take {p : Bytes} (h : IsPath p) (n : Nat) : IsPath (p.take n) := fun x hx => h x (List.mem_of_mem_take hx)

theorem pack_pair : ∀ a b : UInt8, a.toNat < 16 → b.toNat < 16 → (a <<< 4) + b = UInt8.ofNat (16 * a.toNat + b.toNat) := by
  intro a b ha hb
  have h : ∀ i : Fin 16, ∀ j : Fin 16, ((UInt8.ofNat i.val) <<< 4) + UInt8.ofNat j.val = UInt8.ofNat (16 * i.val + j.val) := by
    decide +kernel
  have := h ⟨a.toNat, ha⟩ ⟨b.toNat, hb⟩
  simpa using this

theorem packPairs_eq : ∀ p : Bytes, IsPath p → packPairs p = joinNibbles p
  | [], _ => rfl
  | [_], _ => rfl
  | a :: b :: rest, h => by
    have h1 := isPath_cons.mp h
    have h2 := isPath_cons.mp h1.2
    show _ :: packPairs rest = _ :: joinNibbles rest
    rw [packPairs_eq rest h2.2, pack_pair a b h1.1 h2.1]

theorem or_odd : ∀ a : UInt8, a.toNat < 16 → (0x30 ||| a = UInt8.ofNat (16 * 3 + a.toNat)) ∧
    (0x10 ||| a = UInt8.ofNat (16 * 1 + a.toNat)) := by
  intro a ha
  have h : ∀ i : Fin 16, (0x30 ||| UInt8.ofNat i.val = UInt8.ofNat (16 * 3 + i.val)) ∧
      (0x10 ||| UInt8.ofNat i.val = UInt8.ofNat (16 * 1 + i.val)) := by decide +kernel
  have := h ⟨a.toNat, ha⟩
  simpa using this

theorem encodePath_eq (p : Bytes) (h : IsPath p) (t : Bool) : encodePath p t = hexPrefix p t := by
  unfold encodePath hexPrefix
  by_cases hodd : p.length % 2 = 0
  · rw [if_neg (by omega), if_pos hodd, packPairs_eq p h]
    cases t <;> rfl
  · rw [if_pos hodd, if_neg hodd]
    cases p with
    | nil => simp at hodd
    | cons a rest =>
      have h1 := isPath_cons.mp h
      show _ :: packPairs rest = _ :: joinNibbles rest
      rw [packPairs_eq rest h1.2]
      cases t
      · exact congrArg (· :: joinNibbles rest) (or_odd a h1.1).2
      · exact congrArg (· :: joinNibbles rest) (or_odd a h1.1).1

theorem joinNibbles_length : ∀ p : Bytes, (joinNibbles p).length = p.length / 2
  | [] => rfl
  | [_] => by simp [joinNibbles]
  | a :: b :: rest => by
    show (joinNibbles rest).length + 1 = (rest.length + 1 + 1) / 2
    rw [joinNibbles_length rest]; omega

theorem hexPrefix_length (p : Bytes) (t : Bool) : (hexPrefix p t).length = p.length / 2 + 1 := by
  unfold hexPrefix
  by_cases h : p.length % 2 = 0
  · simp only [if_pos h, joinNibbles_length, List.length_cons]; omega
  · simp only [if_neg h, joinNibbles_length, List.length_cons]; omega

/-! ## References -/

theorem rlpStr_hash {h : Bytes} (hl : h.length = 32) : rlpStr h = UInt8.ofNat (0x80 + 32) :: h := by
  rw [← encodeArray_spec (by omega) (by omega)]
  unfold encodeArray
  rw [hl]

theorem nodeRef_rlp {keccak : Bytes → Bytes} (hk : ∀ x, (keccak x).length = 32) (i : Item) :
    nodeRef keccak (rlp i) = rlp (reference keccak i) := by
  unfold nodeRef reference
  by_cases h : (rlp i).length < 32
  · rw [if_pos h, if_pos h]
  · rw [if_neg h, if_neg h]
    show _ = rlpStr _
    rw [rlpStr_hash (hk _)]

theorem rlp_reference_length {keccak : Bytes → Bytes} (hk : ∀ x, (keccak x).length = 32) (i : Item) :
    (rlp (reference keccak i)).length ≤ 33 := by
  rw [← nodeRef_rlp hk]
  unfold nodeRef
  split
  · omega
  · simp [hk]

theorem encodeBytes_length_le {b : Bytes} (h : b.length < 2 ^ 64) : (encodeBytes b).length ≤ b.length + 9 := by
  rw [← lengthBytes_eq h]
  unfold lengthBytes lengthOfLength
  split
  · split
    · omega
    · omega
  · omega

theorem leafNodeRlp_eq {p v : Bytes} (hp : IsPath p) (hl : p.length + v.length < 2 ^ 63) :
    leafNodeRlp p v = rlp (.list [.str (hexPrefix p true), .str v]) := by
  have h1 : (hexPrefix p true).length < 2 ^ 64 := by rw [hexPrefix_length]; omega
  have h2 : v.length < 2 ^ 64 := by omega
  have e : rlpItems [.str (hexPrefix p true), .str v] = encodeBytes (hexPrefix p true) ++ encodeBytes v := by
    show rlpStr _ ++ (rlpStr _ ++ []) = _
    rw [encodeBytes_spec h1, encodeBytes_spec h2, List.append_nil]
  have hlen : (rlpItems [.str (hexPrefix p true), .str v]).length < 2 ^ 64 := by
    rw [e, List.length_append]
    have := encodeBytes_length_le h1
    have := encodeBytes_length_le h2
    rw [hexPrefix_length] at *
    omega
  rw [Spec.rlp_list_eq hlen]
  unfold leafNodeRlp
  simp only [encodePath_eq p hp, lengthBytes_eq h1, lengthBytes_eq h2, e, List.length_append, List.append_assoc]

theorem extensionNodeRlp_eq {keccak : Bytes → Bytes} (hk : ∀ x, (keccak x).length = 32) {p : Bytes} (hp : IsPath p)
    (hl : p.length < 2 ^ 63) (i : Item) :
    extensionNodeRlp p (rlp (reference keccak i)) = rlp (.list [.str (hexPrefix p false), reference keccak i]) := by
  have h1 : (hexPrefix p false).length < 2 ^ 64 := by rw [hexPrefix_length]; omega
  have e : rlpItems [.str (hexPrefix p false), reference keccak i] =
      encodeBytes (hexPrefix p false) ++ rlp (reference keccak i) := by
    show rlpStr _ ++ (rlp _ ++ []) = _
    rw [encodeBytes_spec h1, List.append_nil]
  have hlen : (rlpItems [.str (hexPrefix p false), reference keccak i]).length < 2 ^ 64 := by
    rw [e, List.length_append]
    have := encodeBytes_length_le h1
    have := rlp_reference_length hk i
    rw [hexPrefix_length] at *
    omega
  rw [Spec.rlp_list_eq hlen]
  unfold extensionNodeRlp
  simp only [encodePath_eq p hp, lengthBytes_eq h1, e, List.length_append, List.append_assoc]

theorem rlpItems_append (a b : List Item) : rlpItems (a ++ b) = rlpItems a ++ rlpItems b := by
  induction a with
  | nil => rfl
  | cons x xs ih =>
    show rlp x ++ rlpItems (xs ++ b) = (rlp x ++ rlpItems xs) ++ _
    rw [ih, List.append_assoc]

theorem rlpItems_map {α : Type} (f : α → Item) (l : List α) : rlpItems (l.map f) = l.flatMap (fun x => rlp (f x)) := by
  induction l with
  | nil => rfl
  | cons x xs ih =>
    show rlp (f x) ++ rlpItems (xs.map f) = _
    rw [ih]; rfl

theorem flatMap_length_le {α : Type} (f : α → Bytes) (n : Nat) (h : ∀ x, (f x).length ≤ n) (l : List α) :
    (l.flatMap f).length ≤ n * l.length := by
  induction l with
  | nil => simp
  | cons x xs ih =>
    rw [List.flatMap_cons, List.length_append, List.length_cons, Nat.mul_succ]
    have := h x
    omega

/-! ## Unfolding the specification -/

/-- The node of a set of entries. -/
def node (keccak : Bytes → Bytes) (es : Ents) : Item := trieNode keccak (depthBound es) es

/-- The bytes by which a parent refers to the node of a set of entries. -/
def refB (keccak : Bytes → Bytes) (es : Ents) : Bytes := rlp (reference keccak (node keccak es))

/-- Total length of the paths. -/
def sumLen (es : Ents) : Nat := (es.map (fun e => e.1.length)).sum

theorem sumLen_cons (e : Bytes × Bytes) (es : Ents) : sumLen (e :: es) = e.1.length + sumLen es := by
  simp [sumLen]

theorem lcp_prefix_left : ∀ a b : Bytes, lcp a b <+: a
  | [], _ => by unfold lcp; exact List.nil_prefix
  | x :: xs, [] => by unfold lcp; exact List.nil_prefix
  | x :: xs, y :: ys => by
    unfold lcp
    split
    · exact List.cons_prefix_cons.mpr ⟨rfl, lcp_prefix_left xs ys⟩
    · exact List.nil_prefix

theorem lcp_prefix_right : ∀ a b : Bytes, lcp a b <+: b
  | [], _ => by unfold lcp; exact List.nil_prefix
  | x :: xs, [] => by unfold lcp; exact List.nil_prefix
  | x :: xs, y :: ys => by
    unfold lcp
    split
    · rename_i h
      exact List.cons_prefix_cons.mpr ⟨h, lcp_prefix_right xs ys⟩
    · exact List.nil_prefix

theorem commonPrefix_prefix : ∀ (es : Ents) (e : Bytes × Bytes), e ∈ es → commonPrefix es <+: e.1
  | [], _, h => by cases h
  | [x], e, h => by
    simp only [List.mem_singleton] at h
    subst h; exact List.prefix_refl _
  | x :: y :: r, e, h => by
    show lcp x.1 (commonPrefix (y :: r)) <+: e.1
    rcases List.mem_cons.mp h with rfl | h
    · exact lcp_prefix_left _ _
    · exact (lcp_prefix_right _ _).trans (commonPrefix_prefix (y :: r) e h)

theorem lcp_append (s a b : Bytes) : lcp (s ++ a) (s ++ b) = s ++ lcp a b := by
  induction s with
  | nil => rfl
  | cons x xs ih =>
    show (if x = x then x :: lcp (xs ++ a) (xs ++ b) else []) = _
    rw [if_pos rfl, ih]; rfl

/-- Put a prefix in front of every path. -/
def under (s : Bytes) (es : Ents) : Ents := es.map (fun e => (s ++ e.1, e.2))

theorem under_nil (es : Ents) : under [] es = es := by simp [under]

theorem under_append (s : Bytes) (a b : Ents) : under s (a ++ b) = under s a ++ under s b := by simp [under]

theorem under_under (s t : Bytes) (es : Ents) : under s (under t es) = under (s ++ t) es := by
  simp [under, List.append_assoc]

theorem under_length (s : Bytes) (es : Ents) : (under s es).length = es.length := by simp [under]

theorem commonPrefix_under (s : Bytes) : ∀ es : Ents, es ≠ [] → commonPrefix (under s es) = s ++ commonPrefix es
  | [], h => absurd rfl h
  | [e], _ => rfl
  | e :: f :: r, _ => by
    show lcp (s ++ e.1) (commonPrefix (under s (f :: r))) = s ++ lcp e.1 (commonPrefix (f :: r))
    rw [commonPrefix_under s (f :: r) (by simp), lcp_append]

theorem sumLen_children (d : UInt8) (es : Ents) : sumLen (children d es) + (children d es).length ≤ sumLen es := by
  induction es with
  | nil => simp [children]
  | cons e es ih =>
    obtain ⟨k, v⟩ := e
    cases k with
    | nil =>
      show sumLen (children d es) + (children d es).length ≤ _
      rw [sumLen_cons]; simpa using ih
    | cons x k =>
      unfold children
      rw [sumLen_cons]
      split
      · rw [sumLen_cons, List.length_cons]
        simp only [List.length_cons]
        omega
      · simp only [List.length_cons]
        omega

theorem sumLen_drop (es : Ents) (n : Nat) :
    sumLen (es.map (fun e => (e.1.drop n, e.2))) ≤ sumLen es := by
  induction es with
  | nil => simp [sumLen]
  | cons e es ih =>
    rw [List.map_cons, sumLen_cons, sumLen_cons]
    simp only [List.length_drop]
    omega

theorem sumLen_drop_lt (es : Ents) (n : Nat) (h : es ≠ []) (hn : 0 < n) (hp : ∀ e ∈ es, n ≤ e.1.length) :
    sumLen (es.map (fun e => (e.1.drop n, e.2))) < sumLen es := by
  cases es with
  | nil => exact absurd rfl h
  | cons e es =>
    rw [List.map_cons, sumLen_cons, sumLen_cons]
    have := sumLen_drop es n
    have := hp e (List.mem_cons_self ..)
    simp only [List.length_drop]
    omega

theorem trieNode_fuel (keccak : Bytes → Bytes) : ∀ (n m : Nat) (es : Ents), (es = [] ∨ sumLen es < n) →
    (es = [] ∨ sumLen es < m) → trieNode keccak n es = trieNode keccak m es := by
  intro n
  induction n with
  | zero =>
    intro m es h1 _
    rcases h1 with rfl | h1
    · cases m <;> rfl
    · omega
  | succ n ih =>
    intro m es h1 h2
    match es, m, h1, h2 with
    | [], m, _, _ => cases m <;> rfl
    | [(k, v)], m, _, _ => cases m <;> rfl
    | e :: f :: r, 0, _, h2 => rcases h2 with h2 | h2; cases h2; omega
    | e :: f :: r, m + 1, h1, h2 =>
      have h1 : sumLen (e :: f :: r) < n + 1 := by rcases h1 with h1 | h1; cases h1; exact h1
      have h2 : sumLen (e :: f :: r) < m + 1 := by rcases h2 with h2 | h2; cases h2; exact h2
      unfold trieNode
      by_cases hc : commonPrefix (e :: f :: r) ≠ []
      · rw [if_pos hc, if_pos hc]
        have hlt := sumLen_drop_lt (e :: f :: r) (commonPrefix (e :: f :: r)).length (by simp)
          (List.length_pos_iff.mpr hc) (fun x hx => (commonPrefix_prefix _ x hx).length_le)
        exact congrArg (fun i => Item.list [.str (hexPrefix (commonPrefix (e :: f :: r)) false), reference keccak i])
          (ih m _ (Or.inr (Nat.lt_of_lt_of_le hlt (Nat.le_of_lt_succ h1)))
            (Or.inr (Nat.lt_of_lt_of_le hlt (Nat.le_of_lt_succ h2))))
      · rw [if_neg hc, if_neg hc]
        congr 2
        apply List.map_congr_left
        intro d _
        have hs := sumLen_children d (e :: f :: r)
        have : trieNode keccak n (children d (e :: f :: r)) = trieNode keccak m (children d (e :: f :: r)) := by
          cases hcd : children d (e :: f :: r) with
          | nil => cases n <;> cases m <;> rfl
          | cons a b =>
            rw [hcd] at hs
            rw [List.length_cons] at hs
            exact ih m _ (Or.inr (by omega)) (Or.inr (by omega))
        rw [this]

theorem node_nil (keccak : Bytes → Bytes) : node keccak [] = .str [] := rfl

theorem node_single (keccak : Bytes → Bytes) (k v : Bytes) :
    node keccak [(k, v)] = .list [.str (hexPrefix k true), .str v] := rfl

theorem trieNode_eq_node (keccak : Bytes → Bytes) (n : Nat) (es : Ents) (h : es = [] ∨ sumLen es < n) :
    trieNode keccak n es = node keccak es := by
  apply trieNode_fuel keccak n _ es h
  right
  show sumLen es < sumLen es + 1
  omega

theorem node_ext (keccak : Bytes → Bytes) (es : Ents) (h2 : 2 ≤ es.length) (hc : commonPrefix es ≠ []) :
    node keccak es = .list [.str (hexPrefix (commonPrefix es) false),
      reference keccak (node keccak (es.map (fun e => (e.1.drop (commonPrefix es).length, e.2))))] := by
  match es, h2 with
  | e :: f :: r, _ =>
    have hlt := sumLen_drop_lt (e :: f :: r) (commonPrefix (e :: f :: r)).length (by simp)
      (List.length_pos_iff.mpr hc) (fun x hx => (commonPrefix_prefix _ x hx).length_le)
    show trieNode keccak (sumLen (e :: f :: r) + 1) (e :: f :: r) = _
    conv => lhs; unfold trieNode
    rw [if_pos hc]
    simp only
    rw [trieNode_eq_node keccak _ _ (Or.inr hlt)]

theorem node_branch (keccak : Bytes → Bytes) (es : Ents) (h2 : 2 ≤ es.length) (hc : commonPrefix es = []) :
    node keccak es = .list (digits.map (fun d => reference keccak (node keccak (children d es))) ++
      [.str (branchValue es)]) := by
  match es, h2 with
  | e :: f :: r, _ =>
    show trieNode keccak (sumLen (e :: f :: r) + 1) (e :: f :: r) = _
    conv => lhs; unfold trieNode
    rw [if_neg (by simpa using hc)]
    congr 2
    apply List.map_congr_left
    intro d _
    have hs := sumLen_children d (e :: f :: r)
    rw [trieNode_eq_node]
    cases hcd : children d (e :: f :: r) with
    | nil => exact Or.inl rfl
    | cons a b =>
      rw [hcd, List.length_cons] at hs
      exact Or.inr (by omega)

theorem drop_under (s : Bytes) (es : Ents) : (under s es).map (fun e => (e.1.drop s.length, e.2)) = es := by
  simp [under, Function.comp_def]

/-- The node of the entries below a prefix, when they branch right after it. -/
theorem node_under (keccak : Bytes → Bytes) (es : Ents) (h2 : 2 ≤ es.length) (hc : commonPrefix es = []) (s : Bytes)
    (hs : s ≠ []) : node keccak (under s es) = .list [.str (hexPrefix s false), reference keccak (node keccak es)] := by
  have hne : es ≠ [] := by rintro rfl; simp at h2
  have hcp : commonPrefix (under s es) = s := by rw [commonPrefix_under s es hne, hc, List.append_nil]
  rw [node_ext keccak (under s es) (by rw [under_length]; exact h2) (by rw [hcp]; exact hs), hcp, drop_under]

end Silkworm.Trie
