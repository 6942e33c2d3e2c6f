import Verif.Trie.RecordLemmas

/-!
# How long nodes are at least
-/

namespace Silkworm.Trie

open Silkworm.Rlp Silkworm.Spec

theorem lenPrefix_pos (b n : Nat) : 1 ≤ (lenPrefix b n).length := by
  unfold lenPrefix
  split <;> simp

theorem rlpStr_ge (b : Bytes) : max 1 b.length ≤ (rlp (.str b)).length := by
  show _ ≤ (rlpStr b).length
  unfold rlpStr
  split
  · split <;> simp
  · have := lenPrefix_pos 128 b.length
    rw [List.length_append]
    omega

theorem rlpList_ge (l : List Item) : (rlpItems l).length + 1 ≤ (rlp (.list l)).length := by
  show _ ≤ (lenPrefix 192 (rlpItems l).length ++ rlpItems l).length
  have := lenPrefix_pos 192 (rlpItems l).length
  rw [List.length_append]
  omega

theorem rlp_pos (i : Item) : 1 ≤ (rlp i).length := by
  cases i with
  | str b => exact Nat.le_trans (Nat.le_max_left ..) (rlpStr_ge b)
  | list l => exact Nat.le_trans (Nat.le_add_left ..) (rlpList_ge l)

theorem reference_ge {keccak : Bytes → Bytes} (hk : ∀ x, (keccak x).length = 32) (i : Item) :
    min 32 (rlp i).length ≤ (rlp (reference keccak i)).length := by
  unfold reference
  split
  · omega
  · have := rlpStr_ge (keccak (rlp i))
    rw [hk] at this
    omega

theorem flatMap_ge_one {α : Type} [DecidableEq α] {f : α → Bytes} (hf : ∀ x, 1 ≤ (f x).length) :
    ∀ (l : List α), l.length ≤ (l.flatMap f).length
  | [] => by simp
  | x :: l => by
    have := hf x
    have := flatMap_ge_one hf l
    rw [List.flatMap_cons, List.length_append, List.length_cons]
    omega

theorem flatMap_perm_length {α : Type} {f : α → Bytes} {a b : List α} (h : a.Perm b) :
    (a.flatMap f).length = (b.flatMap f).length := (h.flatMap_right f).length_eq

theorem flatMap_ge {α : Type} [DecidableEq α] {f : α → Bytes} (hf : ∀ x, 1 ≤ (f x).length) {l : List α} {a : α} (ha : a ∈ l) :
    (f a).length + (l.length - 1) ≤ (l.flatMap f).length := by
  rw [flatMap_perm_length (List.perm_cons_erase ha), List.flatMap_cons, List.length_append]
  have := flatMap_ge_one hf (l.erase a)
  rw [List.length_erase_of_mem ha] at this
  omega

theorem flatMap_ge_two {α : Type} [DecidableEq α] {f : α → Bytes} (hf : ∀ x, 1 ≤ (f x).length) {l : List α} {a b : α} (ha : a ∈ l)
    (hb : b ∈ l) (hab : a ≠ b) : (f a).length + (f b).length + (l.length - 2) ≤ (l.flatMap f).length := by
  rw [flatMap_perm_length (List.perm_cons_erase ha), List.flatMap_cons, List.length_append]
  have := flatMap_ge hf (l := l.erase a) (a := b) ((List.mem_erase_of_ne (Ne.symm hab)).mpr hb)
  rw [List.length_erase_of_mem ha] at this
  omega

theorem mem_digits {d : UInt8} (h : d.toNat < 16) : d ∈ digits :=
  List.mem_map.mpr ⟨d.toNat, List.mem_range.mpr h, uint8_ofNat_toNat_id d⟩

/-- The node of some entries is at least as long as what one of them needs, or takes 32 bytes. -/
theorem node_size {keccak : Bytes → Bytes} (hk : ∀ x, (keccak x).length = 32) : ∀ (n : Nat) (es : Ents), sumLen es < n →
    Free es → (∀ e ∈ es, IsPath e.1) → ∀ e ∈ es,
    min 32 (e.1.length / 2 + 2 + max 1 e.2.length) ≤ (rlp (node keccak es)).length
  | 0, _, h, _, _, _, _ => by omega
  | n + 1, es, hn, hf, hp, e, he => by
    match es, hn, hf, hp, he with
    | [(k, v)], _, _, _, he =>
      rw [List.mem_singleton.mp he, node_single]
      have h1 := rlpList_ge [.str (hexPrefix k true), .str v]
      have h2 : (rlpItems [.str (hexPrefix k true), .str v]).length =
          (rlp (.str (hexPrefix k true))).length + (rlp (.str v)).length := by simp [rlpItems]
      have h3 := rlpStr_ge (hexPrefix k true)
      have h4 := rlpStr_ge v
      rw [hexPrefix_length] at h3
      dsimp only
      omega
    | a :: b :: r, hn, hf, hp, he =>
      have h2 : 2 ≤ (a :: b :: r).length := by simp
      generalize a :: b :: r = es at *
      by_cases hc : commonPrefix es = []
      · rw [node_branch keccak es h2 hc]
        have h1 := rlpList_ge (digits.map (fun d => reference keccak (node keccak (children d es))) ++ [.str (branchValue es)])
        rw [rlpItems_append, rlpItems_map, List.length_append] at h1
        have hne := free_nonempty hf h2 e he
        obtain ⟨k, v⟩ := e
        cases k with
        | nil => exact absurd rfl hne
        | cons d k =>
          have hm : (k, v) ∈ children d es := mem_children.mpr he
          have hs := sumLen_children d es
          have hpos : 1 ≤ (children d es).length := List.length_pos_of_mem hm
          have ih := node_size hk n (children d es) (by omega) (free_children hf d)
            (fun x hx => by
              obtain ⟨k', v'⟩ := x
              exact (isPath_cons.mp (hp _ (mem_children.mp hx))).2) (k, v) hm
          have hd := (isPath_cons.mp (hp _ he)).1
          have h3 := flatMap_ge (f := fun d => rlp (reference keccak (node keccak (children d es)))) (fun d => rlp_pos _)
            (mem_digits hd)
          have h4 := reference_ge hk (node keccak (children d es))
          have h5 : digits.length = 16 := by decide
          simp only [List.length_cons] at ih ⊢
          omega
      · rw [node_ext keccak es h2 hc]
        have hpre := fun x hx => commonPrefix_prefix es x hx
        generalize commonPrefix es = l at *
        have h1 := rlpList_ge [.str (hexPrefix l false),
          reference keccak (node keccak (es.map (fun e => (e.1.drop l.length, e.2))))]
        have h2' : (rlpItems [.str (hexPrefix l false),
          reference keccak (node keccak (es.map (fun e => (e.1.drop l.length, e.2))))]).length =
          (rlp (.str (hexPrefix l false))).length +
            (rlp (reference keccak (node keccak (es.map (fun e => (e.1.drop l.length, e.2)))))).length := by simp [rlpItems]
        have h3 := rlpStr_ge (hexPrefix l false)
        rw [hexPrefix_length] at h3
        have hlt := sumLen_drop_lt es l.length (by rintro rfl; cases he) (List.length_pos_iff.mpr hc)
          (fun x hx => (hpre x hx).length_le)
        have ih := node_size hk n _ (by omega) (free_drop hf l hpre)
          (fun x hx => by
            obtain ⟨y, hy, rfl⟩ := List.mem_map.mp hx
            exact isPath_drop (hp y hy) _) (e.1.drop l.length, e.2) (List.mem_map.mpr ⟨e, he, rfl⟩)
        have h4 := reference_ge hk (node keccak (es.map (fun e => (e.1.drop l.length, e.2))))
        have h5 := (hpre e he).length_le
        simp only [List.length_drop] at ih
        omega

theorem free_below {T : Ents} (hf : Free T) (p : Bytes) : Free (below T p) := by
  unfold Free below
  rw [List.pairwise_filterMap]
  refine hf.imp_of_mem ?_
  intro a b _ _ h x hx y hy
  split at hx
  · rename_i ha
    split at hy
    · rename_i hb
      obtain ⟨a', ea⟩ := List.isPrefixOf_iff_prefix.mp ha
      obtain ⟨b', eb⟩ := List.isPrefixOf_iff_prefix.mp hb
      cases hx
      cases hy
      simp only [← ea, ← eb, List.drop_left]
      rw [← ea, ← eb] at h
      exact ⟨fun h0 => h.1 ((List.prefix_append_right_inj p).mpr h0), fun h0 => h.2 ((List.prefix_append_right_inj p).mpr h0)⟩
    · cases hy
  · cases hx

/-- A branch node takes 32 bytes if its children need at least 8 bytes. -/
theorem branch_size {keccak : Bytes → Bytes} (hk : ∀ x, (keccak x).length = 32) {T : Ents} (hf : Free T)
    (hp : ∀ e ∈ T, IsPath e.1) {p : Bytes} (hb : BranchAt T p)
    (hbig : ∀ e ∈ T, p <+: e.1 → 8 ≤ (e.1.length - p.length - 1) / 2 + 2 + max 1 e.2.length) :
    32 ≤ (nodeRlp keccak (below T p)).length := by
  obtain ⟨a, b, hab, ⟨ea, hea, pa⟩, ⟨eb, heb, pb⟩⟩ := hb
  have hfb := free_below hf p
  have hpath : ∀ e ∈ below T p, IsPath e.1 := by
    rintro ⟨k, v⟩ he
    have := hp _ (mem_below.mp he)
    intro x hx
    exact this x (List.mem_append_right _ hx)
  have key : ∀ (d : UInt8) (e : Bytes × Bytes), e ∈ T → p ++ [d] <+: e.1 → d.toNat < 16 ∧
      8 ≤ (rlp (reference keccak (node keccak (children d (below T p))))).length ∧
      ∃ k v, (d :: k, v) ∈ below T p := by
    rintro d ⟨x, v⟩ he ⟨k, rfl⟩
    have hmem : (d :: k, v) ∈ below T p := mem_below.mpr (by simpa using he)
    have h1 := node_size hk _ (children d (below T p)) (Nat.lt_succ_self _) (free_children hfb d)
      (fun x hx => by
        obtain ⟨k', v'⟩ := x
        exact (isPath_cons.mp (hpath _ (mem_children.mp hx))).2) (k, v) (mem_children.mpr hmem)
    have h2 := reference_ge hk (node keccak (children d (below T p)))
    have h3 := hbig _ he (by simp)
    have h4 := (isPath_cons.mp (hpath _ hmem)).1
    simp only [List.length_append, List.length_singleton] at h1 h3
    exact ⟨h4, by omega, k, v, hmem⟩
  obtain ⟨a1, a2, ka, va, ma⟩ := key a ea hea pa
  obtain ⟨b1, b2, kb, vb, mb⟩ := key b eb heb pb
  have hc : commonPrefix (below T p) = [] := by
    by_contra h0
    have e1 := commonPrefix_prefix _ _ ma
    have e2 := commonPrefix_prefix _ _ mb
    cases hl : commonPrefix (below T p) with
    | nil => exact h0 hl
    | cons x l =>
      rw [hl] at e1 e2
      exact hab ((List.cons_prefix_cons.mp e1).1.symm.trans (List.cons_prefix_cons.mp e2).1)
  have h2 : 2 ≤ (below T p).length := by
    match hl : below T p, ma, mb with
    | [x], ma, mb =>
      have := congrArg (fun x : Bytes × Bytes => x.1.head?) ((List.mem_singleton.mp ma).trans (List.mem_singleton.mp mb).symm)
      simp only [List.head?_cons, Option.some.injEq] at this
      exact absurd this hab
    | x :: y :: r, _, _ => simp
  show 32 ≤ (rlp (node keccak (below T p))).length
  rw [node_branch keccak _ h2 hc]
  have h1 := rlpList_ge (digits.map (fun d => reference keccak (node keccak (children d (below T p)))) ++
    [.str (branchValue (below T p))])
  rw [rlpItems_append, rlpItems_map, List.length_append] at h1
  have h3 := flatMap_ge_two (f := fun d => rlp (reference keccak (node keccak (children d (below T p))))) (fun d => rlp_pos _)
    (mem_digits a1) (mem_digits b1) hab
  have h4 : 1 ≤ (rlpItems [.str (branchValue (below T p))]).length := by
    have := rlp_pos (.str (branchValue (below T p)))
    simp only [rlpItems, List.append_nil]
    exact this
  have h5 : digits.length = 16 := by decide
  omega

theorem nibbles_append (a b : Bytes) : nibbles (a ++ b) = nibbles a ++ nibbles b := by
  induction a with
  | nil => rfl
  | cons x a ih => show _ :: _ :: nibbles (a ++ b) = _; rw [ih]; rfl

theorem pairwise_mem {α : Type} {R : α → α → Prop} (hs : ∀ a b, R a b → R b a) {l : List α} (h : l.Pairwise R) {a b : α}
    (ha : a ∈ l) (hb : b ∈ l) (hab : a ≠ b) : R a b := by
  induction l with
  | nil => cases ha
  | cons x l ih =>
    have h' := List.pairwise_cons.mp h
    rcases List.mem_cons.mp ha with rfl | ha'
    · rcases List.mem_cons.mp hb with rfl | hb'
      · exact absurd rfl hab
      · exact h'.1 b hb'
    · rcases List.mem_cons.mp hb with rfl | hb'
      · exact hs _ _ (h'.1 a ha')
      · exact ih h'.2 ha' hb'

end Silkworm.Trie
