import Verif.State.MemoryBuffer

/-!
# Lemmas about the memory buffer

What a list of calls leaves behind, and what unwinding does, whatever the order of the calls.
-/

namespace Silkworm.MemoryBuffer

open State

/-- Not `beginBlock`. -/
def Plain : BufferCall → Prop
  | .beginBlock _ => False
  | _ => True

/-- What unwinding and executing do not look at. -/
theorem nestedGet?_nestedSet (m : AMap Bytes (AMap Nat (AMap Bytes Bytes))) (a : Bytes) (n : Nat) (k v : Bytes)
    (b : Bytes) (p : Nat) (j : Bytes) :
    nestedGet? (nestedSet m a n k v) b p j = if b = a ∧ p = n ∧ j = k then some v else nestedGet? m b p j := by
  unfold nestedGet? nestedSet
  simp only [AMap.get?_set]
  by_cases hb : b = a
  · subst hb
    simp only [if_true, true_and, AMap.get?_set]
    by_cases hp : p = n
    · subst hp
      simp only [if_true, true_and, AMap.get?_set]
      by_cases hj : j = k
      · simp only [hj, if_true]
      · simp only [hj, if_false]
        cases h1 : m.get? b with
        | none => rfl
        | some m1 =>
          simp only [Option.getD_some]
          cases h2 : m1.get? p with
          | none => rfl
          | some m2 => rfl
    · simp only [hp, if_false, false_and]
      cases h1 : m.get? b with
      | none => rfl
      | some m1 => rfl
  · simp only [hb, if_false, false_and]

theorem nestedGet?_nestedErase (m : AMap Bytes (AMap Nat (AMap Bytes Bytes))) (a : Bytes) (n : Nat) (k : Bytes)
    (b : Bytes) (p : Nat) (j : Bytes) :
    nestedGet? (nestedErase m a n k) b p j = if b = a ∧ p = n ∧ j = k then none else nestedGet? m b p j := by
  unfold nestedGet? nestedErase
  simp only [AMap.get?_set]
  by_cases hb : b = a
  · subst hb
    simp only [if_true, true_and, AMap.get?_set]
    by_cases hp : p = n
    · subst hp
      simp only [if_true, true_and, AMap.get?_erase]
      by_cases hj : j = k
      · simp only [hj, if_true]
      · simp only [hj, if_false]
        cases h1 : m.get? b with
        | none => rfl
        | some m1 =>
          simp only [Option.getD_some]
          cases h2 : m1.get? p with
          | none => rfl
          | some m2 => rfl
    · simp only [hp, if_false, false_and]
      cases h1 : m.get? b with
      | none => rfl
      | some m1 => rfl
  · simp only [hb, if_false, false_and]

/-- The value read from a nested map. -/
def nestedRead (m : AMap Bytes (AMap Nat (AMap Bytes Bytes))) (a : Bytes) (n : Nat) (k : Bytes) : Bytes :=
  (nestedGet? m a n k).getD zero32

theorem nestedRead_storeValue (m : AMap Bytes (AMap Nat (AMap Bytes Bytes))) (a : Bytes) (n : Nat) (k v : Bytes)
    (b : Bytes) (p : Nat) (j : Bytes) :
    nestedRead (storeValue m a n k v) b p j = if b = a ∧ p = n ∧ j = k then v else nestedRead m b p j := by
  unfold nestedRead storeValue
  by_cases hv : v = zero32
  · rw [if_pos hv, nestedGet?_nestedErase]
    by_cases h : b = a ∧ p = n ∧ j = k
    · rw [if_pos h, if_pos h, hv]; rfl
    · rw [if_neg h, if_neg h]
  · rw [if_neg hv, nestedGet?_nestedSet]
    by_cases h : b = a ∧ p = n ∧ j = k
    · rw [if_pos h, if_pos h]; rfl
    · rw [if_neg h, if_neg h]

theorem updateAccount_accounts (b : MemoryBuffer) (a : Bytes) (i c : Option Account) (x : Bytes) :
    (b.updateAccount a i c).readAccount x = if x = a then c else b.readAccount x := by
  unfold updateAccount readAccount
  cases c with
  | none => simp only [AMap.get?_erase]
  | some c => simp only [AMap.get?_set]

theorem updateAccount_storage (b : MemoryBuffer) (a : Bytes) (i c : Option Account) :
    (b.updateAccount a i c).storage = b.storage ∧ (b.updateAccount a i c).storageChanges = b.storageChanges ∧
      (b.updateAccount a i c).code = b.code ∧ (b.updateAccount a i c).blockNumber = b.blockNumber ∧
      (b.updateAccount a i c).accountChanges =
        b.accountChanges.set b.blockNumber (((b.accountChanges.get? b.blockNumber).getD []).set a i) := by
  unfold updateAccount
  cases c <;> exact ⟨rfl, rfl, rfl, rfl, rfl⟩

/-- All calls for an address agree on the current account. -/
theorem applyAll_account (L : List BufferCall) (b : MemoryBuffer) (a : Bytes) (v : Option Account)
    (h : ∀ i c, .updateAccount a i c ∈ L → c = v) (h' : (∃ i c, .updateAccount a i c ∈ L) ∨ b.readAccount a = v) :
    (b.applyAll L).readAccount a = v := by
  induction L generalizing b with
  | nil =>
    rcases h' with ⟨i, c, hm⟩ | h'
    · simp at hm
    · exact h'
  | cons x L ih =>
    have hL : ∀ i c, .updateAccount a i c ∈ L → c = v := fun i c hm => h i c (List.mem_cons_of_mem _ hm)
    refine ih (b.apply x) hL ?_
    cases x with
    | updateAccount a' i c =>
      by_cases ha : a = a'
      · subst ha
        right
        show (b.updateAccount a i c).readAccount a = v
        rw [updateAccount_accounts, if_pos rfl]
        exact h i c List.mem_cons_self
      · rcases h' with ⟨i', c', hm⟩ | h'
        · rcases List.mem_cons.mp hm with e | hm
          · cases e; exact absurd rfl ha
          · exact Or.inl ⟨i', c', hm⟩
        · right
          show (b.updateAccount a' i c).readAccount a = v
          rw [updateAccount_accounts, if_neg ha]; exact h'
    | beginBlock n =>
      rcases h' with ⟨i', c', hm⟩ | h'
      · rcases List.mem_cons.mp hm with e | hm
        · cases e
        · exact Or.inl ⟨i', c', hm⟩
      · exact Or.inr h'
    | updateAccountCode _ _ _ _ =>
      rcases h' with ⟨i', c', hm⟩ | h'
      · rcases List.mem_cons.mp hm with e | hm
        · cases e
        · exact Or.inl ⟨i', c', hm⟩
      · exact Or.inr h'
    | updateStorage _ _ _ _ _ =>
      rcases h' with ⟨i', c', hm⟩ | h'
      · rcases List.mem_cons.mp hm with e | hm
        · cases e
        · exact Or.inl ⟨i', c', hm⟩
      · exact Or.inr h'

/-- All calls for a slot agree on the current value. -/
theorem applyAll_storage (L : List BufferCall) (b : MemoryBuffer) (a : Bytes) (n : Nat) (k v : Bytes)
    (h : ∀ i c, .updateStorage a n k i c ∈ L → c = v)
    (h' : (∃ i c, .updateStorage a n k i c ∈ L) ∨ b.readStorage a n k = v) :
    (b.applyAll L).readStorage a n k = v := by
  induction L generalizing b with
  | nil =>
    rcases h' with ⟨i, c, hm⟩ | h'
    · simp at hm
    · exact h'
  | cons x L ih =>
    have hL : ∀ i c, .updateStorage a n k i c ∈ L → c = v := fun i c hm => h i c (List.mem_cons_of_mem _ hm)
    refine ih (b.apply x) hL ?_
    cases x with
    | updateAccount a' i c =>
      rcases h' with ⟨i', c', hm⟩ | h'
      · rcases List.mem_cons.mp hm with e | hm
        · cases e
        · exact Or.inl ⟨i', c', hm⟩
      · right
        show (b.updateAccount a' i c).readStorage a n k = v
        unfold readStorage at h' ⊢
        rw [(updateAccount_storage b a' i c).1]; exact h'
    | beginBlock m =>
      rcases h' with ⟨i', c', hm⟩ | h'
      · rcases List.mem_cons.mp hm with e | hm
        · cases e
        · exact Or.inl ⟨i', c', hm⟩
      · exact Or.inr h'
    | updateAccountCode _ _ _ _ =>
      rcases h' with ⟨i', c', hm⟩ | h'
      · rcases List.mem_cons.mp hm with e | hm
        · cases e
        · exact Or.inl ⟨i', c', hm⟩
      · exact Or.inr h'
    | updateStorage a' n' k' i c =>
      have e : (b.apply (.updateStorage a' n' k' i c)).readStorage a n k =
          if a = a' ∧ n = n' ∧ k = k' then c else b.readStorage a n k :=
        nestedRead_storeValue b.storage a' n' k' c a n k
      by_cases ha : a = a' ∧ n = n' ∧ k = k'
      · obtain ⟨rfl, rfl, rfl⟩ := ha
        right
        rw [e, if_pos ⟨rfl, rfl, rfl⟩]
        exact h i c List.mem_cons_self
      · rcases h' with ⟨i', c', hm⟩ | h'
        · rcases List.mem_cons.mp hm with e | hm
          · cases e; exact absurd ⟨rfl, rfl, rfl⟩ ha
          · exact Or.inl ⟨i', c', hm⟩
        · right
          rw [e, if_neg ha]; exact h'

/-- All calls for a code hash agree on the code. -/
theorem applyAll_code (L : List BufferCall) (b : MemoryBuffer) (x v : Bytes)
    (h : ∀ a n c, .updateAccountCode a n x c ∈ L → c = v)
    (h' : (∃ a n c, .updateAccountCode a n x c ∈ L) ∨ b.readCode x = v) :
    (b.applyAll L).readCode x = v := by
  induction L generalizing b with
  | nil =>
    rcases h' with ⟨a, n, c, hm⟩ | h'
    · simp at hm
    · exact h'
  | cons y L ih =>
    have hL : ∀ a n c, .updateAccountCode a n x c ∈ L → c = v := fun a n c hm => h a n c (List.mem_cons_of_mem _ hm)
    refine ih (b.apply y) hL ?_
    cases y with
    | updateAccount a' i c =>
      rcases h' with ⟨a1, n1, c', hm⟩ | h'
      · rcases List.mem_cons.mp hm with e | hm
        · cases e
        · exact Or.inl ⟨a1, n1, c', hm⟩
      · right
        show (b.updateAccount a' i c).readCode x = v
        unfold readCode at h' ⊢
        rw [(updateAccount_storage b a' i c).2.2.1]; exact h'
    | beginBlock m =>
      rcases h' with ⟨a1, n1, c', hm⟩ | h'
      · rcases List.mem_cons.mp hm with e | hm
        · cases e
        · exact Or.inl ⟨a1, n1, c', hm⟩
      · exact Or.inr h'
    | updateStorage _ _ _ _ _ =>
      rcases h' with ⟨a1, n1, c', hm⟩ | h'
      · rcases List.mem_cons.mp hm with e | hm
        · cases e
        · exact Or.inl ⟨a1, n1, c', hm⟩
      · exact Or.inr h'
    | updateAccountCode a' n' y c =>
      have e : (b.apply (.updateAccountCode a' n' y c)).readCode x = if x = y then c else b.readCode x := by
        show (AMap.get? (b.code.set y c) x).getD [] = _
        rw [AMap.get?_set]
        by_cases hx : x = y
        · rw [if_pos hx, if_pos hx]; rfl
        · rw [if_neg hx, if_neg hx]; rfl
      by_cases hx : x = y
      · subst hx
        right
        rw [e, if_pos rfl]
        exact h a' n' c List.mem_cons_self
      · rcases h' with ⟨a1, n1, c', hm⟩ | h'
        · rcases List.mem_cons.mp hm with e | hm
          · cases e; exact absurd rfl hx
          · exact Or.inl ⟨a1, n1, c', hm⟩
        · right
          rw [e, if_neg hx]; exact h'

/-- All calls that destroy an account agree on its incarnation. -/
theorem applyAll_previous (L : List BufferCall) (b : MemoryBuffer) (a : Bytes) (v : Nat)
    (h : ∀ i, .updateAccount a (some i) none ∈ L → i.incarnation = v)
    (h' : (∃ i, .updateAccount a (some i) none ∈ L) ∨ b.previousIncarnation a = v) :
    (b.applyAll L).previousIncarnation a = v := by
  induction L generalizing b with
  | nil =>
    rcases h' with ⟨i, hm⟩ | h'
    · simp at hm
    · exact h'
  | cons y L ih =>
    have hL : ∀ i, .updateAccount a (some i) none ∈ L → i.incarnation = v := fun i hm => h i (List.mem_cons_of_mem _ hm)
    refine ih (b.apply y) hL ?_
    have other : ((∃ i, y = .updateAccount a (some i) none) → False) →
        (b.apply y).previousIncarnation a = b.previousIncarnation a →
        (∃ i, .updateAccount a (some i) none ∈ L) ∨ (b.apply y).previousIncarnation a = v := by
      intro hn e
      rcases h' with ⟨i, hm⟩ | h'
      · rcases List.mem_cons.mp hm with e | hm
        · exact absurd ⟨i, e.symm⟩ hn
        · exact Or.inl ⟨i, hm⟩
      · exact Or.inr (e.trans h')
    cases y with
    | beginBlock m => exact other (by rintro ⟨i, hi⟩; cases hi) rfl
    | updateStorage _ _ _ _ _ => exact other (by rintro ⟨i, hi⟩; cases hi) rfl
    | updateAccountCode _ _ _ _ => exact other (by rintro ⟨i, hi⟩; cases hi) rfl
    | updateAccount a' i c =>
      cases c with
      | some c => exact other (by rintro ⟨i, hi⟩; cases hi) rfl
      | none =>
        cases i with
        | none => exact other (by rintro ⟨i, hi⟩; cases hi) rfl
        | some i =>
          have e : (b.apply (.updateAccount a' (some i) none)).previousIncarnation a =
              if a = a' then i.incarnation else b.previousIncarnation a := by
            show (AMap.get? (b.prevIncarnations.set a' i.incarnation) a).getD 0 = _
            rw [AMap.get?_set]
            by_cases ha : a = a'
            · rw [if_pos ha, if_pos ha]; rfl
            · rw [if_neg ha, if_neg ha]; rfl
          by_cases ha : a = a'
          · subst ha
            right
            rw [e, if_pos rfl]
            exact h i List.mem_cons_self
          · exact other (by rintro ⟨i, hi⟩; cases hi; exact ha rfl) (by rw [e, if_neg ha])

/-- Nested maps with one entry per key. -/
def NWF (m : AMap Bytes (AMap Nat (AMap Bytes Bytes))) : Prop :=
  AMap.WF m ∧ ∀ a m1, m.get? a = some m1 → AMap.WF m1 ∧ ∀ n m2, m1.get? n = some m2 → AMap.WF m2

theorem NWF_nil : NWF [] := ⟨AMap.WF_nil, fun a m1 h => by cases h⟩

theorem NWF_nestedSet {m : AMap Bytes (AMap Nat (AMap Bytes Bytes))} (h : NWF m) (a : Bytes) (n : Nat) (k v : Bytes) :
    NWF (nestedSet m a n k v) := by
  have h1 : AMap.WF ((m.get? a).getD []) ∧ ∀ n m2, ((m.get? a).getD []).get? n = some m2 → AMap.WF m2 := by
    cases hm : m.get? a with
    | none => exact ⟨AMap.WF_nil, fun n m2 h => by cases h⟩
    | some m1 => exact h.2 a m1 hm
  have h2 : AMap.WF ((((m.get? a).getD []).get? n).getD []) := by
    cases hm : ((m.get? a).getD []).get? n with
    | none => exact AMap.WF_nil
    | some m2 => exact h1.2 n m2 hm
  unfold nestedSet
  refine ⟨AMap.WF_set h.1 _ _, fun b m1 hb => ?_⟩
  rw [AMap.get?_set] at hb
  by_cases hba : b = a
  · rw [if_pos hba] at hb
    cases hb
    refine ⟨AMap.WF_set h1.1 _ _, fun p m2 hp => ?_⟩
    rw [AMap.get?_set] at hp
    by_cases hpn : p = n
    · rw [if_pos hpn] at hp
      cases hp
      exact AMap.WF_set h2 _ _
    · rw [if_neg hpn] at hp
      exact h1.2 p m2 hp
  · rw [if_neg hba] at hb
    exact h.2 b m1 hb

theorem mem_nestedEntries {m : AMap Bytes (AMap Nat (AMap Bytes Bytes))} (h : NWF m) (a : Bytes) (n : Nat) (k v : Bytes) :
    (a, n, k, v) ∈ nestedEntries m ↔ nestedGet? m a n k = some v := by
  unfold nestedEntries nestedGet?
  simp only [List.mem_flatMap, List.mem_map]
  constructor
  · rintro ⟨⟨a', m1⟩, h1, ⟨n', m2⟩, h2, ⟨k', v'⟩, h3, e⟩
    simp only [Prod.mk.injEq] at e
    obtain ⟨rfl, rfl, rfl, rfl⟩ := e
    have g1 := AMap.get?_of_mem h.1 h1
    obtain ⟨w1, w2⟩ := h.2 _ _ g1
    have g2 := AMap.get?_of_mem w1 h2
    simp only [g1, g2]
    exact AMap.get?_of_mem (w2 _ _ g2) h3
  · intro hg
    cases g1 : m.get? a with
    | none => simp only [g1] at hg; cases hg
    | some m1 =>
      simp only [g1] at hg
      cases g2 : m1.get? n with
      | none => simp only [g2] at hg; cases hg
      | some m2 =>
        simp only [g2] at hg
        exact ⟨(a, m1), AMap.mem_of_get? g1, (n, m2), AMap.mem_of_get? g2, (k, v), AMap.mem_of_get? hg, rfl⟩

/-- The changes recorded for the current block. -/
def changes (b : MemoryBuffer) (m : Nat) : AMap Bytes (Option Account) := (b.accountChanges.get? m).getD []

def storeChanges (b : MemoryBuffer) (m : Nat) : AMap Bytes (AMap Nat (AMap Bytes Bytes)) :=
  (b.storageChanges.get? m).getD []

/-- The changes recorded during block `m` of the calls `L` agree with `acc` and `sto`. -/
structure Recorded (b : MemoryBuffer) (m : Nat) (acc : Bytes → Option Account) (sto : Bytes → Nat → Bytes → Bytes) : Prop where
  number : b.blockNumber = m
  wf : AMap.WF (b.changes m)
  nwf : NWF (b.storeChanges m)
  accFound : ∀ a v, (b.changes m).get? a = some v → v = acc a
  stoFound : ∀ a n k v, nestedGet? (b.storeChanges m) a n k = some v → v = sto a n k
  accMissing : ∀ a, (b.changes m).get? a = none → b.readAccount a = acc a
  stoMissing : ∀ a n k, nestedGet? (b.storeChanges m) a n k = none → b.readStorage a n k = sto a n k

/-- The initial values of the call are those of `acc` and `sto`. -/
def Faithful (acc : Bytes → Option Account) (sto : Bytes → Nat → Bytes → Bytes) : BufferCall → Prop
  | .beginBlock _ => False
  | .updateAccount a i _ => i = acc a
  | .updateAccountCode _ _ _ _ => True
  | .updateStorage a n k i _ => i = sto a n k

theorem recorded_begin (b : MemoryBuffer) (m : Nat) :
    Recorded (b.beginBlock m) m b.readAccount b.readStorage := by
  have e1 : (b.beginBlock m).changes m = [] := by
    unfold changes beginBlock; simp
  have e2 : (b.beginBlock m).storeChanges m = [] := by
    unfold storeChanges beginBlock; simp
  refine ⟨rfl, by rw [e1]; exact AMap.WF_nil, by rw [e2]; exact NWF_nil, ?_, ?_, fun a _ => rfl, fun a n k _ => rfl⟩
  · intro a v h; rw [e1] at h; cases h
  · intro a n k v h; rw [e2] at h; cases h

theorem recorded_apply {b : MemoryBuffer} {m : Nat} {acc : Bytes → Option Account} {sto : Bytes → Nat → Bytes → Bytes}
    (h : Recorded b m acc sto) {c : BufferCall} (hc : Faithful acc sto c) : Recorded (b.apply c) m acc sto := by
  cases c with
  | beginBlock n => exact absurd hc id
  | updateAccountCode a n x c =>
    exact ⟨h.number, h.wf, h.nwf, h.accFound, h.stoFound, h.accMissing, h.stoMissing⟩
  | updateAccount a i c =>
    obtain ⟨u1, u2, u3, u4, u5⟩ := updateAccount_storage b a i c
    have e1 : (b.updateAccount a i c).changes m = (b.changes m).set a i := by
      unfold changes; rw [u5, h.number]; simp
    have e2 : (b.updateAccount a i c).storeChanges m = b.storeChanges m := by unfold storeChanges; rw [u2]
    refine ⟨u4.trans h.number, ?_, ?_, ?_, ?_, ?_, ?_⟩
    · show AMap.WF ((b.updateAccount a i c).changes m)
      rw [e1]; exact AMap.WF_set h.wf _ _
    · show NWF ((b.updateAccount a i c).storeChanges m)
      rw [e2]; exact h.nwf
    · show ∀ x v, ((b.updateAccount a i c).changes m).get? x = some v → _
      intro x v hv
      rw [e1, AMap.get?_set] at hv
      by_cases hx : x = a
      · rw [if_pos hx] at hv; cases hv; rw [hx]; exact hc
      · rw [if_neg hx] at hv; exact h.accFound x v hv
    · show ∀ x n k v, nestedGet? ((b.updateAccount a i c).storeChanges m) x n k = some v → _
      rw [e2]; exact h.stoFound
    · show ∀ x, ((b.updateAccount a i c).changes m).get? x = none → (b.updateAccount a i c).readAccount x = acc x
      intro x hx
      rw [e1, AMap.get?_set] at hx
      rw [updateAccount_accounts]
      by_cases hxa : x = a
      · rw [if_pos hxa] at hx; cases hx
      · rw [if_neg hxa] at hx ⊢; exact h.accMissing x hx
    · show ∀ x n k, nestedGet? ((b.updateAccount a i c).storeChanges m) x n k = none → (b.updateAccount a i c).readStorage x n k = sto x n k
      rw [e2]
      unfold readStorage
      rw [u1]
      exact h.stoMissing
  | updateStorage a n k i c =>
    have e1 : (b.updateStorage a n k i c).storeChanges m = nestedSet (b.storeChanges m) a n k i := by
      unfold storeChanges updateStorage
      simp only [h.number, AMap.get?_set_self, Option.getD_some]
    have e2 : ∀ x p j, (b.updateStorage a n k i c).readStorage x p j =
        if x = a ∧ p = n ∧ j = k then c else b.readStorage x p j := nestedRead_storeValue b.storage a n k c
    refine ⟨h.number, h.wf, ?_, h.accFound, ?_, h.accMissing, ?_⟩
    · show NWF ((b.updateStorage a n k i c).storeChanges m)
      rw [e1]; exact NWF_nestedSet h.nwf _ _ _ _
    · show ∀ x p j v, nestedGet? ((b.updateStorage a n k i c).storeChanges m) x p j = some v → _
      intro x p j v hv
      rw [e1, nestedGet?_nestedSet] at hv
      by_cases hx : x = a ∧ p = n ∧ j = k
      · rw [if_pos hx] at hv
        obtain ⟨rfl, rfl, rfl⟩ := hx
        cases hv; exact hc
      · rw [if_neg hx] at hv; exact h.stoFound x p j v hv
    · show ∀ x p j, nestedGet? ((b.updateStorage a n k i c).storeChanges m) x p j = none →
        (b.updateStorage a n k i c).readStorage x p j = sto x p j
      intro x p j hx
      rw [e1, nestedGet?_nestedSet] at hx
      rw [e2]
      by_cases hxa : x = a ∧ p = n ∧ j = k
      · rw [if_pos hxa] at hx; cases hx
      · rw [if_neg hxa] at hx ⊢; exact h.stoMissing x p j hx

theorem recorded_applyAll (L : List BufferCall) {b : MemoryBuffer} {m : Nat} {acc : Bytes → Option Account}
    {sto : Bytes → Nat → Bytes → Bytes} (h : Recorded b m acc sto) (hL : ∀ c ∈ L, Faithful acc sto c) :
    Recorded (b.applyAll L) m acc sto := by
  induction L generalizing b with
  | nil => exact h
  | cons c L ih =>
    exact ih (recorded_apply h (hL c List.mem_cons_self)) (fun d hd => hL d (List.mem_cons_of_mem _ hd))

theorem foldl_restoreAccount (l : List (Bytes × Option Account)) (m : AMap Bytes Account) (a : Bytes) (v : Option Account)
    (h : ∀ x, (a, x) ∈ l → x = v) (h' : (∃ x, (a, x) ∈ l) ∨ m.get? a = v) :
    (l.foldl restoreAccount m).get? a = v := by
  induction l generalizing m with
  | nil =>
    rcases h' with ⟨x, hx⟩ | h'
    · simp at hx
    · exact h'
  | cons e l ih =>
    obtain ⟨b, y⟩ := e
    have er : (restoreAccount m (b, y)).get? a = if a = b then y else m.get? a := by
      unfold restoreAccount
      cases y with
      | none => simp only [AMap.get?_erase]
      | some y => simp only [AMap.get?_set]
    refine ih (restoreAccount m (b, y)) (fun x hx => h x (List.mem_cons_of_mem _ hx)) ?_
    by_cases hb : a = b
    · subst hb
      right
      rw [er, if_pos rfl]
      exact h y List.mem_cons_self
    · rcases h' with ⟨x, hx⟩ | h'
      · rcases List.mem_cons.mp hx with e | hx
        · cases e; exact absurd rfl hb
        · exact Or.inl ⟨x, hx⟩
      · right; rw [er, if_neg hb]; exact h'

theorem foldl_storeValue (l : List (Bytes × Nat × Bytes × Bytes)) (m : AMap Bytes (AMap Nat (AMap Bytes Bytes)))
    (a : Bytes) (n : Nat) (k v : Bytes) (h : ∀ x, (a, n, k, x) ∈ l → x = v)
    (h' : (∃ x, (a, n, k, x) ∈ l) ∨ nestedRead m a n k = v) :
    nestedRead (l.foldl (fun m e => storeValue m e.1 e.2.1 e.2.2.1 e.2.2.2) m) a n k = v := by
  induction l generalizing m with
  | nil =>
    rcases h' with ⟨x, hx⟩ | h'
    · simp at hx
    · exact h'
  | cons e l ih =>
    obtain ⟨b, p, j, y⟩ := e
    have er := nestedRead_storeValue m b p j y a n k
    refine ih (storeValue m b p j y) (fun x hx => h x (List.mem_cons_of_mem _ hx)) ?_
    by_cases hb : a = b ∧ n = p ∧ k = j
    · obtain ⟨rfl, rfl, rfl⟩ := hb
      right
      rw [er, if_pos ⟨rfl, rfl, rfl⟩]
      exact h y List.mem_cons_self
    · rcases h' with ⟨x, hx⟩ | h'
      · rcases List.mem_cons.mp hx with e | hx
        · cases e; exact absurd ⟨rfl, rfl, rfl⟩ hb
        · exact Or.inl ⟨x, hx⟩
      · right; rw [er, if_neg hb]; exact h'

/-- Unwinding recorded changes. -/
theorem unwind_recorded {b : MemoryBuffer} {m : Nat} {acc : Bytes → Option Account} {sto : Bytes → Nat → Bytes → Bytes}
    (h : Recorded b m acc sto) :
    (∀ a, (b.unwindStateChanges m).readAccount a = acc a) ∧
      ∀ a n k, (b.unwindStateChanges m).readStorage a n k = sto a n k := by
  constructor
  · intro a
    refine foldl_restoreAccount _ _ _ _ (fun x hx => h.accFound a x (AMap.get?_of_mem h.wf hx)) ?_
    cases hg : (b.changes m).get? a with
    | none => exact Or.inr (h.accMissing a hg)
    | some x => exact Or.inl ⟨x, AMap.mem_of_get? hg⟩
  · intro a n k
    refine foldl_storeValue _ _ _ _ _ _ (fun x hx => h.stoFound a n k x ((mem_nestedEntries h.nwf a n k x).mp hx)) ?_
    cases hg : nestedGet? (b.storeChanges m) a n k with
    | none => exact Or.inr (h.stoMissing a n k hg)
    | some x => exact Or.inl ⟨x, (mem_nestedEntries h.nwf a n k x).mpr hg⟩

/-- Changes of other blocks are left alone. -/
theorem apply_other {b : MemoryBuffer} {c : BufferCall} (hc : Plain c) {m : Nat} (hm : m ≠ b.blockNumber) :
    (b.apply c).changes m = b.changes m ∧ (b.apply c).storeChanges m = b.storeChanges m ∧
      (b.apply c).blockNumber = b.blockNumber := by
  cases c with
  | beginBlock n => exact absurd hc id
  | updateAccountCode a n x c => exact ⟨rfl, rfl, rfl⟩
  | updateAccount a i c =>
    obtain ⟨_, u2, _, u4, u5⟩ := updateAccount_storage b a i c
    refine ⟨?_, ?_, u4⟩
    · show ((b.updateAccount a i c).accountChanges.get? m).getD [] = _
      rw [u5, AMap.get?_set_ne _ hm]; rfl
    · show ((b.updateAccount a i c).storageChanges.get? m).getD [] = _
      rw [u2]; rfl
  | updateStorage a n k i c =>
    refine ⟨rfl, ?_, rfl⟩
    show (AMap.get? (b.storageChanges.set b.blockNumber _) m).getD [] = _
    rw [AMap.get?_set_ne _ hm]; rfl

theorem applyAll_other (L : List BufferCall) {b : MemoryBuffer} (hL : ∀ c ∈ L, Plain c) {m : Nat} (hm : m ≠ b.blockNumber) :
    (b.applyAll L).changes m = b.changes m ∧ (b.applyAll L).storeChanges m = b.storeChanges m := by
  induction L generalizing b with
  | nil => exact ⟨rfl, rfl⟩
  | cons c L ih =>
    obtain ⟨h1, h2, h3⟩ := apply_other (hL c List.mem_cons_self) hm
    obtain ⟨g1, g2⟩ := ih (b := b.apply c) (fun d hd => hL d (List.mem_cons_of_mem _ hd)) (by rw [h3]; exact hm)
    exact ⟨g1.trans h1, g2.trans h2⟩

theorem begin_other (b : MemoryBuffer) (n : Nat) {m : Nat} (hm : m ≠ n) :
    (b.beginBlock n).changes m = b.changes m ∧ (b.beginBlock n).storeChanges m = b.storeChanges m := by
  unfold changes storeChanges beginBlock
  simp only [AMap.get?_erase_ne _ hm, and_self]

/-- Unwinding depends on the recorded changes and what is read. -/
theorem unwind_congr {b c : MemoryBuffer} {m : Nat} (h1 : b.changes m = c.changes m)
    (h2 : b.storeChanges m = c.storeChanges m) (ha : ∀ a, b.readAccount a = c.readAccount a)
    (hs : ∀ a n k, b.readStorage a n k = c.readStorage a n k) :
    (∀ a, (b.unwindStateChanges m).readAccount a = (c.unwindStateChanges m).readAccount a) ∧
      ∀ a n k, (b.unwindStateChanges m).readStorage a n k = (c.unwindStateChanges m).readStorage a n k := by
  have key1 : ∀ (l : List (Bytes × Option Account)) (x y : AMap Bytes Account), (∀ a, x.get? a = y.get? a) →
      ∀ a, (l.foldl restoreAccount x).get? a = (l.foldl restoreAccount y).get? a := by
    intro l
    induction l with
    | nil => exact fun _ _ h => h
    | cons e l ih =>
      intro x y h
      refine ih _ _ (fun a => ?_)
      unfold restoreAccount
      cases e.2 with
      | none => simp only [AMap.get?_erase, h]
      | some v => simp only [AMap.get?_set, h]
  have key2 : ∀ (l : List (Bytes × Nat × Bytes × Bytes)) (x y : AMap Bytes (AMap Nat (AMap Bytes Bytes))),
      (∀ a n k, nestedRead x a n k = nestedRead y a n k) → ∀ a n k,
        nestedRead (l.foldl (fun m e => storeValue m e.1 e.2.1 e.2.2.1 e.2.2.2) x) a n k =
          nestedRead (l.foldl (fun m e => storeValue m e.1 e.2.1 e.2.2.1 e.2.2.2) y) a n k := by
    intro l
    induction l with
    | nil => exact fun _ _ h => h
    | cons e l ih =>
      intro x y h
      refine ih _ _ (fun a n k => ?_)
      rw [nestedRead_storeValue, nestedRead_storeValue, h]
  constructor
  · intro a
    have := key1 (c.changes m) b.accounts c.accounts ha a
    unfold unwindStateChanges readAccount
    simp only
    unfold changes at h1 this
    rw [h1]
    exact this
  · intro a n k
    have := key2 (nestedEntries (c.storeChanges m)) b.storage c.storage hs a n k
    unfold unwindStateChanges
    show nestedRead _ a n k = nestedRead _ a n k
    simp only
    unfold storeChanges at h2 this
    rw [h2]
    exact this

theorem unwind_changes (b : MemoryBuffer) (n m : Nat) :
    (b.unwindStateChanges n).changes m = b.changes m ∧ (b.unwindStateChanges n).storeChanges m = b.storeChanges m :=
  ⟨rfl, rfl⟩

end Silkworm.MemoryBuffer
