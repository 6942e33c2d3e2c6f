import Verif.Spec.Blocks
import Verif.Db.UtilLemmas
import Verif.Db.TableLemmas
import Verif.Etl.Lemmas

/-!
# Lemmas on blocks in the database
-/

namespace Silkworm.Db

open Silkworm.Rlp Spec

theorem ordered_cons {e : Bytes × Bytes} {t : Table} : Ordered (e :: t) ↔ (∀ f ∈ t, e.1 < f.1) ∧ Ordered t :=
  List.pairwise_cons

theorem find_of_mem {t : Table} (ho : Ordered t) {k v : Bytes} (h : (k, v) ∈ t) : t.find k = some (k, v) := by
  unfold Table.find
  induction t with
  | nil => cases h
  | cons e t ih =>
    obtain ⟨h1, h2⟩ := ordered_cons.mp ho
    rw [List.find?_cons]
    rcases List.mem_cons.mp h with h | h
    · subst h; simp
    · have : e.1 ≠ k := fun hh => by
        have := h1 _ h
        rw [hh] at this
        exact absurd this (List.lt_irrefl _)
      rw [show (e.1 == k) = false by simpa using this]
      exact ih h2 h

theorem find_of_absent {t : Table} {k : Bytes} (h : ∀ v, (k, v) ∉ t) : t.find k = none := by
  unfold Table.find
  rw [List.find?_eq_none]
  intro e he hk
  have : e.1 = k := by simpa using hk
  exact h e.2 (this ▸ he)

theorem key_lt {a b : Bytes} (ha : a.length = 8) (hb : b.length = 8) : a < b ↔ beToNat a < beToNat b := by
  rw [← Etl.lexLt_iff, lexLt_iff_toNat (ha.trans hb.symm)]

/-- Reading consecutive transactions from a table that has nothing before the first. -/
theorem decodeTransactions_spec : ∀ (txs : List Transaction) (t : Table) (base : Nat), Ordered t → (∀ e ∈ t, e.1.length = 8) →
    (∀ e ∈ t, base ≤ beToNat e.1) → base + txs.length ≤ 2 ^ 64 →
    (∀ j (h : j < txs.length), (beFixed 8 (base + j), rlp (txItem txs[j])) ∈ t) → (∀ x ∈ txs, x.Codable) →
    decodeTransactions txs.length t = .ok (txs.map fun x => { x with sender := none })
  | [], t, base, _, _, _, _, _, _ => by cases t <;> rfl
  | x :: txs, t, base, ho, h8, hb, hr, hm, hc => by
    have h0 := hm 0 (by simp)
    cases t with
    | nil => cases h0
    | cons e t =>
      obtain ⟨o1, o2⟩ := ordered_cons.mp ho
      have hr' : base + txs.length + 1 ≤ 2 ^ 64 := by rw [List.length_cons] at hr; omega
      have key : ∀ j, j < txs.length + 1 → beToNat (beFixed 8 (base + j)) = base + j := fun j hj =>
        beToNat_beFixed (by have : (256 : Nat) ^ 8 = 2 ^ 64 := by decide
                            omega)
      have he : e = (beFixed 8 base, rlp (txItem x)) := by
        rcases List.mem_cons.mp h0 with h | h
        · exact h.symm
        · exfalso
          have h1 := o1 _ h
          rw [key_lt (h8 e List.mem_cons_self) (beFixed_length _ _), key 0 (by omega)] at h1
          have := hb e List.mem_cons_self
          omega
      subst he
      show (do let (tx, _) ← liftDec (decodeTransaction (rlp (txItem x)))
               let rest ← decodeTransactions txs.length t
               .ok (tx :: rest) : Outcome DbError _) = _
      have hd := decTx (hc x List.mem_cons_self) []
      rw [List.append_nil] at hd
      rw [hd]
      have ih := decodeTransactions_spec txs t (base + 1) o2 (fun e he => h8 e (List.mem_cons_of_mem _ he))
        (fun e he => by
          have h1 := o1 e he
          have k0 := key 0 (by omega)
          rw [Nat.add_zero] at k0
          rw [key_lt (beFixed_length _ _) (h8 e (List.mem_cons_of_mem _ he)), k0] at h1
          omega)
        (by omega)
        (fun j hj => by
          have h1 := hm (j + 1) (by rw [List.length_cons]; omega)
          rw [show base + (j + 1) = base + 1 + j by omega] at h1
          rcases List.mem_cons.mp h1 with h | h
          · exfalso
            have h2 := congrArg (fun p : Bytes × Bytes => beToNat p.1) h
            have k0 := key 0 (by omega)
            have k1 := key (j + 1) (by omega)
            rw [show base + (j + 1) = base + 1 + j by omega] at k1
            rw [Nat.add_zero] at k0
            dsimp only at h2
            rw [k1, k0] at h2
            omega
          · exact h)
        (fun y hy => hc y (List.mem_cons_of_mem _ hy))
      rw [ih]
      rfl

/-- Everything before the first transaction is skipped. -/
theorem dropWhile_ordered {t : Table} (ho : Ordered t) {k v : Bytes} (h : (k, v) ∈ t) :
    let u := t.dropWhile fun e => e.1 != k
    Ordered u ∧ (∀ e ∈ u, e ∈ t) ∧ (∀ e ∈ u, e.1 = k ∨ k < e.1) ∧ (∀ e ∈ t, k ≤ e.1 → e ∈ u) := by
  induction t with
  | nil => cases h
  | cons e t ih =>
    obtain ⟨o1, o2⟩ := ordered_cons.mp ho
    by_cases hk : e.1 = k
    · have hd : (e :: t).dropWhile (fun e => e.1 != k) = e :: t := by
        rw [List.dropWhile_cons_of_neg]; simp [hk]
      dsimp only
      rw [hd]
      refine ⟨ho, fun _ h => h, fun f hf => ?_, fun _ h _ => h⟩
      rcases List.mem_cons.mp hf with h | h
      · exact Or.inl (h ▸ hk)
      · exact Or.inr (hk ▸ o1 f h)
    · have hd : (e :: t).dropWhile (fun e => e.1 != k) = t.dropWhile fun e => e.1 != k := by
        rw [List.dropWhile_cons_of_pos]; simp [hk]
      dsimp only
      rw [hd]
      have hm : (k, v) ∈ t := by
        rcases List.mem_cons.mp h with h | h
        · exact absurd (congrArg Prod.fst h).symm hk
        · exact h
      obtain ⟨i1, i2, i3, i4⟩ := ih o2 hm
      refine ⟨i1, fun f hf => List.mem_cons_of_mem _ (i2 f hf), i3, fun f hf hkf => ?_⟩
      rcases List.mem_cons.mp hf with h | h
      · subst h
        have := o1 _ hm
        exact absurd this (List.not_lt.mpr hkf)
      · exact i4 f h hkf

theorem readTransactions_spec {t : Table} (ho : Ordered t) (h8 : ∀ e ∈ t, e.1.length = 8) (txs : List Transaction) (base : Nat)
    (hr : base + txs.length < 2 ^ 64)
    (hm : ∀ j (h : j < txs.length), (beFixed 8 (base + j), rlp (txItem txs[j])) ∈ t) (hc : ∀ x ∈ txs, x.Codable) :
    readTransactions t base txs.length = .ok (txs.map fun x => { x with sender := none }) := by
  unfold readTransactions
  cases txs with
  | nil => rfl
  | cons x txs =>
    rw [if_neg (by simp)]
    have h0 := hm 0 (by simp)
    rw [Nat.add_zero] at h0
    obtain ⟨d1, d2, d3, d4⟩ := dropWhile_ordered ho h0
    have key : ∀ j, j < (x :: txs).length → beToNat (beFixed 8 (base + j)) = base + j := fun j hj =>
      beToNat_beFixed (by have : (256 : Nat) ^ 8 = 2 ^ 64 := by decide
                          omega)
    have k0 := key 0 (by simp)
    rw [Nat.add_zero] at k0
    refine decodeTransactions_spec (x :: txs) _ base d1 (fun e he => h8 e (d2 e he)) (fun e he => ?_) (by omega)
      (fun j hj => d4 _ (hm j hj) ?_) hc
    · rcases d3 e he with h | h
      · rw [h, k0]
      · rw [key_lt (beFixed_length _ _) (h8 e (d2 e he)), k0] at h
        omega
    · rw [← List.not_lt]
      dsimp only
      rw [key_lt (beFixed_length _ _) (beFixed_length _ _), key j hj, k0]
      omega

theorem splitAddresses_flatten : ∀ (l : List Bytes), (∀ s ∈ l, s.length = 20) → splitAddresses l.length l.flatten = l
  | [], _ => rfl
  | x :: l, h => by
    have hx := h x List.mem_cons_self
    rw [List.length_cons, splitAddresses, List.flatten_cons, List.take_left' hx, List.drop_left' hx,
      splitAddresses_flatten l fun s hs => h s (List.mem_cons_of_mem _ hs)]

theorem flatten_length {l : List Bytes} (h : ∀ s ∈ l, s.length = 20) : l.flatten.length = 20 * l.length := by
  induction l with
  | nil => rfl
  | cons x l ih =>
    rw [List.flatten_cons, List.length_append, h x List.mem_cons_self, ih fun s hs => h s (List.mem_cons_of_mem _ hs),
      List.length_cons]
    omega

theorem readSenders_spec {db : Database} {n : Nat} {hash : Bytes} {senders : List Bytes} (ho : Ordered db.senders)
    (h : SendersStored db n hash senders) : readSenders db n hash = .ok senders := by
  unfold readSenders blockHashKey
  rw [find_of_mem ho h.mem]
  dsimp only
  rw [flatten_length h.length, if_pos (Nat.mul_mod_right _ _), Nat.mul_div_cancel_left _ (by decide),
    splitAddresses_flatten _ h.length]

end Silkworm.Db
