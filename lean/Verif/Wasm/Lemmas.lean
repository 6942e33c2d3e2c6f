import Verif.Spec.Wasm
import Verif.Chain.Lemmas

/-!
# Lemmas on the memory of the WebAssembly functions
-/

namespace Silkworm.Wasm

open Silkworm.Spec.Wasm (Kind Ledger Allowed after objectOf)

/-- The object is of the kind. -/
def Fits : Kind → Object → Prop
  | .buffer w, .buffer cells => w = cells.map Option.isSome
  | .bytes l, .bytes b => ∀ n, l = some n → n = b.length
  | .number, .number _ => True
  | .config, .config _ => True
  | .transaction s, .transaction t => s = true → t.sender.isSome = true
  | .account, .account _ => True
  | .block, .block _ => True
  | .state, .state _ => True
  | .chain s c, .chain s' c' _ => s = s' ∧ c = c'
  | _, _ => False

/-- The entry of the ledger is right. -/
def Agree : Option Kind → Option Object → Prop
  | none, none => True
  | some k, some o => Fits k o
  | _, _ => False

/-- The ledger is right about memory. -/
structure Describes (L : Ledger) (h : Heap) : Prop where
  agree : ∀ id, Agree (L id) (h.objects.get? id)
  fresh : ∀ id, h.next ≤ id → h.objects.get? id = none

theorem Describes.empty : Describes Ledger.empty {} := ⟨fun _ => trivial, fun _ _ => rfl⟩

theorem Describes.get {L : Ledger} {h : Heap} (d : Describes L h) {id : Nat} {k : Kind} (e : L id = some k) :
    ∃ o, h.objects.get? id = some o ∧ Fits k o := by
  have := d.agree id
  rw [e] at this
  cases ho : h.objects.get? id with
  | none => rw [ho] at this; exact this.elim
  | some o => rw [ho] at this; exact ⟨o, rfl, this⟩

theorem Describes.lt {L : Ledger} {h : Heap} (d : Describes L h) {id : Nat} {o : Object} (e : h.objects.get? id = some o) :
    id < h.next := by
  refine Nat.lt_of_not_le fun hle => ?_
  have := d.fresh id hle
  rw [e] at this
  cases this

theorem Describes.alloc {L : Ledger} {h : Heap} (d : Describes L h) {o : Object} {k : Kind} (f : Fits k o) :
    Describes (L.add (.pointer (h.alloc o).2) k) (h.alloc o).1 := by
  refine ⟨fun id => ?_, fun id hid => ?_⟩
  · show Agree (L.set h.next k id) ((h.objects.set h.next o).get? id)
    rw [AMap.get?_set]
    unfold Ledger.set
    by_cases e : id = h.next
    · rw [if_pos e, if_pos e]; exact f
    · rw [if_neg e, if_neg e]; exact d.agree id
  · have hid : h.next + 1 ≤ id := hid
    show (h.objects.set h.next o).get? id = none
    rw [AMap.get?_set, if_neg (by omega)]
    exact d.fresh id (by omega)

theorem Describes.put {L : Ledger} {h : Heap} (d : Describes L h) {id : Nat} {o : Object} {k : Kind} (hid : id < h.next)
    (f : Fits k o) : Describes (L.set id k) (h.put id o) := by
  refine ⟨fun i => ?_, fun i hi => ?_⟩
  · show Agree (L.set id k i) ((h.objects.set id o).get? i)
    rw [AMap.get?_set]
    unfold Ledger.set
    by_cases e : i = id
    · rw [if_pos e, if_pos e]; exact f
    · rw [if_neg e, if_neg e]; exact d.agree i
  · have hi : h.next ≤ i := hi
    show (h.objects.set id o).get? i = none
    rw [AMap.get?_set, if_neg (by omega)]
    exact d.fresh i hi

theorem Ledger.set_self {L : Ledger} {id : Nat} {k : Kind} (e : L id = some k) : L.set id k = L := by
  funext i
  unfold Ledger.set
  by_cases h : i = id
  · rw [if_pos h, h, e]
  · rw [if_neg h]

/-- An object gets another value of its kind. -/
theorem Describes.put_same {L : Ledger} {h : Heap} (d : Describes L h) {id : Nat} {o : Object} {k : Kind} (e : L id = some k)
    (f : Fits k o) : Describes L (h.put id o) := by
  obtain ⟨o', ho, _⟩ := d.get e
  have := d.put (d.lt ho) f
  rwa [Ledger.set_self e] at this

theorem Describes.erase {L : Ledger} {h : Heap} (d : Describes L h) (id : Nat) :
    Describes (L.remove id) { h with objects := h.objects.erase id } := by
  refine ⟨fun i => ?_, fun i hi => ?_⟩
  · show Agree (L.remove id i) ((h.objects.erase id).get? i)
    rw [AMap.get?_erase]
    unfold Ledger.remove
    by_cases e : i = id
    · rw [if_pos e, if_pos e]; trivial
    · rw [if_neg e, if_neg e]; exact d.agree i
  · show (h.objects.erase id).get? i = none
    rw [AMap.get?_erase]
    by_cases e : i = id
    · rw [if_pos e]
    · rw [if_neg e]; exact d.fresh i hi

/-- An object that is made and deleted leaves no trace. -/
theorem Describes.transient {L : Ledger} {h : Heap} (d : Describes L h) (o : Object) :
    Describes L { (h.alloc o).1 with objects := (h.alloc o).1.objects.erase h.next } := by
  refine ⟨fun i => ?_, fun i hi => ?_⟩
  · show Agree (L i) (((h.objects.set h.next o).erase h.next).get? i)
    rw [AMap.get?_erase, AMap.get?_set]
    by_cases e : i = h.next
    · rw [if_pos e, e]
      have := d.agree h.next
      rw [d.fresh h.next (Nat.le_refl _)] at this
      exact this
    · rw [if_neg e, if_neg e]; exact d.agree i
  · have hi : h.next + 1 ≤ i := hi
    show ((h.objects.set h.next o).erase h.next).get? i = none
    rw [AMap.get?_erase, AMap.get?_set, if_neg (by omega), if_neg (by omega)]
    exact d.fresh i (by omega)

/-! ## Bytes -/

theorem fixed_length (n : Nat) (b : Bytes) : (fixed n b).length = n := by
  unfold fixed
  simp

theorem fixed_eq {n : Nat} {b : Bytes} (h : b.length = n) : fixed n b = b := by
  unfold fixed
  rw [← h]
  simp

theorem numberBytes_length (n : Nat) : (numberBytes n).length = 32 := by
  unfold numberBytes
  rw [List.length_reverse, beFixed_length]

theorem definedBytes_some (b : Bytes) : definedBytes (b.map some) = some b := by
  induction b with
  | nil => rfl
  | cons x xs ih => simp [definedBytes, ih]

theorem definedBytes_isSome {l : List (Option UInt8)} (h : ∀ x ∈ l, x.isSome = true) : ∃ b, definedBytes l = some b := by
  induction l with
  | nil => exact ⟨[], rfl⟩
  | cons x xs ih =>
    obtain ⟨b, hb⟩ := ih (fun y hy => h y (List.mem_cons_of_mem _ hy))
    cases x with
    | none => exact absurd (h none (List.mem_cons_self ..)) (by decide)
    | some a => exact ⟨a :: b, by simp [definedBytes, hb]⟩

theorem overwrite_length {α : Type} {l w : List α} {offset : Nat} (h : offset + w.length ≤ l.length) :
    (overwrite l offset w).length = l.length := by
  unfold overwrite
  simp only [List.length_append, List.length_take, List.length_drop]
  omega

/-- A read within memory that was all written. -/
theorem read_some {h : Heap} {id : Nat} {m : Member} {offset n : Nat} {o : Object} {b : Bytes} (ho : h.objects.get? id = some o)
    (hc : o.cells m = b.map some) (hn : offset + n ≤ b.length) :
    h.read (.to id m offset) n = .ok ((b.drop offset).take n) := by
  unfold Heap.read
  simp only [ho, hc, List.length_map]
  rw [if_pos hn, ← List.map_drop, ← List.map_take, definedBytes_some]

/-! ## Access -/

section Access

variable {L : Ledger} {h : Heap} (d : Describes L h)
include d

theorem bytes_ok {p : Pointer} (a : L.isObject p (fun k => k matches .bytes _)) :
    ∃ id l b, p = .to id .whole 0 ∧ L id = some (.bytes l) ∧ h.objects.get? id = some (.bytes b) ∧ h.bytes p = .ok b ∧
      ∀ n, l = some n → n = b.length := by
  obtain ⟨id, k, rfl, hk, hm⟩ := a
  obtain ⟨o, ho, f⟩ := d.get hk
  cases k <;> cases hm
  cases o <;> try exact False.elim f
  case bytes l b => exact ⟨id, l, b, rfl, hk, ho, by simp [Heap.bytes, Heap.object, ho], f⟩

theorem transaction_ok {p : Pointer} (a : L.isObject p (fun k => k matches .transaction _)) :
    ∃ id s t, p = .to id .whole 0 ∧ L id = some (.transaction s) ∧ h.objects.get? id = some (.transaction t) ∧
      h.transaction p = .ok (id, t) := by
  obtain ⟨id, k, rfl, hk, hm⟩ := a
  obtain ⟨o, ho, f⟩ := d.get hk
  cases k <;> cases hm
  cases o <;> try exact False.elim f
  case transaction s t => exact ⟨id, s, t, rfl, hk, ho, by simp [Heap.transaction, ho]⟩

theorem account_ok {p : Pointer} (a : L.isObject p (fun k => k matches .account)) :
    ∃ id x, p = .to id .whole 0 ∧ L id = some .account ∧ h.objects.get? id = some (.account x) ∧ h.account p = .ok (id, x) := by
  obtain ⟨id, k, rfl, hk, hm⟩ := a
  obtain ⟨o, ho, f⟩ := d.get hk
  cases k <;> cases hm
  cases o <;> try exact False.elim f
  case account x => exact ⟨id, x, rfl, hk, ho, by simp [Heap.account, ho]⟩

theorem block_ok {p : Pointer} (a : L.isObject p (fun k => k matches .block)) :
    ∃ id x, p = .to id .whole 0 ∧ L id = some .block ∧ h.objects.get? id = some (.block x) ∧ h.block p = .ok (id, x) := by
  obtain ⟨id, k, rfl, hk, hm⟩ := a
  obtain ⟨o, ho, f⟩ := d.get hk
  cases k <;> cases hm
  cases o <;> try exact False.elim f
  case block x => exact ⟨id, x, rfl, hk, ho, by simp [Heap.block, ho]⟩

theorem state_ok {p : Pointer} (a : L.isObject p (fun k => k matches .state)) :
    ∃ id x, p = .to id .whole 0 ∧ L id = some .state ∧ h.objects.get? id = some (.state x) ∧ h.state p = .ok (id, x) := by
  obtain ⟨id, k, rfl, hk, hm⟩ := a
  obtain ⟨o, ho, f⟩ := d.get hk
  cases k <;> cases hm
  cases o <;> try exact False.elim f
  case state x => exact ⟨id, x, rfl, hk, ho, by simp [Heap.state, ho]⟩

omit d in
theorem networks_ok {id : Nat} (hid : id ∈ [1, 3, 4, 5]) : ∃ c, lookupChainConfig id = some c := by
  revert hid
  simp only [List.mem_cons, List.not_mem_nil, or_false]
  rintro (rfl | rfl | rfl | rfl) <;> exact ⟨_, rfl⟩

theorem setConfig_ok {p : Pointer} (a : L.isObject p (fun k => k matches .config)) (f : ChainConfig → ChainConfig) :
    ∃ h', h.setConfig p f = .ok h' ∧ Describes L h' := by
  obtain ⟨id, k, rfl, hk, hm⟩ := a
  obtain ⟨o, ho, g⟩ := d.get hk
  cases k <;> cases hm
  cases o <;> try exact False.elim g
  case config c => exact ⟨h.put id (.config (f c)), by simp [Heap.setConfig, Heap.put, ho], d.put_same hk trivial⟩

theorem config_ok {p : Pointer} (a : L.isConfig p) : ∃ c, h.config p = .ok c := by
  rcases a with ⟨id, rfl, hid⟩ | ⟨id, k, rfl, hk, hm⟩
  · obtain ⟨c, hc⟩ := networks_ok hid
    exact ⟨c, by simp [Heap.config, hc]⟩
  · obtain ⟨o, ho, g⟩ := d.get hk
    cases k <;> cases hm
    cases o <;> try exact False.elim g
    case config c => exact ⟨c, by simp [Heap.config, ho]⟩

theorem number_ok {p : Pointer} (a : L.isNumber p) :
    (∃ n, h.number p = .ok n) ∧ ∀ n, ∃ h', h.setNumber p n = .ok h' ∧ Describes L h' := by
  rcases a with ⟨id, k, rfl, hk, hm⟩ | ⟨id, rfl, hk⟩
  · obtain ⟨o, ho, g⟩ := d.get hk
    cases k <;> cases hm
    cases o <;> try exact False.elim g
    case number n =>
      exact ⟨⟨n, by simp [Heap.number, ho]⟩,
        fun n => ⟨h.put id (.number n), by simp [Heap.setNumber, Heap.put, ho], d.put_same hk trivial⟩⟩
  · obtain ⟨o, ho, g⟩ := d.get hk
    cases o <;> try exact False.elim g
    case account x =>
      exact ⟨⟨x.balance, by simp [Heap.number, ho]⟩,
        fun n => ⟨h.put id (.account { x with balance := n }), by simp [Heap.setNumber, Heap.put, ho], d.put_same hk trivial⟩⟩

theorem header_ok {p : Pointer} (a : L.isHeader p) : ∃ id x, h.header p = .ok (id, x) := by
  obtain ⟨id, rfl, hk⟩ := a
  obtain ⟨o, ho, g⟩ := d.get hk
  cases o <;> try exact False.elim g
  case block x => exact ⟨id, x.header, by simp [Heap.header, ho]⟩

theorem release_ok {p : Pointer} {kind : Kind → Bool} {obj : Object → Bool} (a : L.owned p kind)
    (hko : ∀ k o, kind k = true → Fits k o → obj o = true) :
    ∃ h', h.release p obj = .ok h' ∧ Describes (L.drop p) h' := by
  rcases a with rfl | ⟨id, k, rfl, hk, hm⟩
  · exact ⟨h, rfl, d⟩
  · obtain ⟨o, ho, g⟩ := d.get hk
    have := hko k o hm g
    exact ⟨{ h with objects := h.objects.erase id }, by simp [Heap.release, ho, this], d.erase id⟩

theorem read_ok {p : Pointer} {n : Nat} (a : L.readable p n) : ∃ b, h.read p n = .ok b := by
  obtain ⟨id, m, offset, k, rfl, hk, ha⟩ := a
  obtain ⟨o, ho, g⟩ := d.get hk
  have key : ∀ b : Bytes, o.cells m = b.map some → offset + n ≤ b.length → ∃ b, h.read (.to id m offset) n = .ok b :=
    fun b hc hn => ⟨_, read_some ho hc hn⟩
  cases k with
  | buffer written =>
    cases o <;> try exact False.elim g
    rename_i cells
    cases m <;> try (obtain ⟨_, h1, _⟩ := ha; cases h1)
    have g : written = cells.map Option.isSome := g
    obtain ⟨h1, h2⟩ := ha
    subst g
    rw [List.length_map] at h1
    obtain ⟨b, hb⟩ := definedBytes_isSome (l := (cells.drop offset).take n) (by
      intro x hx
      obtain ⟨i, hi, rfl⟩ := List.mem_iff_getElem.mp hx
      rw [List.length_take, List.length_drop] at hi
      have := h2 (offset + i) (by omega) (by omega)
      rw [List.getElem?_map, List.getElem?_eq_getElem (by omega)] at this
      simpa using this)
    refine ⟨b, ?_⟩
    unfold Heap.read
    simp only [ho]
    rw [if_pos (show offset + n ≤ ((Object.buffer cells).cells .whole).length from h1)]
    show (match definedBytes ((cells.drop offset).take n) with
      | some b => Outcome.ok b
      | none => .ub) = .ok b
    rw [hb]
  | bytes l =>
    cases o <;> try exact False.elim g
    rename_i b
    cases l with
    | none => cases m <;> (obtain ⟨_, h1, _⟩ := ha; cases h1)
    | some size =>
      cases m <;> try (obtain ⟨_, h1, _⟩ := ha; cases h1)
      have hs : size = b.length := g size rfl
      have ha : offset + n ≤ size + 1 := ha
      exact key (b ++ [0]) rfl (by simp; omega)
  | number =>
    cases o <;> try exact False.elim g
    rename_i x
    cases m <;> (obtain ⟨_, h1, h2⟩ := ha; cases h1)
    exact key (numberBytes x) rfl (by rw [numberBytes_length]; exact h2)
  | config => cases m <;> (obtain ⟨_, h1, _⟩ := ha; cases h1)
  | transaction s =>
    cases o <;> try exact False.elim g
    rename_i t
    cases s <;> cases m <;> (obtain ⟨_, h1, h2⟩ := ha; cases h1)
    have g : t.sender.isSome = true := g rfl
    cases hs : t.sender with
    | none => rw [hs] at g; cases g
    | some s => exact key (fixed 20 s) (by simp [Object.cells, hs]) (by rw [fixed_length]; exact h2)
  | account =>
    cases o <;> try exact False.elim g
    rename_i x
    cases m <;> (obtain ⟨_, h1, h2⟩ := ha; cases h1)
    · exact key (numberBytes x.balance) rfl (by rw [numberBytes_length]; exact h2)
    · exact key (fixed 32 x.codeHash) rfl (by rw [fixed_length]; exact h2)
  | block =>
    cases o <;> try exact False.elim g
    rename_i x
    cases m <;> (obtain ⟨_, h1, h2⟩ := ha; cases h1)
    exact key (fixed 32 x.header.stateRoot) rfl (by rw [fixed_length]; exact h2)
  | state => cases m <;> (obtain ⟨_, h1, _⟩ := ha; cases h1)
  | chain s c => cases m <;> (obtain ⟨_, h1, _⟩ := ha; cases h1)

theorem write_ok {p : Pointer} {w : Bytes} (a : L.writable p w.length) :
    ∃ h', h.write p w = .ok h' ∧ Describes (L.write p w.length) h' := by
  obtain ⟨id, m, offset, k, size, rfl, hk, hr, hn⟩ := a
  obtain ⟨o, ho, g⟩ := d.get hk
  have key : ∀ o', o.store m offset w = some o' → Fits k o' → (∀ written, k ≠ .buffer written) →
      ∃ h', h.write (.to id m offset) w = .ok h' ∧ Describes (L.write (.to id m offset) w.length) h' := by
    intro o' h1 h2 h3
    refine ⟨h.put id o', by simp [Heap.write, Heap.put, ho, h1], ?_⟩
    have : L.write (.to id m offset) w.length = L := by
      unfold Ledger.write
      cases m <;> try rfl
      cases k <;> first | (exact absurd rfl (h3 _)) | simp only [hk]
    rw [this]
    exact d.put_same hk h2
  cases k with
  | buffer written =>
    cases o <;> try exact False.elim g
    rename_i cells
    cases m <;> cases hr
    have g : written = cells.map Option.isSome := g
    subst g
    rw [List.length_map] at hn
    refine ⟨h.put id (.buffer (overwrite cells offset (w.map some))), ?_, ?_⟩
    · simp [Heap.write, Heap.put, ho, Object.store, hn]
    · unfold Ledger.write
      simp only [hk]
      refine d.put (d.lt ho) ?_
      show _ = _
      unfold overwrite
      simp [List.map_append, List.map_take, List.map_drop, Function.comp_def, List.map_const']
  | bytes l =>
    cases o <;> try exact False.elim g
    rename_i b
    cases l with
    | none => cases m <;> cases hr
    | some size =>
      cases m <;> cases hr
      have hs : size = b.length := g size rfl
      refine key (.bytes (overwrite b offset w)) ?_ ?_ (by simp)
      · simp [Object.store]; omega
      · intro n e
        cases e
        rw [overwrite_length (by omega)]
        exact hs
  | number =>
    cases o <;> try exact False.elim g
    cases m <;> cases hr
    exact key _ (if_pos hn) trivial (by simp)
  | config => cases m <;> cases hr
  | transaction s =>
    cases o <;> try exact False.elim g
    rename_i t
    cases s <;> cases m <;> cases hr
    have g : t.sender.isSome = true := g rfl
    cases hs : t.sender with
    | none => rw [hs] at g; cases g
    | some s => exact key (.transaction { t with sender := some (overwrite (fixed 20 s) offset w) })
                  (by simp [Object.store, hs, hn]) (fun _ => rfl) (by simp)
  | account =>
    cases o <;> try exact False.elim g
    cases m <;> cases hr <;> exact key _ (if_pos hn) trivial (by simp)
  | block =>
    cases o <;> try exact False.elim g
    cases m <;> cases hr
    exact key _ (if_pos hn) trivial (by simp)
  | state => cases m <;> cases hr
  | chain s c => cases m <;> cases hr

end Access

/-- What the call makes use of is defined for the objects it is given: the decoders (C12), the root of the state (C70), insertion of a
block (C71), memory for a root, and a number of the genesis block for which there can be a vector. -/
def CalleeDefined (e : Env) (h : Heap) : Call → Prop
  | .newTransaction rlp => ∀ b, h.bytes rlp = .ok b → Rlp.decodeTransaction b ≠ .ub
  | .newBlock rlp => ∀ b, h.bytes rlp = .ok b → Rlp.decodeBlock b ≠ .ub
  | .stateRootHash s => e.memory = true ∧ ∀ m, h.state s = .ok m → Trie.stateRootHash e.keccak m.2 ≠ .ub
  | .newBlockchain _ _ genesis => ∀ b, h.block genesis = .ok b → b.2.header.number < 2 ^ 64 - 1
  | .insertBlock chain block check =>
    ∀ x m c b, h.chain chain = .ok x → h.state (.object x.2.1) = .ok m → h.config (refPointer x.2.2.1) = .ok c →
      h.block block = .ok b → Blockchain.insertBlock (e.chain c) ⟨m.2, x.2.2.2⟩ b.2 check ≠ .ub
  | _ => True

theorem address_ok {L : Ledger} {h : Heap} (d : Describes L h) {p : Pointer} (a : L.readable p 20) :
    ∃ b, addressAt h p = .ok b := by
  obtain ⟨b, hb⟩ := read_ok d a
  exact ⟨toAddress b, by simp [addressAt, hb]⟩

theorem outcome_cases {α : Type} {x : Outcome Empty α} (h : x ≠ .ub) : ∃ a, x = .ok a := by
  cases x with
  | ok a => exact ⟨a, rfl⟩
  | err e => cases e
  | ub => exact absurd rfl h

theorem config_there {L : Ledger} {h : Heap} (d : Describes L h) {c : Nat ⊕ Nat} (a : L.configThere c) :
    ∃ x, h.config (refPointer c) = .ok x := by
  cases c with
  | inl id => exact config_ok d (.inl ⟨id, rfl, a⟩)
  | inr id => exact config_ok d (.inr ⟨id, .config, rfl, a, rfl⟩)

/-- A call within the rules. -/
theorem step_ok {e : Env} {L : Ledger} {h : Heap} (d : Describes L h) {c : Call} (a : Allowed L c) (g : CalleeDefined e h c) :
    ∃ h' v, step e h c = .ok (h', v) ∧ Describes (after L c v) h' := by
  cases c with
  | hostRead p n =>
    obtain ⟨b, hb⟩ := read_ok d a
    exact ⟨h, .bytes b, by simp [step, hb], d⟩
  | hostWrite p w =>
    obtain ⟨h', h1, h2⟩ := write_ok d a
    exact ⟨h', .unit, by simp [step, givesNothing, h1], h2⟩
  | newBuffer size =>
    by_cases hm : e.memory = true
    · (refine ⟨_, _, by simp only [step, givesPointer, newBuffer, hm, if_true]; rfl, ?_⟩; exact d.alloc (k := .buffer (List.replicate size false)) (by simp [Fits]))
    · exact ⟨h, .pointer .null, by simp [step, givesPointer, newBuffer, hm], d⟩
  | deleteBuffer p =>
    obtain ⟨h', h1, h2⟩ := release_ok d a (obj := fun o => o matches .buffer _)
      (by intro k o; cases k <;> cases o <;> simp [Fits])
    exact ⟨h', .unit, congrArg givesNothing h1, h2⟩
  | newBytesFromHex data size =>
    obtain ⟨b, hb⟩ := read_ok d a
    cases hf : fromHex b with
    | none => exact ⟨h, .pointer .null, by simp [step, givesPointer, newBytesFromHex, hb, hf], d⟩
    | some x => (refine ⟨_, _, by simp only [step, givesPointer, newBytesFromHex, hb, Outcome.ok_bind, hf]; rfl, ?_⟩; exact d.alloc (k := .bytes none) (by simp [Fits]))
  | deleteBytes p =>
    obtain ⟨h', h1, h2⟩ := release_ok d a (obj := fun o => o matches .bytes _)
      (by intro k o; cases k <;> cases o <;> simp [Fits])
    exact ⟨h', .unit, congrArg givesNothing h1, h2⟩
  | bytesData p =>
    obtain ⟨id, l, b, rfl, _, _, hb, _⟩ := bytes_ok d a
    exact ⟨h, .pointer (.to id .data 0), by simp [step, hb], d⟩
  | bytesLength p =>
    obtain ⟨id, l, b, rfl, hk, ho, hb, _⟩ := bytes_ok d a
    refine ⟨h, .number b.length, by simp [step, hb], ?_⟩
    have := d.put (d.lt ho) (k := .bytes (some b.length)) (o := .bytes b) (by intro n e; cases e; rfl)
    refine ⟨fun i => ?_, d.fresh⟩
    have hi := this.agree i
    have he : (h.put id (.bytes b)).objects.get? i = h.objects.get? i := by
      show (h.objects.set id (.bytes b)).get? i = _
      rw [AMap.get?_set]
      split
      · rename_i e; rw [e, ho]
      · rfl
    rw [he] at hi
    exact hi
  | newUint256 a b c d' => exact ⟨_, _, rfl, d.alloc (k := .number) trivial⟩
  | deleteUint256 p =>
    obtain ⟨h', h1, h2⟩ := release_ok d a (obj := fun o => o matches .number _)
      (by intro k o; cases k <;> cases o <;> simp [Fits])
    exact ⟨h', .unit, congrArg givesNothing h1, h2⟩
  | lookupConfig id => exact ⟨h, _, rfl, d⟩
  | newConfig id => exact ⟨_, _, rfl, d.alloc (k := .config) trivial⟩
  | deleteConfig p =>
    obtain ⟨h', h1, h2⟩ := release_ok d a (obj := fun o => o matches .config _)
      (by intro k o; cases k <;> cases o <;> simp [Fits])
    exact ⟨h', .unit, congrArg givesNothing h1, h2⟩
  | setForkBlock p fork block =>
    obtain ⟨h', h1, h2⟩ := setConfig_ok d a.1 (·.setRevisionBlock fork (some block))
    exact ⟨h', .unit, by simp [step, givesNothing, setForkBlock, a.2, h1], h2⟩
  | setMuirGlacier p block =>
    obtain ⟨h', h1, h2⟩ := setConfig_ok d a (fun c => { c with muirGlacierBlock := some block })
    exact ⟨h', .unit, by simp [step, givesNothing, h1], h2⟩
  | setDao p block =>
    obtain ⟨h', h1, h2⟩ := setConfig_ok d a (fun c => { c with daoBlock := some block })
    exact ⟨h', .unit, by simp [step, givesNothing, h1], h2⟩
  | difficulty inOut n t pt u config =>
    obtain ⟨⟨x, hx⟩, hs⟩ := number_ok d a.1
    obtain ⟨c, hc⟩ := config_ok d a.2
    obtain ⟨h', h1, h2⟩ := hs (canonicalDifficulty n t x pt u c)
    exact ⟨h', .unit, by simp [step, givesNothing, difficulty, hx, hc, h1], h2⟩
  | newTransaction rlp =>
    obtain ⟨id, l, b, rfl, _, _, hb, _⟩ := bytes_ok d a
    cases hd : Rlp.decodeTransaction b with
    | ub => exact absurd hd (g b hb)
    | err x => (refine ⟨_, _, by simp only [step, givesPointer, newTransaction, hb, Outcome.ok_bind, hd]; rfl, ?_⟩; exact d.transient _)
    | ok r =>
      obtain ⟨t, rest⟩ := r
      by_cases hr : rest = []
      · (refine ⟨_, _, by simp only [step, givesPointer, newTransaction, hb, Outcome.ok_bind, hd, if_pos hr]; rfl, ?_⟩; exact d.alloc (k := .transaction false) (by intro e; cases e))
      · (refine ⟨_, _, by simp only [step, givesPointer, newTransaction, hb, Outcome.ok_bind, hd, if_neg hr]; rfl, ?_⟩; exact d.transient _)
  | deleteTransaction p =>
    obtain ⟨h', h1, h2⟩ := release_ok d a (obj := fun o => o matches .transaction _)
      (by intro k o; cases k <;> cases o <;> simp [Fits])
    exact ⟨h', .unit, congrArg givesNothing h1, h2⟩
  | checkIntrinsicGas txn homestead istanbul =>
    obtain ⟨id, s, t, rfl, _, _, ht⟩ := transaction_ok d a
    (refine ⟨_, _, by simp only [step, checkIntrinsicGas, ht, Outcome.ok_bind]; rfl, ?_⟩; exact d)
  | recoverSender txn =>
    obtain ⟨id, s, t, rfl, hk, ho, ht⟩ := transaction_ok d a
    by_cases hs : (t.recoverSender e.keccak e.recover).sender.isSome = true
    · (refine ⟨_, _, by simp only [step, givesPointer, recoverSender, ht, Outcome.ok_bind, hs, if_true]; rfl, ?_⟩; exact d.put (d.lt ho) (k := .transaction true) (fun _ => hs))
    · (refine ⟨_, _, by simp only [step, givesPointer, recoverSender, ht, Outcome.ok_bind, hs]; rfl, ?_⟩; exact d.put (d.lt ho) (k := .transaction false) (by intro e; cases e))
  | keccak256 out input =>
    obtain ⟨id, l, b, rfl, _, _, hb, _⟩ := bytes_ok d a.1
    have hw := a.2
    rw [← fixed_length 32 (e.keccak b)] at hw
    obtain ⟨h', h1, h2⟩ := write_ok d hw
    rw [fixed_length] at h2
    exact ⟨h', .unit, by simp [step, givesNothing, keccak256, hb, h1], h2⟩
  | newAccount nonce balance =>
    rcases a with rfl | a
    · exact ⟨_, _, rfl, d.alloc (k := .account) trivial⟩
    · obtain ⟨⟨x, hx⟩, _⟩ := number_ok d a
      have : h.numberOrNull balance = .ok (some x) := by
        cases balance with
        | null => cases hx
        | network _ => cases hx
        | «to» id m o => simp [Heap.numberOrNull, hx]
      (refine ⟨_, _, by simp only [step, givesPointer, newAccount, this, Outcome.ok_bind]; rfl, ?_⟩; exact d.alloc (k := .account) trivial)
  | deleteAccount p =>
    obtain ⟨h', h1, h2⟩ := release_ok d a (obj := fun o => o matches .account _)
      (by intro k o; cases k <;> cases o <;> simp [Fits])
    exact ⟨h', .unit, congrArg givesNothing h1, h2⟩
  | accountNonce p =>
    obtain ⟨id, x, rfl, _, _, hx⟩ := account_ok d a
    (refine ⟨_, _, by simp only [step, hx, Outcome.ok_bind]; rfl, ?_⟩; exact d)
  | accountBalance p =>
    obtain ⟨id, x, rfl, _, _, hx⟩ := account_ok d a
    (refine ⟨_, _, by simp only [step, hx, Outcome.ok_bind]; rfl, ?_⟩; exact d)
  | accountCodeHash p =>
    obtain ⟨id, x, rfl, _, _, hx⟩ := account_ok d a
    (refine ⟨_, _, by simp only [step, hx, Outcome.ok_bind]; rfl, ?_⟩; exact d)
  | newBlock rlp =>
    obtain ⟨id, l, b, rfl, _, _, hb, _⟩ := bytes_ok d a
    cases hd : Rlp.decodeBlock b with
    | ub => exact absurd hd (g b hb)
    | err x => (refine ⟨_, _, by simp only [step, givesPointer, newBlock, hb, Outcome.ok_bind, hd]; rfl, ?_⟩; exact d.transient _)
    | ok r =>
      obtain ⟨t, rest⟩ := r
      by_cases hr : rest = []
      · (refine ⟨_, _, by simp only [step, givesPointer, newBlock, hb, Outcome.ok_bind, hd, if_pos hr]; rfl, ?_⟩; exact d.alloc (k := .block) trivial)
      · (refine ⟨_, _, by simp only [step, givesPointer, newBlock, hb, Outcome.ok_bind, hd, if_neg hr]; rfl, ?_⟩; exact d.transient _)
  | deleteBlock p =>
    obtain ⟨h', h1, h2⟩ := release_ok d a (obj := fun o => o matches .block _)
      (by intro k o; cases k <;> cases o <;> simp [Fits])
    exact ⟨h', .unit, congrArg givesNothing h1, h2⟩
  | blockHeader p =>
    obtain ⟨id, x, rfl, _, _, hx⟩ := block_ok d a
    (refine ⟨_, _, by simp only [step, hx, Outcome.ok_bind]; rfl, ?_⟩; exact d)
  | headerNumber p =>
    obtain ⟨id, x, hx⟩ := header_ok d a
    (refine ⟨_, _, by simp only [step, hx, Outcome.ok_bind]; rfl, ?_⟩; exact d)
  | headerStateRoot p =>
    obtain ⟨id, x, hx⟩ := header_ok d a
    (refine ⟨_, _, by simp only [step, hx, Outcome.ok_bind]; rfl, ?_⟩; exact d)
  | blockRecoverSenders p =>
    obtain ⟨id, x, rfl, hk, _, hx⟩ := block_ok d a
    (refine ⟨_, .unit, by simp only [step, givesNothing, blockRecoverSenders, hx, Outcome.ok_bind]; rfl, ?_⟩; exact d.put_same hk trivial)
  | newState => exact ⟨_, _, rfl, d.alloc (k := .state) trivial⟩
  | deleteState p =>
    obtain ⟨h', h1, h2⟩ := release_ok d a (obj := fun o => o matches .state _)
      (by intro k o; cases k <;> cases o <;> simp [Fits])
    exact ⟨h', .unit, congrArg givesNothing h1, h2⟩
  | stateRootHash s =>
    obtain ⟨id, m, rfl, hk, _, hm⟩ := state_ok d a
    obtain ⟨root, hr⟩ := outcome_cases (g.2 _ hm)
    have d1 := d.alloc (o := .buffer (List.replicate 32 none)) (k := .buffer (List.replicate 32 false)) (by simp [Fits])
    have hw : (L.add (.pointer (h.alloc (.buffer (List.replicate 32 none))).2) (.buffer (List.replicate 32 false))).writable
        (.object h.next) (fixed 32 root).length :=
      ⟨h.next, .whole, 0, .buffer (List.replicate 32 false), 32, rfl, by simp [Ledger.add, Heap.alloc, Pointer.object, Ledger.set],
        by simp [Ledger.room], by rw [fixed_length]⟩
    obtain ⟨h', h1, h2⟩ := write_ok d1 hw
    refine ⟨h', .pointer (.object h.next), ?_, ?_⟩
    · simp only [step, givesPointer, stateRootHash, hm, Outcome.ok_bind, hr, newBuffer, g.1, if_true]
      simp only [Heap.alloc] at h1 ⊢
      simp only [h1, Outcome.ok_bind]
    · rw [fixed_length] at h2
      have : (L.add (.pointer (h.alloc (.buffer (List.replicate 32 none))).2) (.buffer (List.replicate 32 false))).write
          (.object h.next) 32 = L.add (.pointer (.object h.next)) (.buffer (List.replicate 32 true)) := by
        funext i
        simp only [Ledger.add, Heap.alloc, Pointer.object, Ledger.write, Ledger.set, if_pos]
        split
        · rfl
        · rfl
      rw [this] at h2
      exact h2
  | numberOfAccounts s =>
    obtain ⟨id, m, rfl, _, _, hm⟩ := state_ok d a
    (refine ⟨_, _, by simp only [step, hm, Outcome.ok_bind]; rfl, ?_⟩; exact d)
  | storageSize s address account =>
    obtain ⟨id, m, rfl, _, _, hm⟩ := state_ok d a.1
    obtain ⟨x, hx⟩ := address_ok d a.2.1
    obtain ⟨ia, y, rfl, _, _, hy⟩ := account_ok d a.2.2
    (refine ⟨_, _, by simp only [step, storageSize, hm, hx, hy, Outcome.ok_bind]; rfl, ?_⟩; exact d)
  | readAccount s address =>
    obtain ⟨id, m, rfl, _, _, hm⟩ := state_ok d a.1
    obtain ⟨x, hx⟩ := address_ok d a.2
    cases hr : m.readAccount x with
    | none => (refine ⟨_, _, by simp only [step, givesPointer, readAccount, hm, hx, hr, Outcome.ok_bind]; rfl, ?_⟩; exact d)
    | some y => (refine ⟨_, _, by simp only [step, givesPointer, readAccount, hm, hx, hr, Outcome.ok_bind]; rfl, ?_⟩; exact d.alloc (k := .account) trivial)
  | readCode s codeHash =>
    obtain ⟨id, m, rfl, _, _, hm⟩ := state_ok d a.1
    obtain ⟨x, hx⟩ := read_ok d a.2
    (refine ⟨_, _, by simp only [step, givesPointer, readCode, bytes32At, hm, hx, Outcome.ok_bind]; rfl, ?_⟩; exact d.alloc (k := .bytes none) (by simp [Fits]))
  | readStorage s address account location =>
    obtain ⟨id, m, rfl, _, _, hm⟩ := state_ok d a.1
    obtain ⟨x, hx⟩ := address_ok d a.2.1
    obtain ⟨ia, y, rfl, _, _, hy⟩ := account_ok d a.2.2.1
    obtain ⟨il, l, b, rfl, _, _, hl, _⟩ := bytes_ok d a.2.2.2
    (refine ⟨_, _, by simp only [step, givesPointer, readStorage, hm, hx, hy, hl, Outcome.ok_bind]; rfl, ?_⟩; exact d.alloc (k := .bytes none) (by simp [Fits]))
  | updateAccount s address current =>
    obtain ⟨id, m, rfl, hk, _, hm⟩ := state_ok d a.1
    obtain ⟨x, hx⟩ := address_ok d a.2.1
    rcases a.2.2 with rfl | ha
    · (refine ⟨_, .unit, by simp only [step, givesNothing, updateAccount, hm, hx, Heap.accountOrNull, Outcome.ok_bind]; rfl, ?_⟩; exact d.put_same hk trivial)
    · obtain ⟨ia, y, rfl, _, _, hy⟩ := account_ok d ha
      (refine ⟨_, .unit, by simp only [step, givesNothing, updateAccount, hm, hx, Heap.accountOrNull, hy, Outcome.ok_bind]; rfl, ?_⟩; exact d.put_same hk trivial)
  | updateCode s address account code =>
    obtain ⟨id, m, rfl, hk, _, hm⟩ := state_ok d a.1
    obtain ⟨x, hx⟩ := address_ok d a.2.1
    obtain ⟨ia, y, rfl, _, _, hy⟩ := account_ok d a.2.2.1
    obtain ⟨il, l, b, rfl, _, _, hl, _⟩ := bytes_ok d a.2.2.2
    (refine ⟨_, .unit, by simp only [step, givesNothing, updateCode, hm, hx, hy, hl, Outcome.ok_bind]; rfl, ?_⟩; exact d.put_same hk trivial)
  | updateStorage s address account location value =>
    obtain ⟨id, m, rfl, hk, _, hm⟩ := state_ok d a.1
    obtain ⟨x, hx⟩ := address_ok d a.2.1
    obtain ⟨ia, y, rfl, _, _, hy⟩ := account_ok d a.2.2.1
    obtain ⟨il, l, b, rfl, _, _, hl, _⟩ := bytes_ok d a.2.2.2.1
    obtain ⟨iv, l', b', rfl, _, _, hv, _⟩ := bytes_ok d a.2.2.2.2
    (refine ⟨_, .unit, by simp only [step, givesNothing, updateStorage, hm, hx, hy, hl, hv, Outcome.ok_bind]; rfl, ?_⟩; exact d.put_same hk trivial)
  | newBlockchain s config genesis =>
    obtain ⟨id, m, rfl, hk, _, hm⟩ := state_ok d a.1
    obtain ⟨c, hc⟩ := config_ok d a.2.1
    obtain ⟨ib, b, rfl, _, _, hb⟩ := block_ok d a.2.2
    refine ⟨_, _, by simp only [step, givesPointer, newBlockchain, hm, hc, hb, Outcome.ok_bind, if_pos (g _ hb)]; rfl, ?_⟩
    refine (d.put_same hk (o := .state _) trivial).alloc ⟨rfl, ?_⟩
    rcases a.2.1 with ⟨_, rfl, _⟩ | ⟨_, _, rfl, _⟩ <;> rfl
  | deleteBlockchain p =>
    obtain ⟨h', h1, h2⟩ := release_ok d a (obj := fun o => o matches .chain ..)
      (by intro k o; cases k <;> cases o <;> simp [Fits])
    exact ⟨h', .unit, congrArg givesNothing h1, h2⟩
  | insertBlock chain block check =>
    obtain ⟨⟨id, s, c, rfl, hk, hs, hc⟩, hb⟩ := a
    obtain ⟨o, ho, f⟩ := d.get hk
    cases o <;> try exact False.elim f
    case chain s' c' bad =>
    obtain ⟨rfl, rfl⟩ := f
    obtain ⟨ib, b, rfl, hkb, _, hb⟩ := block_ok d hb
    obtain ⟨is, m, es, hks, _, hm⟩ := state_ok d (p := .object s) ⟨s, .state, rfl, hs, rfl⟩
    cases es
    obtain ⟨x, hx⟩ := config_there d hc
    have hch : h.chain (.to id .whole 0) = .ok (id, s, c, bad) := by simp [Heap.chain, ho]
    obtain ⟨r, hr⟩ := outcome_cases (g _ _ _ _ hch hm hx hb)
    refine ⟨_, .verdict r.2, by simp only [step, insertBlock, hch, hm, hx, hb, hr, Outcome.ok_bind]; rfl, ?_⟩
    exact ((d.put_same hkb (o := .block _) trivial).put_same hs (o := .state _) trivial).put_same hk (o := .chain s c _)
      ⟨rfl, rfl⟩

end Silkworm.Wasm
