import Verif.Rlp.Lemmas

/-! Round trip, canonicity and safety of the basic RLP decoders. -/

namespace Silkworm.Rlp

open Silkworm

/-- `dec` reads back `x` from its encoding, whatever follows. -/
def RoundTrip {α : Type} (enc : α → Bytes) (dec : Bytes → Dec (α × Bytes)) (x : α) : Prop :=
  ∀ rest, dec (enc x ++ rest) = .ok (x, rest)

/-- `dec` accepts only outputs of `enc`. -/
def Canonical {α : Type} (enc : α → Bytes) (dec : Bytes → Dec (α × Bytes)) : Prop :=
  ∀ from_ x rest, dec from_ = .ok (x, rest) → from_ = enc x ++ rest

/-- `dec` never runs into undefined behaviour. -/
def Safe {α : Type} (dec : Bytes → Dec (α × Bytes)) : Prop := ∀ from_, dec from_ ≠ .ub

/-- A successful `dec` consumes at least one byte. -/
def Consumes {α : Type} (dec : Bytes → Dec (α × Bytes)) : Prop :=
  ∀ from_ x rest, dec from_ = .ok (x, rest) → rest.length < from_.length

theorem encodeHeader_ne_nil (h : Header) : encodeHeader h ≠ [] := by
  unfold encodeHeader
  split <;> simp

theorem decodeHeader_length {from_ rest : Bytes} {h : Header} (e : decodeHeader from_ = .ok (h, rest)) :
    rest.length ≤ from_.length ∧ (rest.length = from_.length → h = ⟨false, 1⟩) ∧ h.payloadLength ≤ rest.length := by
  obtain ⟨h1, _, h2⟩ := decodeHeader_inv e
  rcases h2 with ⟨h2, h3, _⟩ | ⟨h2, _⟩
  · subst h3; exact ⟨Nat.le_refl _, fun _ => h2, h1⟩
  · have := List.length_pos_iff.mpr (encodeHeader_ne_nil h)
    have h3 := congrArg List.length h2
    rw [List.length_append] at h3
    exact ⟨by omega, fun _ => by omega, h1⟩

/-! ### Byte strings -/

theorem decodeBytes_roundTrip {s : Bytes} (h : s.length < 2 ^ 64) : RoundTrip encodeBytes decodeBytes s := by
  intro rest
  unfold encodeBytes decodeBytes
  by_cases hn : needsHeader s = true
  · rw [if_pos hn, List.append_assoc, decodeHeader_encode (h := ⟨false, s.length⟩) h (by simp)]
    · simp only [Outcome.ok_bind]
      rw [removePrefix_ok (by simp)]
      simp
    · intro _ h1 c cs e
      match s, h1, hn with
      | [x], _, hn =>
        simp only [needsHeader, decide_eq_true_eq] at hn
        simp at e
        rw [← e.1]; exact hn
  · rw [if_neg hn]
    match s, hn with
    | [], hn => simp [needsHeader] at hn
    | x :: y :: zs, hn => simp [needsHeader] at hn
    | [x], hn =>
      simp only [needsHeader, decide_eq_true_eq] at hn
      have hx : x < 0x80 := UInt8.not_le.mp hn
      simp only [List.nil_append, List.singleton_append]
      rw [decodeHeader_single hx]
      simp only [Outcome.ok_bind]
      rw [removePrefix_ok (by simp)]
      simp

theorem encodeBytes_single {x : UInt8} (h : x < 0x80) : encodeBytes [x] = [x] := by
  have : ¬ (0x80 : UInt8) ≤ x := UInt8.not_le.mpr h
  simp [encodeBytes, needsHeader, this]

theorem encodeBytes_header {s : Bytes} (h : s.length = 1 → ∃ c cs, s = c :: cs ∧ 0x80 ≤ c) :
    encodeBytes s = encodeHeader ⟨false, s.length⟩ ++ s := by
  unfold encodeBytes
  rw [if_pos]
  match s with
  | [] => rfl
  | x :: y :: zs => rfl
  | [x] =>
    obtain ⟨c, cs, e, hc⟩ := h rfl
    simp at e
    simp [needsHeader, e.1, hc]

/-- Common part of the canonicity proofs: a string header followed by its payload is `encodeBytes` of the payload. -/
theorem decodeHeader_str_inv {from_ rest : Bytes} {h : Header} (e : decodeHeader from_ = .ok (h, rest))
    (hl : h.list = false) :
    from_ = encodeBytes (rest.take h.payloadLength) ++ rest.drop h.payloadLength ∧
      (rest.take h.payloadLength).length = h.payloadLength ∧ h.payloadLength < 2 ^ 64 := by
  obtain ⟨h1, h2, h3⟩ := decodeHeader_inv e
  have hlen : (rest.take h.payloadLength).length = h.payloadLength := by simp; omega
  refine ⟨?_, hlen, h2⟩
  rcases h3 with ⟨h3, h4, b, bs, h5, h6⟩ | ⟨h3, h4⟩
  · subst h3; subst h4; subst h5
    simp [encodeBytes_single h6]
  · rw [encodeBytes_header]
    · rw [hlen, List.append_assoc, List.take_append_drop]
      rw [h3]
      obtain ⟨l, n⟩ := h
      simp only at hl
      subst hl
      rfl
    · intro hl1
      rw [hlen] at hl1
      obtain ⟨c, cs, e1, e2⟩ := h4 hl hl1
      refine ⟨c, [], ?_, e2⟩
      rw [e1, hl1]; rfl

theorem decodeBytes_canonical : Canonical encodeBytes decodeBytes := by
  intro from_ x rest e
  unfold decodeBytes at e
  obtain ⟨⟨h, r⟩, e1, e2⟩ := Outcome.bind_eq_ok.mp e
  simp only at e2
  split at e2
  · cases e2
  · rename_i hl
    have hl : h.list = false := by simpa using hl
    obtain ⟨g1, g2, g3⟩ := decodeHeader_str_inv e1 hl
    rw [removePrefix_ok (decodeHeader_length e1).2.2] at e2
    cases e2
    exact g1

theorem decodeBytes_lt {from_ x rest : Bytes} (e : decodeBytes from_ = .ok (x, rest)) : x.length < 2 ^ 64 := by
  unfold decodeBytes at e
  obtain ⟨⟨h, r⟩, e1, e2⟩ := Outcome.bind_eq_ok.mp e
  simp only at e2
  split at e2
  · cases e2
  · rename_i hl
    have hl : h.list = false := by simpa using hl
    obtain ⟨g1, g2, g3⟩ := decodeHeader_str_inv e1 hl
    rw [removePrefix_ok (decodeHeader_length e1).2.2] at e2
    cases e2
    omega

theorem decodeBytes_safe : Safe decodeBytes := by
  intro from_
  unfold decodeBytes
  apply Outcome.bind_ne_ub (decodeHeader_ne_ub _)
  intro ⟨h, r⟩ e1
  simp only
  split
  · simp
  · rw [removePrefix_ok (decodeHeader_length e1).2.2]
    simp

/-! ### Integers -/

theorem encodeUint_eq_bytes {k n : Nat} (hk : k < 56) (h : n < 256 ^ k) : encodeUint k n = encodeBytes (bigEndian k n) := by
  rw [encodeUint_spec hk h, encodeBytes_spec, bigEndian_spec h]
  · rfl
  · rw [bigEndian_length h]
    have := byteLen_le h
    omega

theorem decodeUint_roundTrip {k n : Nat} (hk : k < 56) (h : n < 256 ^ k) : RoundTrip (encodeUint k) (decodeUint k) n := by
  intro rest
  have hlen : (bigEndian k n).length < 2 ^ 64 := by
    rw [bigEndian_length h]
    have := byteLen_le h
    omega
  have hb := decodeBytes_roundTrip hlen rest
  rw [encodeUint_eq_bytes hk h]
  unfold decodeBytes at hb
  unfold decodeUint
  obtain ⟨⟨hd, r⟩, e1, e2⟩ := Outcome.bind_eq_ok.mp hb
  rw [e1]
  simp only [Outcome.ok_bind]
  simp only at e2
  split at e2
  · cases e2
  · rename_i hl
    rw [if_neg hl]
    obtain ⟨r', e3, e4⟩ := Outcome.bind_eq_ok.mp e2
    simp only [Outcome.ok.injEq, Prod.mk.injEq] at e4
    rw [e4.1, readUint_bigEndian h, e3]
    simp [e4.2]

theorem decodeUint_inv {k n : Nat} {from_ rest : Bytes} (hk : k < 56) (e : decodeUint k from_ = .ok (n, rest)) :
    n < 256 ^ k ∧ from_ = encodeUint k n ++ rest := by
  unfold decodeUint at e
  obtain ⟨⟨h, r⟩, e1, e2⟩ := Outcome.bind_eq_ok.mp e
  simp only at e2
  split at e2
  · cases e2
  · rename_i hl
    have hl : h.list = false := by simpa using hl
    obtain ⟨n', e3, e2⟩ := Outcome.bind_eq_ok.mp e2
    rw [removePrefix_ok (decodeHeader_length e1).2.2] at e2
    cases e2
    obtain ⟨g1, g2, g3⟩ := readUint_inv e3
    refine ⟨g2, ?_⟩
    rw [encodeUint_eq_bytes hk g2, g3]
    exact (decodeHeader_str_inv e1 hl).1

theorem decodeUint_canonical {k : Nat} (hk : k < 56) : Canonical (encodeUint k) (decodeUint k) :=
  fun _ _ _ e => (decodeUint_inv hk e).2

theorem decodeUint_safe (k : Nat) : Safe (decodeUint k) := by
  intro from_
  unfold decodeUint
  apply Outcome.bind_ne_ub (decodeHeader_ne_ub _)
  intro ⟨h, r⟩ e1
  simp only
  split
  · simp
  · apply Outcome.bind_ne_ub (readUint_ne_ub _ _ _)
    intro n _
    rw [removePrefix_ok (decodeHeader_length e1).2.2]
    simp

/-! ### Booleans -/

/-- `encode(to, bool)`: the bool is promoted to `uint64_t` (transaction.cpp:197, receipt.cpp:39). -/
def encodeBool (b : Bool) : Bytes := encodeUint 8 (if b then 1 else 0)

theorem decodeBool_roundTrip (b : Bool) : RoundTrip encodeBool decodeBool b := by
  intro rest
  unfold encodeBool decodeBool
  rw [decodeUint_roundTrip (by decide) (by cases b <;> decide) rest]
  cases b <;> rfl

theorem decodeBool_canonical : Canonical encodeBool decodeBool := by
  intro from_ x rest e
  unfold decodeBool at e
  obtain ⟨⟨i, r⟩, e1, e2⟩ := Outcome.bind_eq_ok.mp e
  simp only at e2
  split at e2
  · cases e2
  · rename_i hi
    cases e2
    have := (decodeUint_inv (by decide) e1).2
    rw [this]
    have hi : i = 0 ∨ i = 1 := by omega
    rcases hi with hi | hi <;> subst hi <;> rfl

theorem decodeBool_safe : Safe decodeBool := by
  intro from_
  unfold decodeBool
  apply Outcome.bind_ne_ub (decodeUint_safe _ _)
  intro ⟨i, r⟩ _
  simp only
  split <;> simp

/-! ### Fixed-size arrays -/

theorem decodeArray_roundTrip {n : Nat} {s : Bytes} (h1 : n ≠ 1) (h2 : n < 56) (hs : s.length = n) :
    RoundTrip encodeArray (decodeArray n) s := by
  intro rest
  have e : encodeArray s ++ rest = encodeHeader ⟨false, n⟩ ++ (s ++ rest) := by
    unfold encodeArray encodeHeader
    simp [hs, h2]
  rw [e]
  unfold decodeArray
  rw [decodeHeader_encode (by simp only; omega) (by simp [hs])]
  · simp only [Outcome.ok_bind]
    rw [copyBytes_ok (by simp [hs]), removePrefix_ok (by simp [hs])]
    simp [← hs]
  · intro _ h; exact absurd h h1

theorem decodeArray_inv {n : Nat} {from_ x rest : Bytes} (e : decodeArray n from_ = .ok (x, rest)) :
    x.length = n ∧ from_ = encodeBytes x ++ rest := by
  unfold decodeArray at e
  obtain ⟨⟨h, r⟩, e1, e2⟩ := Outcome.bind_eq_ok.mp e
  simp only at e2
  split at e2
  · cases e2
  · rename_i hl
    have hl : h.list = false := by simpa using hl
    split at e2
    · cases e2
    · rename_i hn
      have hn : h.payloadLength = n := by simpa using hn
      have hle := (decodeHeader_length e1).2.2
      rw [copyBytes_ok (by omega), removePrefix_ok (by omega)] at e2
      cases e2
      obtain ⟨g1, g2, g3⟩ := decodeHeader_str_inv e1 hl
      rw [hn] at g1 g2
      exact ⟨g2, g1⟩

theorem encodeArray_eq_bytes {s : Bytes} (h1 : s.length ≠ 1) (h2 : s.length < 56) : encodeArray s = encodeBytes s := by
  rw [encodeArray_spec h1 h2, encodeBytes_spec (by omega)]

theorem decodeArray_canonical {n : Nat} (h1 : n ≠ 1) (h2 : n < 56) : Canonical encodeArray (decodeArray n) := by
  intro from_ x rest e
  obtain ⟨g1, g2⟩ := decodeArray_inv e
  rw [encodeArray_eq_bytes (by omega) (by omega)]
  exact g2

/-- Arrays longer than 55 bytes are encoded through a `ByteView` (the bloom, block.cpp:92). -/
theorem decodeArray_roundTrip_long {n : Nat} {s : Bytes} (h1 : n ≠ 1) (h2 : n < 2 ^ 64) (hs : s.length = n) :
    RoundTrip encodeBytes (decodeArray n) s := by
  intro rest
  rw [encodeBytes_header (by omega), List.append_assoc]
  unfold decodeArray
  rw [decodeHeader_encode (by simp only; omega) (by simp)]
  · simp only [Outcome.ok_bind, hs]
    rw [copyBytes_ok (by simp [hs]), removePrefix_ok (by simp [hs])]
    simp [← hs]
  · intro _ h; simp only at h; omega

theorem decodeArray_safe (n : Nat) : Safe (decodeArray n) := by
  intro from_
  unfold decodeArray
  apply Outcome.bind_ne_ub (decodeHeader_ne_ub _)
  intro ⟨h, r⟩ e1
  simp only
  split
  · simp
  · split
    · simp
    · rename_i hn
      have hn : h.payloadLength = n := by simpa using hn
      have hle := (decodeHeader_length e1).2.2
      rw [copyBytes_ok (by omega), removePrefix_ok (by omega)]
      simp

/-! ### Vectors -/

theorem decodeItems_roundTrip {α : Type} {enc : α → Bytes} {dec : Bytes → Dec (α × Bytes)} {v : List α}
    (hrt : ∀ x ∈ v, RoundTrip enc dec x) (hne : ∀ x ∈ v, enc x ≠ []) {fuel : Nat}
    (hf : ((v.map enc).flatten).length ≤ fuel) : decodeItems dec fuel ((v.map enc).flatten) = .ok v := by
  induction v generalizing fuel with
  | nil => cases fuel <;> rfl
  | cons x xs ih =>
    have h1 := hrt x (by simp) ((xs.map enc).flatten)
    have h2 := hne x (by simp)
    have hpos := List.length_pos_iff.mpr h2
    simp only [List.map_cons, List.flatten_cons, List.length_append] at hf ⊢
    obtain ⟨y, ys, hy⟩ := List.exists_cons_of_ne_nil h2
    rw [hy] at h1 ⊢
    match fuel with
    | 0 => omega
    | fuel + 1 =>
      simp only [List.cons_append, decodeItems]
      simp only [List.cons_append] at h1
      rw [h1]
      simp only [Outcome.ok_bind]
      rw [ih (fun z hz => hrt z (by simp [hz])) (fun z hz => hne z (by simp [hz])) (by omega)]
      rfl

theorem decodeVector_roundTrip {α : Type} {enc : α → Bytes} {len : α → Nat} {dec : Bytes → Dec (α × Bytes)}
    {v : List α} (hrt : ∀ x ∈ v, RoundTrip enc dec x) (hne : ∀ x ∈ v, enc x ≠ [])
    (hlen : ∀ x ∈ v, len x = (enc x).length) (h64 : payloadLength len v < 2 ^ 64) :
    RoundTrip (encodeVector len enc) (decodeVector dec) v := by
  intro rest
  have hp := payloadLength_eq len enc v hlen
  unfold encodeVector decodeVector
  rw [List.append_assoc, decodeHeader_encode h64 (by simp [hp])]
  · simp only [Outcome.ok_bind, Bool.not_true, Bool.false_eq_true, if_false, hp]
    rw [List.take_left' rfl, decodeItems_roundTrip hrt hne (Nat.le_refl _)]
    simp only [Outcome.ok_bind]
    rw [removePrefix_ok (by simp)]
    simp
  · intro h; cases h

theorem decodeItems_inv {α : Type} {enc : α → Bytes} {dec : Bytes → Dec (α × Bytes)} (hc : Canonical enc dec)
    {fuel : Nat} {v : Bytes} {xs : List α} (e : decodeItems dec fuel v = .ok xs) : v = (xs.map enc).flatten := by
  induction fuel generalizing v xs with
  | zero =>
    match v with
    | [] => simp [decodeItems] at e; subst e; rfl
    | _ :: _ => simp [decodeItems] at e
  | succ fuel ih =>
    match v with
    | [] => simp [decodeItems] at e; subst e; rfl
    | b :: bs =>
      simp only [decodeItems] at e
      obtain ⟨⟨x, r⟩, e1, e⟩ := Outcome.bind_eq_ok.mp e
      simp only at e
      obtain ⟨ys, e2, e⟩ := Outcome.bind_eq_ok.mp e
      cases e
      rw [hc _ _ _ e1, ih e2]
      simp

theorem decodeItems_forall {α : Type} {P : α → Prop} {dec : Bytes → Dec (α × Bytes)}
    (hP : ∀ from_ x rest, dec from_ = .ok (x, rest) → P x)
    {fuel : Nat} {v : Bytes} {xs : List α} (e : decodeItems dec fuel v = .ok xs) : ∀ x ∈ xs, P x := by
  induction fuel generalizing v xs with
  | zero =>
    match v with
    | [] => simp [decodeItems] at e; subst e; simp
    | _ :: _ => simp [decodeItems] at e
  | succ fuel ih =>
    match v with
    | [] => simp [decodeItems] at e; subst e; simp
    | b :: bs =>
      simp only [decodeItems] at e
      obtain ⟨⟨x, r⟩, e1, e⟩ := Outcome.bind_eq_ok.mp e
      simp only at e
      obtain ⟨ys, e2, e⟩ := Outcome.bind_eq_ok.mp e
      cases e
      intro z hz
      rcases List.mem_cons.mp hz with hz | hz
      · subst hz; exact hP _ _ _ e1
      · exact ih e2 z hz

theorem decodeVector_forall {α : Type} {P : α → Prop} {dec : Bytes → Dec (α × Bytes)}
    (hP : ∀ from_ x rest, dec from_ = .ok (x, rest) → P x)
    {from_ : Bytes} {xs : List α} {rest : Bytes} (e : decodeVector dec from_ = .ok (xs, rest)) : ∀ x ∈ xs, P x := by
  unfold decodeVector at e
  obtain ⟨⟨h, r⟩, e1, e⟩ := Outcome.bind_eq_ok.mp e
  simp only at e
  split at e
  · cases e
  · obtain ⟨to, e2, e⟩ := Outcome.bind_eq_ok.mp e
    obtain ⟨r', e3, e⟩ := Outcome.bind_eq_ok.mp e
    cases e
    exact decodeItems_forall hP e2

theorem decodeVector_canonical {α : Type} {enc : α → Bytes} {len : α → Nat} {dec : Bytes → Dec (α × Bytes)}
    (hc : Canonical enc dec)
    (hlen : ∀ from_ x rest, dec from_ = .ok (x, rest) → len x = (enc x).length) :
    Canonical (encodeVector len enc) (decodeVector dec) := by
  intro from_ xs rest e
  have hall := decodeVector_forall (P := fun x => len x = (enc x).length) hlen e
  unfold decodeVector at e
  obtain ⟨⟨h, r⟩, e1, e⟩ := Outcome.bind_eq_ok.mp e
  simp only at e
  split at e
  · cases e
  · rename_i hl
    have hl : h.list = true := by simpa using hl
    obtain ⟨to, e2, e⟩ := Outcome.bind_eq_ok.mp e
    have hle := (decodeHeader_length e1).2.2
    rw [removePrefix_ok hle] at e
    cases e
    have hv := decodeItems_inv hc e2
    obtain ⟨h1, h2, h3⟩ := decodeHeader_inv e1
    rcases h3 with ⟨h3, _⟩ | ⟨h3, _⟩
    · subst h3; cases hl
    · unfold encodeVector
      rw [payloadLength_eq len enc _ hall, ← hv, h3]
      obtain ⟨l, n⟩ := h
      simp only at hl hle
      subst hl
      have : (List.take n r).length = n := by simp; omega
      simp [this]

theorem decodeItems_safe {α : Type} {dec : Bytes → Dec (α × Bytes)} (hs : Safe dec) (hcon : Consumes dec)
    {fuel : Nat} {v : Bytes} (hf : v.length ≤ fuel) : decodeItems dec fuel v ≠ .ub := by
  induction fuel generalizing v with
  | zero =>
    match v with
    | [] => simp [decodeItems]
    | _ :: _ => simp at hf
  | succ fuel ih =>
    match v with
    | [] => simp [decodeItems]
    | b :: bs =>
      simp only [decodeItems]
      apply Outcome.bind_ne_ub (hs _)
      intro ⟨x, r⟩ e1
      have := hcon _ _ _ e1
      simp only
      apply Outcome.bind_ne_ub
      · apply ih
        simp at this hf
        omega
      · intro a _; simp

theorem decodeVector_safe {α : Type} {dec : Bytes → Dec (α × Bytes)} (hs : Safe dec) (hcon : Consumes dec) :
    Safe (decodeVector dec) := by
  intro from_
  unfold decodeVector
  apply Outcome.bind_ne_ub (decodeHeader_ne_ub _)
  intro ⟨h, r⟩ e1
  simp only
  split
  · simp
  · apply Outcome.bind_ne_ub (decodeItems_safe hs hcon (Nat.le_refl _))
    intro a _
    rw [removePrefix_ok (decodeHeader_length e1).2.2]
    simp

/-- A canonical decoder with non-empty encodings consumes input. -/
theorem consumes_of_canonical {α : Type} {enc : α → Bytes} {dec : Bytes → Dec (α × Bytes)} (hc : Canonical enc dec)
    (hne : ∀ x, enc x ≠ []) : Consumes dec := by
  intro from_ x rest e
  have h1 := congrArg List.length (hc _ _ _ e)
  have h2 := List.length_pos_iff.mpr (hne x)
  rw [List.length_append] at h1
  omega

theorem encodeBytes_ne_nil (s : Bytes) : encodeBytes s ≠ [] := by
  unfold encodeBytes
  by_cases h : needsHeader s = true
  · rw [if_pos h]
    simp [encodeHeader_ne_nil]
  · rw [if_neg h]
    match s with
    | [] => simp [needsHeader] at h
    | x :: xs => simp

theorem encodeUint_ne_nil (k n : Nat) : encodeUint k n ≠ [] := by
  unfold encodeUint
  split
  · simp
  · split <;> simp

theorem encodeArray_ne_nil (s : Bytes) : encodeArray s ≠ [] := by simp [encodeArray]

theorem encodeVector_ne_nil {α : Type} (len : α → Nat) (enc : α → Bytes) (v : List α) : encodeVector len enc v ≠ [] := by
  simp [encodeVector, encodeHeader_ne_nil]

theorem decodeArray_consumes (n : Nat) : Consumes (decodeArray n) := by
  intro from_ x rest e
  have h1 := congrArg List.length (decodeArray_inv e).2
  have h2 := List.length_pos_iff.mpr (encodeBytes_ne_nil x)
  rw [List.length_append] at h1
  omega

end Silkworm.Rlp
