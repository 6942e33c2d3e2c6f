import Verif.Spec.RlpLemmas

/-!
# Properties C01–C06: RLP

`Spec.rlp` is the Yellow Paper's serialization (Verif/Spec/Rlp.lean); `Rlp.*` is the model of
core/silkworm/rlp.
-/

namespace Silkworm.Properties

open Silkworm Silkworm.Rlp

/-! ## C01: integers -/

/-- C01: a 64-bit integer is read back from its encoding, whatever bytes follow. -/
theorem c01_uint64_roundtrip (n : Nat) (h : n < 2 ^ 64) (rest : Bytes) :
    decodeUint 8 (encodeUint 8 n ++ rest) = .ok (n, rest) :=
  decodeUint_roundTrip (by decide) h rest

example : decodeUint 8 (encodeUint 8 (2 ^ 63 + 5) ++ [1, 2]) = .ok (2 ^ 63 + 5, [1, 2]) :=
  c01_uint64_roundtrip _ (by decide) _

/-- C01: a 256-bit integer is read back from its encoding, whatever bytes follow. -/
theorem c01_uint256_roundtrip (n : Nat) (h : n < 2 ^ 256) (rest : Bytes) :
    decodeUint 32 (encodeUint 32 n ++ rest) = .ok (n, rest) :=
  decodeUint_roundTrip (by decide) (by rw [show (256 : Nat) ^ 32 = 2 ^ 256 from by decide]; exact h) rest

example : decodeUint 32 (encodeUint 32 (2 ^ 200 + 77) ++ [0]) = .ok (2 ^ 200 + 77, [0]) :=
  c01_uint256_roundtrip _ (by decide) _

/-- C01: the 64-bit and 256-bit encoders produce the Yellow Paper RLP of the minimal big-endian string. -/
theorem c01_uint_minimal (n : Nat) :
    (n < 2 ^ 64 → encodeUint 8 n = Spec.rlp (.str (Spec.be n))) ∧
    (n < 2 ^ 256 → encodeUint 32 n = Spec.rlp (.str (Spec.be n))) :=
  ⟨fun h => encodeUint_spec (by decide) h,
   fun h => encodeUint_spec (by decide) (by rw [show (256 : Nat) ^ 32 = 2 ^ 256 from by decide]; exact h)⟩

/-- C01: `Spec.be` really is minimal: no leading zero byte, and it denotes `n`. -/
theorem c01_be_minimal (n : Nat) :
    (∀ x xs, Spec.be n = x :: xs → x ≠ 0) ∧
    (Spec.be n).foldl (fun acc x => acc * 256 + x.toNat) 0 = n := by
  rw [spec_be_eq]
  exact ⟨fun x xs e => beFixed_head_ne_zero e, beToNat_beFixed (lt_pow_byteLen n)⟩

example : encodeUint 8 0x1234 = [0x82, 0x12, 0x34] := by decide
example : encodeUint 8 0 = [0x80] ∧ encodeUint 8 0x7f = [0x7f] ∧ encodeUint 8 0x80 = [0x81, 0x80] := by decide

/-! ## C02: strings and arrays -/

/-- C02: any byte string shorter than `2^64` is read back. -/
theorem c02_bytes_roundtrip (s : Bytes) (h : s.length < 2 ^ 64) (rest : Bytes) :
    decodeBytes (encodeBytes s ++ rest) = .ok (s, rest) :=
  decodeBytes_roundTrip h rest

example : decodeBytes (encodeBytes (List.replicate 300 7) ++ [9]) = .ok (List.replicate 300 7, [9]) :=
  c02_bytes_roundtrip _ (by rw [List.length_replicate]; decide) _

/-- C02: any fixed-size array of 0 or 2..55 bytes is read back (one-byte arrays do not occur in the code base). -/
theorem c02_array_roundtrip (s : Bytes) (h1 : s.length ≠ 1) (h2 : s.length ≤ 55) (rest : Bytes) :
    decodeArray s.length (encodeArray s ++ rest) = .ok (s, rest) :=
  decodeArray_roundTrip h1 (by omega) rfl rest

example : decodeArray 8 (encodeArray [1, 2, 3, 4, 5, 6, 7, 8] ++ [9]) = .ok ([1, 2, 3, 4, 5, 6, 7, 8], [9]) :=
  c02_array_roundtrip [1, 2, 3, 4, 5, 6, 7, 8] (by decide) (by decide) _

/-- C02: strings and arrays are encoded as the Yellow Paper says. -/
theorem c02_bytes_spec (s : Bytes) (h : s.length < 2 ^ 64) :
    encodeBytes s = Spec.rlp (.str s) ∧ (s.length ≠ 1 → s.length ≤ 55 → encodeArray s = Spec.rlp (.str s)) :=
  ⟨(Spec.rlp_str_eq h).symm, fun h1 h2 => by
    rw [encodeArray_eq_bytes h1 (by omega)]; exact (Spec.rlp_str_eq h).symm⟩

/-! ## C03: canonicity -/

/-- C03: an accepted integer is in range and its consumed bytes are the Yellow Paper RLP of that integer. -/
theorem c03_uint_canonical (from_ rest : Bytes) (n : Nat) :
    (decodeUint 8 from_ = .ok (n, rest) → n < 2 ^ 64 ∧ from_ = Spec.rlp (.str (Spec.be n)) ++ rest) ∧
    (decodeUint 32 from_ = .ok (n, rest) → n < 2 ^ 256 ∧ from_ = Spec.rlp (.str (Spec.be n)) ++ rest) := by
  constructor
  · intro e
    obtain ⟨h1, h2⟩ := decodeUint_inv (by decide) e
    rw [← show encodeUint 8 n = Spec.rlp (.str (Spec.be n)) from encodeUint_spec (by decide) h1]
    exact ⟨h1, h2⟩
  · intro e
    obtain ⟨h1, h2⟩ := decodeUint_inv (by decide) e
    rw [← show encodeUint 32 n = Spec.rlp (.str (Spec.be n)) from encodeUint_spec (by decide) h1]
    rw [show (256 : Nat) ^ 32 = 2 ^ 256 from by decide] at h1
    exact ⟨h1, h2⟩

example : decodeUint 8 [0x82, 0x12, 0x34, 0xff] = .ok (0x1234, [0xff]) := by decide
example : decodeUint 8 [0x82, 0x00, 0x34] = .err .leadingZero := by decide
example : decodeUint 8 [0x81, 0x34] = .err .nonCanonicalSingleByte := by decide
example : decodeUint 8 [0x00] = .err .leadingZero := by decide

/-- C03: the bytes consumed by an accepted string are the Yellow Paper RLP of that string. -/
theorem c03_bytes_canonical (from_ s rest : Bytes) (e : decodeBytes from_ = .ok (s, rest)) :
    s.length < 2 ^ 64 ∧ from_ = Spec.rlp (.str s) ++ rest := by
  have h := decodeBytes_lt e
  rw [Spec.rlp_str_eq h]
  exact ⟨h, decodeBytes_canonical _ _ _ e⟩

example : decodeBytes [0x83, 1, 2, 3, 4] = .ok ([1, 2, 3], [4]) := by decide
example : decodeBytes [0xB8, 2, 1, 2] = .err .nonCanonicalSize := by decide

/-- C03: the bytes consumed by an accepted fixed-size array are the Yellow Paper RLP of that array, which has the
requested size. -/
theorem c03_array_canonical (n : Nat) (from_ s rest : Bytes) (hn : n < 2 ^ 64) (e : decodeArray n from_ = .ok (s, rest)) :
    s.length = n ∧ from_ = Spec.rlp (.str s) ++ rest := by
  obtain ⟨h1, h2⟩ := decodeArray_inv e
  rw [Spec.rlp_str_eq (by omega)]
  exact ⟨h1, h2⟩

example : decodeArray 2 [0x82, 1, 2, 4] = .ok ([1, 2], [4]) := by decide

/-- C03: no two different inputs are accepted as the same value with the same remainder (integers, strings, arrays, bools). -/
theorem c03_unique_encoding (a b rest : Bytes) :
    (∀ n, decodeUint 8 a = .ok (n, rest) → decodeUint 8 b = .ok (n, rest) → a = b) ∧
    (∀ n, decodeUint 32 a = .ok (n, rest) → decodeUint 32 b = .ok (n, rest) → a = b) ∧
    (∀ s, decodeBytes a = .ok (s, rest) → decodeBytes b = .ok (s, rest) → a = b) ∧
    (∀ k s, decodeArray k a = .ok (s, rest) → decodeArray k b = .ok (s, rest) → a = b) ∧
    (∀ x, decodeBool a = .ok (x, rest) → decodeBool b = .ok (x, rest) → a = b) :=
  ⟨fun _ h1 h2 => (decodeUint_inv (by decide) h1).2.trans (decodeUint_inv (by decide) h2).2.symm,
   fun _ h1 h2 => (decodeUint_inv (by decide) h1).2.trans (decodeUint_inv (by decide) h2).2.symm,
   fun _ h1 h2 => (decodeBytes_canonical _ _ _ h1).trans (decodeBytes_canonical _ _ _ h2).symm,
   fun _ _ h1 h2 => (decodeArray_inv h1).2.trans (decodeArray_inv h2).2.symm,
   fun _ h1 h2 => (decodeBool_canonical _ _ _ h1).trans (decodeBool_canonical _ _ _ h2).symm⟩

/-! ## C04: safety -/

/-- C04: no input makes a basic decoder read outside its view. -/
theorem c04_decoders_safe (from_ : Bytes) :
    decodeHeader from_ ≠ .ub ∧ decodeUint 8 from_ ≠ .ub ∧ decodeUint 32 from_ ≠ .ub ∧
    decodeBool from_ ≠ .ub ∧ decodeBytes from_ ≠ .ub ∧ (∀ n, decodeArray n from_ ≠ .ub) :=
  ⟨decodeHeader_ne_ub _, decodeUint_safe _ _, decodeUint_safe _ _, decodeBool_safe _, decodeBytes_safe _,
   fun n => decodeArray_safe n _⟩

/-- C04: the vector decoder is safe and terminates if the element decoder is safe and consumes input. -/
theorem c04_vector_safe {α : Type} (dec : Bytes → Dec (α × Bytes)) (hs : ∀ v, dec v ≠ .ub)
    (hc : ∀ v x rest, dec v = .ok (x, rest) → rest.length < v.length) (from_ : Bytes) :
    decodeVector dec from_ ≠ .ub :=
  decodeVector_safe hs hc from_

/-- C04: in particular vectors of 32-byte words (storage keys, topics). -/
theorem c04_vector_bytes32_safe (from_ : Bytes) : decodeVector (decodeArray 32) from_ ≠ .ub :=
  decodeVector_safe (decodeArray_safe 32) (decodeArray_consumes 32) from_

/-- C04: on success the remaining view is a suffix of the input, and the header's payload lies inside it. -/
theorem c04_header_in_bounds (from_ rest : Bytes) (h : Header) (e : decodeHeader from_ = .ok (h, rest)) :
    h.payloadLength ≤ rest.length ∧ ∃ consumed, from_ = consumed ++ rest := by
  obtain ⟨h1, _, h2⟩ := decodeHeader_inv e
  refine ⟨h1, ?_⟩
  rcases h2 with ⟨_, h3, _⟩ | ⟨h3, _⟩
  · exact ⟨[], by simp [h3]⟩
  · exact ⟨_, h3⟩

example : decodeHeader [0xB8, 56] = .err .inputTooShort := by decide
example : decodeHeader [0xC2, 1, 2, 3] = .ok (⟨true, 2⟩, [1, 2, 3]) := by decide
example : decodeHeader [0xBF, 0xFF, 0xFF, 0xFF, 0xFF, 0xFF, 0xFF, 0xFF, 0xFF, 0] = .err .inputTooShort := by decide

/-! ## C05: lengths (basic values; composite values are in the property files of their types) -/

/-- C05: `length` equals the size of the encoding for integers and strings. -/
theorem c05_length_basic :
    (∀ n, n < 2 ^ 64 → lengthUint 8 n = (encodeUint 8 n).length) ∧
    (∀ n, n < 2 ^ 256 → lengthUint 32 n = (encodeUint 32 n).length) ∧
    (∀ s : Bytes, s.length < 2 ^ 64 → lengthBytes s = (encodeBytes s).length) :=
  ⟨fun _ h => lengthUint_eq h,
   fun _ h => lengthUint_eq (by rw [show (256 : Nat) ^ 32 = 2 ^ 256 from by decide]; exact h),
   fun _ h => lengthBytes_eq h⟩

/-- C05: `length` of a vector equals the size of its encoding, given it does for the elements. -/
theorem c05_length_vector {α : Type} (len : α → Nat) (enc : α → Bytes) (v : List α)
    (h : ∀ x ∈ v, len x = (enc x).length) (hp : (v.map enc).flatten.length < 2 ^ 64) :
    lengthVector len v = (encodeVector len enc v).length :=
  lengthVector_eq len enc v h (by rw [payloadLength_eq len enc v h]; exact hp)

example : lengthVector (lengthUint 8) [1, 1000, 2 ^ 40] = 12 ∧
    (encodeVector (lengthUint 8) (encodeUint 8) [1, 1000, 2 ^ 40]).length = 12 := by decide

/-! ## C06: unique decodability -/

/-- C06: no encoding of an item is a proper prefix of the encoding of another item. -/
theorem c06_prefix_free (a b : Spec.Item) (s t : Bytes) (ha : Spec.fits a) (hb : Spec.fits b)
    (e : Spec.rlp a ++ s = Spec.rlp b ++ t) : a = b ∧ s = t :=
  Spec.rlp_prefix_free a b s t ha hb e

/-- C06: equal serializations come from equal items. -/
theorem c06_injective (a b : Spec.Item) (ha : Spec.fits a) (hb : Spec.fits b) (e : Spec.rlp a = Spec.rlp b) : a = b :=
  Spec.rlp_inj ha hb e

example : Spec.fits (.list [.str [1, 2, 3], .list [.str [], .list []]]) := by
  simp [Spec.fits, Spec.fitsItems, Spec.rlpItems, Spec.rlp, Spec.rlpStr, Spec.lenPrefix]

/-- C06: the vector decoder inverts the vector encoder for every element codec that round-trips. -/
theorem c06_vector_roundtrip {α : Type} (len : α → Nat) (enc : α → Bytes) (dec : Bytes → Dec (α × Bytes)) (v : List α)
    (hrt : ∀ x ∈ v, ∀ rest, dec (enc x ++ rest) = .ok (x, rest)) (hne : ∀ x ∈ v, enc x ≠ [])
    (hlen : ∀ x ∈ v, len x = (enc x).length) (h64 : (v.map enc).flatten.length < 2 ^ 64) (rest : Bytes) :
    decodeVector dec (encodeVector len enc v ++ rest) = .ok (v, rest) :=
  decodeVector_roundTrip hrt hne hlen (by rw [payloadLength_eq len enc v hlen]; exact h64) rest

/-- C06: vectors of 32-byte words: equal encodings come from equal vectors. -/
theorem c06_vector_bytes32_injective (v w : List Bytes) (hv : ∀ x ∈ v, x.length = 32) (hw : ∀ x ∈ w, x.length = 32)
    (hv64 : v.length < 2 ^ 58) (hw64 : w.length < 2 ^ 58)
    (e : encodeVector (fun _ => 33) encodeArray v = encodeVector (fun _ => 33) encodeArray w) : v = w := by
  have key : ∀ u : List Bytes, (∀ x ∈ u, x.length = 32) → u.length < 2 ^ 58 →
      decodeVector (decodeArray 32) (encodeVector (fun _ => 33) encodeArray u ++ []) = .ok (u, []) := by
    intro u hu hl
    apply c06_vector_roundtrip
    · intro x hx rest
      have := c02_array_roundtrip x (by rw [hu x hx]; decide) (by rw [hu x hx]; decide) rest
      rwa [hu x hx] at this
    · intro x _; exact encodeArray_ne_nil x
    · intro x hx; simp [encodeArray, hu x hx]
    · have : ∀ u : List Bytes, (∀ x ∈ u, x.length = 32) → (u.map encodeArray).flatten.length = 33 * u.length := by
        intro u
        induction u with
        | nil => intro _; rfl
        | cons y ys ih =>
          intro h
          rw [List.map_cons, List.flatten_cons, List.length_append, ih (fun x hx => h x (by simp [hx]))]
          simp [encodeArray, h y]
          omega
      rw [this u hu]
      omega
  have h1 := key v hv hv64
  rw [e, key w hw hw64] at h1
  simp at h1
  exact h1.symm

example : decodeVector (decodeArray 2) (encodeVector (fun _ => 3) encodeArray [[1, 2], [3, 4]] ++ [5]) =
    .ok ([[1, 2], [3, 4]], [5]) := by decide

end Silkworm.Properties
