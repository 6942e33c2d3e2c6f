import Verif.Crypto.Ripemd160Lemmas
import Verif.Crypto.Blake2bLemmas
import Verif.Execution.Precompiled

/-!
# C106: RIPEMD-160; C107: the BLAKE2b compression function
-/

namespace Silkworm.Properties

/-! ## C106 -/

/-- The function computes RIPEMD-160. -/
def C106_statement : Prop := ∀ m : Bytes, Ripemd160.calculate m = .ok (Spec.Ripemd160.ripemd160 m)

/-- Messages of less than 2^32 bytes are hashed with RIPEMD-160. The rest of `C106_statement`: longer messages, where the length
that is appended is wrong (`c106_length`, `c106_long`); whether the results can still agree for one of them is not known. -/
theorem c106_partial (m : Bytes) (h : m.length < 2 ^ 32) : Ripemd160.calculate m = .ok (Spec.Ripemd160.ripemd160 m) := by
  rw [Ripemd160.calculate_eq, Nat.mod_eq_of_lt h]
  rfl

/-- "abc", from the article. -/
example : Ripemd160.calculate [0x61, 0x62, 0x63] = .ok [0x8e, 0xb2, 0x08, 0xf7, 0xe0, 0x5d, 0x98, 0x7a, 0x9b, 0x04, 0x4a, 0x8e, 0x98,
    0xc6, 0xb0, 0x87, 0xf1, 0x5a, 0x0b, 0xfc] := by decide +kernel

/-- The empty message. -/
example : Spec.Ripemd160.ripemd160 [] = [0x9c, 0x11, 0x85, 0xa5, 0xc5, 0xe9, 0xfc, 0x54, 0x61, 0x28, 0x08, 0x97, 0x7e, 0xe8, 0xf5,
    0x48, 0xb2, 0x25, 0x8d, 0x31] := by decide +kernel

/-- 62 bytes, whose padding needs another block: A to Z, a to z, 0 to 9, from the article. -/
example : Ripemd160.calculate ("ABCDEFGHIJKLMNOPQRSTUVWXYZabcdefghijklmnopqrstuvwxyz0123456789".toList.map (fun c => UInt8.ofNat c.toNat)) =
    .ok [0xb0, 0xe2, 0x0b, 0x6e, 0x31, 0x16, 0x64, 0x02, 0x86, 0xed, 0x3a, 0x87, 0xa5, 0x71, 0x30, 0x79, 0xb2, 0x1f, 0x51, 0x89] := by
  decide +kernel

/-- For all messages: what is hashed is the message, padded as if its length were reduced modulo 2^32. -/
theorem c106_length (m : Bytes) :
    Ripemd160.calculate m = .ok (Spec.Ripemd160.hashWith (8 * (m.length % 2 ^ 32)) m) := Ripemd160.calculate_eq m

/-- For messages of 2^32 bytes and more this is not the padded message. -/
theorem c106_long (m : Bytes) (h : 2 ^ 32 ≤ m.length) (h2 : m.length < 2 ^ 61) :
    Spec.Ripemd160.padWith (8 * (m.length % 2 ^ 32)) m ≠ Spec.Ripemd160.padWith (8 * m.length) m := by
  intro e
  have e := congrArg Spec.leNat (List.append_cancel_left e)
  rw [Ripemd160.leNat_leBytes, Ripemd160.leNat_leBytes] at e
  omega

example : Spec.Ripemd160.padWith (8 * ((List.replicate (2 ^ 32) (0 : UInt8)).length % 2 ^ 32)) (List.replicate (2 ^ 32) 0) ≠
    Spec.Ripemd160.padWith (8 * (List.replicate (2 ^ 32) (0 : UInt8)).length) (List.replicate (2 ^ 32) 0) :=
  c106_long _ (by rw [List.length_replicate]; exact Nat.le_refl _) (by rw [List.length_replicate]; decide)

/-- The contract at address 3: twelve zeros and the hash. -/
theorem c106_contract (c : Precompiled.Crypto) (hc : ∀ m, Ripemd160.calculate m = .ok (c.ripemd160 m)) (m : Bytes) (h : m.length < 2 ^ 32) :
    Precompiled.run c 3 m = .ok (some (List.replicate 12 0 ++ Spec.Ripemd160.ripemd160 m)) := by
  have := hc m
  rw [c106_partial m h] at this
  rw [Precompiled.run, Outcome.ok.inj this]

/-! ## C107 -/

/-- The compression function is that of RFC 7693 for any number of rounds. -/
theorem c107_compress (h block t : Bytes) (final : Bool) (r : Nat) (h1 : h.length = 64) (h2 : block.length = 128) (h3 : t.length = 16) :
    Blake2b.compressBytes h block t final r = (List.range 8).flatMap (fun i =>
      Spec.leBytes 8 (Spec.Blake2b.F r (Spec.Blake2b.word h) (Spec.Blake2b.word block) (Spec.leNat t) final i).toNat) := by
  have := Blake2b.compressBytes_eq h block t final r (by omega) (by omega) (by omega)
  rwa [List.take_of_length_le (by omega), List.take_of_length_le (by omega), List.take_of_length_le (by omega)] at this

/-- The contract at address 9 is that of EIP-152. -/
theorem c107_contract (c : Precompiled.Crypto) (hc : c.blake2Compress = Blake2b.compressBytes) (input : Bytes) :
    Precompiled.run c 9 input = .ok (Spec.Blake2b.contract input) := by
  rw [Precompiled.run, Precompiled.blake2Run, Spec.Blake2b.contract]
  by_cases hl : input.length = 213
  · rw [if_neg (by omega)]
    dsimp only
    by_cases hf : input.getD 212 0 = 0 ∨ input.getD 212 0 = 1
    · have hb : (input.getD 212 0 != 0) = (input.getD 212 0 == 1) := by
        rcases hf with e | e <;> rw [e] <;> decide
      rw [if_neg (fun hn => hf.elim hn.1 hn.2), if_pos ⟨hl, hf⟩, hc, hb,
        Blake2b.compressBytes_eq _ _ _ _ _ (by rw [List.length_drop]; omega) (by rw [List.length_drop]; omega)
          (by rw [List.length_drop]; omega)]
    · rw [if_pos (by simpa [not_or] using hf), if_neg (fun h => hf h.2)]
  · rw [if_pos hl, if_neg (fun h => hl h.1)]

/-- Input of the test vectors 4 to 7 of EIP-152: the hash of "abc". -/
def blakeInput (rounds final : UInt8) : Bytes :=
  [0, 0, 0, rounds,
   0x48, 0xc9, 0xbd, 0xf2, 0x67, 0xe6, 0x09, 0x6a, 0x3b, 0xa7, 0xca, 0x84, 0x85, 0xae, 0x67, 0xbb, 0x2b, 0xf8, 0x94, 0xfe, 0x72, 0xf3,
   0x6e, 0x3c, 0xf1, 0x36, 0x1d, 0x5f, 0x3a, 0xf5, 0x4f, 0xa5, 0xd1, 0x82, 0xe6, 0xad, 0x7f, 0x52, 0x0e, 0x51, 0x1f, 0x6c, 0x3e, 0x2b,
   0x8c, 0x68, 0x05, 0x9b, 0x6b, 0xbd, 0x41, 0xfb, 0xab, 0xd9, 0x83, 0x1f, 0x79, 0x21, 0x7e, 0x13, 0x19, 0xcd, 0xe0, 0x5b,
   0x61, 0x62, 0x63] ++ List.replicate 125 0 ++ [3] ++ List.replicate 15 0 ++ [final]

/-- Test vector 5 of EIP-152. -/
example : Spec.Blake2b.contract (blakeInput 12 1) = some [0xba, 0x80, 0xa5, 0x3f, 0x98, 0x1c, 0x4d, 0x0d, 0x6a, 0x27, 0x97, 0xb6, 0x9f, 0x12,
    0xf6, 0xe9, 0x4c, 0x21, 0x2f, 0x14, 0x68, 0x5a, 0xc4, 0xb7, 0x4b, 0x12, 0xbb, 0x6f, 0xdb, 0xff, 0xa2, 0xd1, 0x7d, 0x87, 0xc5, 0x39,
    0x2a, 0xab, 0x79, 0x2d, 0xc2, 0x52, 0xd5, 0xde, 0x45, 0x33, 0xcc, 0x95, 0x18, 0xd3, 0x8a, 0xa8, 0xdb, 0xf1, 0x92, 0x5a, 0xb9, 0x23,
    0x86, 0xed, 0xd4, 0x00, 0x99, 0x23] := by decide +kernel

/-- Test vector 6 of EIP-152: not the final block. -/
example : Spec.Blake2b.contract (blakeInput 12 0) = some [0x75, 0xab, 0x69, 0xd3, 0x19, 0x0a, 0x56, 0x2c, 0x51, 0xae, 0xf8, 0xd8, 0x8f, 0x1c,
    0x27, 0x75, 0x87, 0x69, 0x44, 0x40, 0x72, 0x70, 0xc4, 0x2c, 0x98, 0x44, 0x25, 0x2c, 0x26, 0xd2, 0x87, 0x52, 0x98, 0x74, 0x3e, 0x7f,
    0x6d, 0x5e, 0xa2, 0xf2, 0xd3, 0xe8, 0xd2, 0x26, 0x03, 0x9c, 0xd3, 0x1b, 0x4e, 0x42, 0x6a, 0xc4, 0xf2, 0xd3, 0xd6, 0x66, 0xa6, 0x10,
    0xc2, 0x11, 0x6f, 0xde, 0x47, 0x35] := by decide +kernel

/-- Another final flag is refused. -/
example : Spec.Blake2b.contract (blakeInput 12 2) = none := by decide +kernel

end Silkworm.Properties
