import Verif.Crypto.Sha256Lemmas
import Verif.Execution.Precompiled

/-!
# C105: SHA-256

`w` is declared inside the loop that uses its contents from the previous iteration (sha-256.c:162-178), so the language leaves
these contents indeterminate. With any contents the hash is wrong; with the contents kept it is SHA-256.
-/

namespace Silkworm.Properties

open Sha256

/-- The array as it is if the compiler keeps it in place; `first` is what it contains at the beginning. -/
def keptArray (first : Word) (i : Nat) (w : List Word) : List Word := if i = 0 then List.replicate 16 first else w

/-- The array as it is if the compiler clears it in each iteration. -/
def clearedArray (_ : Nat) (_ : List Word) : List Word := List.replicate 16 0

def msgAbc : Bytes := [0x61, 0x62, 0x63]

/-- `abcdbcdecdefdefgefghfghighijhijkijkljklmklmnlmnomnopnopq` of FIPS 180-4. -/
def msg56 : Bytes := "abcdbcdecdefdefgefghfghighijhijkijkljklmklmnlmnomnopnopq".toList.map (fun c => UInt8.ofNat c.toNat)

/-- The function computes SHA-256, whatever an array that goes out of scope leaves behind. -/
def C105_statement : Prop :=
  ∀ stale : Nat → List Word → List Word, (∀ i w, (stale i w).length = 16) → ∀ m : Bytes,
    calcSha256 stale m = .ok (Spec.Sha256.sha256 m)

theorem keptArray_kept (x : Word) : Kept (keptArray x) := ⟨fun _ => by simp [keptArray], fun _ _ => by simp [keptArray]⟩

private theorem abc_kept : calcSha256 (keptArray 0) msgAbc =
    .ok [0xba, 0x78, 0x16, 0xbf, 0x8f, 0x01, 0xcf, 0xea, 0x41, 0x41, 0x40, 0xde, 0x5d, 0xae, 0x22, 0x23,
         0xb0, 0x03, 0x61, 0xa3, 0x96, 0x17, 0x7a, 0x9c, 0xb4, 0x10, 0xff, 0x61, 0xf2, 0x00, 0x15, 0xad] := by
  decide +kernel

theorem c105_violated : ¬C105_statement := by
  intro h
  have h1 := h clearedArray (by intro i w; simp [clearedArray]) msgAbc
  rw [← calcSha256_eq (keptArray_kept 0), abc_kept] at h1
  revert h1
  decide +kernel

/-- If the contents of the array survive from one iteration to the next, the result is SHA-256. -/
theorem c105_partial {stale : Nat → List Word → List Word} (h0 : ∀ w, (stale 0 w).length = 16)
    (hk : ∀ i w, 0 < i → stale i w = w) (m : Bytes) : calcSha256 stale m = .ok (Spec.Sha256.sha256 m) :=
  calcSha256_eq ⟨h0, fun i w => hk (i + 1) w (by omega)⟩ m

/-- FIPS 180-4: one block. -/
example : Spec.Sha256.sha256 msgAbc =
    [0xba, 0x78, 0x16, 0xbf, 0x8f, 0x01, 0xcf, 0xea, 0x41, 0x41, 0x40, 0xde, 0x5d, 0xae, 0x22, 0x23,
     0xb0, 0x03, 0x61, 0xa3, 0x96, 0x17, 0x7a, 0x9c, 0xb4, 0x10, 0xff, 0x61, 0xf2, 0x00, 0x15, 0xad] := by
  have := (calcSha256_eq (keptArray_kept 0) msgAbc).symm.trans abc_kept
  exact Outcome.ok.inj this

/-- FIPS 180-4: two blocks. -/
example : Spec.Sha256.sha256 msg56 =
    [0x24, 0x8d, 0x6a, 0x61, 0xd2, 0x06, 0x38, 0xb8, 0xe5, 0xc0, 0x26, 0x93, 0x0c, 0x3e, 0x60, 0x39,
     0xa3, 0x3c, 0xe4, 0x59, 0x64, 0xff, 0x21, 0x67, 0xf6, 0xec, 0xed, 0xd4, 0x19, 0xdb, 0x06, 0xc1] := by
  have h : calcSha256 (keptArray 7) msg56 =
    .ok [0x24, 0x8d, 0x6a, 0x61, 0xd2, 0x06, 0x38, 0xb8, 0xe5, 0xc0, 0x26, 0x93, 0x0c, 0x3e, 0x60, 0x39,
     0xa3, 0x3c, 0xe4, 0x59, 0x64, 0xff, 0x21, 0x67, 0xf6, 0xec, 0xed, 0xd4, 0x19, 0xdb, 0x06, 0xc1] := by decide +kernel
  exact Outcome.ok.inj ((calcSha256_eq (keptArray_kept 7) msg56).symm.trans h)

/-- The loop over the chunks ends, and there are 32 bytes of output, whatever the array contains. -/
theorem c105_total (stale : Nat → List Word → List Word) (m : Bytes) :
    ∃ out, calcSha256 stale m = .ok out ∧ out.length = 32 := by
  obtain ⟨h, e⟩ := chunkLoop_total stale m.length (m.length / 64) m (m.length / 64 + 4)
    [0x6a09e667, 0xbb67ae85, 0x3c6ef372, 0xa54ff53a, 0x510e527f, 0x9b05688c, 0x1f83d9ab, 0x5be0cd19] rfl (by omega)
  rw [calcSha256, initBufState, e]
  exact ⟨_, rfl, rfl⟩

example : ∃ out, calcSha256 clearedArray msgAbc = .ok out ∧ out.length = 32 := c105_total _ _

/-- The constants of the code are the roots the standard demands: `r³ ≤ p · 2^96 < (r + 1)³` for a number `r` that ends with them,
for the primes `p` from 2 to 311. -/
theorem c105_constants : ∀ i < 64, ∃ r, r < 2 ^ 40 ∧ r % 2 ^ 32 = (k.getD i 0).toNat ∧
    r ^ 3 ≤ (Spec.primesBelow 312).getD i 0 * 2 ^ 96 ∧ (Spec.primesBelow 312).getD i 0 * 2 ^ 96 < (r + 1) ^ 3 := by
  have h : ∀ i < 64, Spec.rootFloor 3 40 ((Spec.primesBelow 312).getD i 0 * 2 ^ 96) < 2 ^ 40 ∧
      Spec.rootFloor 3 40 ((Spec.primesBelow 312).getD i 0 * 2 ^ 96) % 2 ^ 32 = (k.getD i 0).toNat ∧
      Spec.rootFloor 3 40 ((Spec.primesBelow 312).getD i 0 * 2 ^ 96) ^ 3 ≤ (Spec.primesBelow 312).getD i 0 * 2 ^ 96 ∧
      (Spec.primesBelow 312).getD i 0 * 2 ^ 96 < (Spec.rootFloor 3 40 ((Spec.primesBelow 312).getD i 0 * 2 ^ 96) + 1) ^ 3 := by
    decide +kernel
  exact fun i hi => ⟨_, h i hi⟩

/-- The contract at address 2, with the hash of this library. -/
theorem c105_contract (c : Precompiled.Crypto) {stale : Nat → List Word → List Word} (h0 : ∀ w, (stale 0 w).length = 16)
    (hk : ∀ i w, 0 < i → stale i w = w) (hc : ∀ m, calcSha256 stale m = .ok (c.sha256 m)) (m : Bytes) :
    Precompiled.run c 2 m = .ok (some (Spec.Sha256.sha256 m)) := by
  have := hc m
  rw [c105_partial h0 hk] at this
  rw [Precompiled.run, Outcome.ok.inj this]

end Silkworm.Properties
