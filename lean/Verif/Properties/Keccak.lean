import Verif.Crypto.KeccakLemmas
import Verif.Properties.StateRoot
import Verif.Execution.Evm

/-!
# Property C142: the hash function
-/

namespace Silkworm.Properties

open Silkworm Silkworm.Rlp Silkworm.Trie
open Silkworm.Keccak (keccak256 keccak512)
open Silkworm.Spec (stateRoot)

/-- C142: `keccak256` is Keccak with a capacity of 512 bits and a result of 256 bits, for messages of any length. -/
theorem c142_keccak256 (m : Bytes) : keccak256 m = Spec.Keccak.keccak256 m := Keccak.keccak256_eq m

/-- C142: `keccak512` is Keccak with a capacity of 1024 bits and a result of 512 bits. -/
theorem c142_keccak512 (m : Bytes) : keccak512 m = Spec.Keccak.keccak512 m := Keccak.keccak512_eq m

example : keccak256 [0x61, 0x62, 0x63] = beFixed 32 0x4e03657aea45a94fc7d47ba826c8d667c0d1e6e33a64a036ec44f58fa12d6c45 := by
  decide +kernel

-- one byte less than a block, a block, one byte more
example : ([135, 136, 137].map (fun n => beToNat (keccak256 (List.replicate n 0)) % 2 ^ 32)) =
    ([135, 136, 137].map (fun n => beToNat (Spec.Keccak.keccak256 (List.replicate n 0)) % 2 ^ 32)) ∧
    beToNat (keccak256 (List.replicate 136 0)) = 0x3a5912a7c5faa06ee4fe906253e339467a9ce87d533c65be3c15cb231cdb25f9 := by
  simp only [c142_keccak256, true_and]
  rw [← c142_keccak256]
  decide +kernel

theorem bits_append (a b : Bytes) : Spec.Keccak.bits (a ++ b) = Spec.Keccak.bits a ++ Spec.Keccak.bits b :=
  List.flatMap_append ..

theorem bits_zeros : ∀ n, Spec.Keccak.bits (List.replicate n 0) = List.replicate (8 * n) false
  | 0 => rfl
  | n + 1 => by
    rw [List.replicate_succ', bits_append, bits_zeros n, Nat.mul_succ, ← List.replicate_append_replicate]; rfl

theorem bits_length : ∀ m : Bytes, (Spec.Keccak.bits m).length = 8 * m.length
  | [] => rfl
  | x :: m => by
    rw [show x :: m = [x] ++ m from rfl, bits_append, List.length_append, bits_length m, List.length_append, Nat.mul_add]; rfl

/-- C142: the padding of the specification is a one bit, the least number of zeros and a one bit that make the length a multiple
of the rate. -/
theorem c142_padding (r : Nat) (hr : 0 < r) (m : Bytes) : ∃ k, k < 8 * r ∧
    Spec.Keccak.bits (Spec.Keccak.pad r m) = Spec.Keccak.bits m ++ [true] ++ List.replicate k false ++ [true] ∧
    (Spec.Keccak.pad r m).length % r = 0 := by
  have hlt := Nat.mod_lt m.length hr
  have hm := Nat.div_add_mod m.length r
  unfold Spec.Keccak.pad
  by_cases h : m.length % r = r - 1
  · rw [if_pos h]
    refine ⟨6, by omega, by rw [bits_append, List.append_assoc, List.append_assoc]; rfl, ?_⟩
    rw [List.length_append, List.length_singleton, show m.length + 1 = r * (m.length / r + 1) by rw [Nat.mul_succ]; omega,
      Nat.mul_mod_right]
  · rw [if_neg h]
    refine ⟨7 + 8 * (r - 2 - m.length % r) + 7, by omega, ?_, ?_⟩
    · rw [bits_append, bits_append, bits_append, bits_zeros, ← List.replicate_append_replicate, ← List.replicate_append_replicate]
      simp only [List.append_assoc]
      rfl
    · simp only [List.length_append, List.length_singleton, List.length_replicate]
      rw [show m.length + 1 + (r - 2 - m.length % r) + 1 = r * (m.length / r + 1) by rw [Nat.mul_succ]; omega,
        Nat.mul_mod_right]

example : Spec.Keccak.bits (Spec.Keccak.pad 2 [0x05]) =
    [true, false, true, false, false, false, false, false] ++ [true, false, false, false, false, false, false, true] := by decide

/-- C142: the result has 32 bytes, and the three constants of the code are the hashes they stand for: of no bytes, of the RLP of
the empty list and of the RLP of the empty string. -/
theorem c142_constants : (∀ m, (keccak256 m).length = 32) ∧ keccak256 [] = kEmptyHash ∧ keccak256 (Spec.rlp (.list [])) = kEmptyListHash ∧
    keccak256 (Spec.rlp (.str [])) = kEmptyRoot := by
  refine ⟨fun m => ?_, by decide +kernel, by decide +kernel, by decide +kernel⟩
  rw [c142_keccak256]
  simp [Spec.Keccak.keccak256, Spec.Keccak.sponge]

/-- C142: with the real hash function nothing remains to be assumed about it for the state root (C70) but that what is hashed has
no collisions. -/
theorem c142_state_root (b : MemoryBuffer) (hb : Reachable b) (ha : NoCollision keccak256 b.accounts)
    (hl : ∀ e ∈ b.accounts, NoCollision keccak256 (storageOf b e.1 e.2.incarnation)) :
    stateRootHash keccak256 b =
      .ok (stateRoot Spec.Keccak.keccak256 (b.accounts.map (fun e => (e.1, e.2, storageOf b e.1 e.2.incarnation)))) := by
  have e : Spec.Keccak.keccak256 = keccak256 := (funext c142_keccak256).symm
  rw [e]
  exact c70_state_root keccak256 b hb ⟨c142_constants.1, c142_constants.2.2.2, ha, hl⟩

-- The state root of two accounts, one with storage.
example : (stateRootHash keccak256 (MemoryBuffer.applyAll {} sampleCalls)) =
    .ok (stateRoot keccak256 [(List.replicate 20 1, ⟨1, 10, kEmptyHash, 0⟩, []),
      (List.replicate 20 2, ⟨0, 7, List.replicate 32 9, 1⟩, [(beFixed 32 5, beFixed 32 300)])]) := by decide +kernel

/-- The header of the first block of the main network. -/
def mainnetGenesis : BlockHeader :=
  { ommersHash := kEmptyListHash
    stateRoot := beFixed 32 0xd7f8974fb5ac78d9ac099b9ad5018bedc2ce0a72dad1827a1709da30580f0544
    transactionsRoot := kEmptyRoot
    receiptsRoot := kEmptyRoot
    difficulty := 0x400000000
    gasLimit := 5000
    extraData := beFixed 32 0x11bbe8db4e347b4e8c937c1c8370e4b5ed33adb3db69cbdb7a38e1e50b1b82fa
    nonce := beFixed 8 0x42 }

-- The hash of this block, as everyone knows it.
example : mainnetGenesis.hash keccak256 = beFixed 32 0xd4e56740f876aef8c010b86a40d5f56745a118d0906a34e69aec8c0db1cb8fa3 := by
  decide +kernel

-- The first example of EIP-1014, and the first contract of an account
example : Evm.create2Address keccak256 (List.replicate 20 0) (List.replicate 32 0) (keccak256 [0]) =
    beFixed 20 0x4D1A2e2bB4F88F0250f26Ffff098B0b30B26BF38 := by decide +kernel

example : Evm.createAddress keccak256 (beFixed 20 0x6ac7ea33f8831ea9dcc53393aaa88b25a785dbf0) 0 =
    beFixed 20 0xcd234a471b72ba2f1ccf0a70fcaba648a5eecd8d := by decide +kernel

end Silkworm.Properties
