import Verif.Trie.StateRootLemmas
import Verif.Properties.Trie

/-!
# Property C70: the state root of the memory buffer
-/

namespace Silkworm.Properties

open Silkworm Silkworm.Rlp Silkworm.Trie
open Silkworm.Spec (stateRoot storageRoot trieRoot PrefixFree fromBe)

/-- The buffers that can come about: the empty one, and what the operations make of others. The arguments of calls have
the values their types allow. -/
inductive Reachable : MemoryBuffer → Prop
  | empty : Reachable {}
  | call (b : MemoryBuffer) (c : BufferCall) : Reachable b → CallOk c → Reachable (b.apply c)
  | insertBlock (b : MemoryBuffer) (block : Block) (hash : Bytes) : Reachable b → Reachable (b.insertBlock block hash)
  | canonize (b : MemoryBuffer) (n : Nat) (hash : Bytes) : Reachable b → Reachable (b.canonizeBlock n hash)
  | decanonize (b : MemoryBuffer) (n : Nat) : Reachable b → Reachable (b.decanonizeBlock n)
  | unwind (b : MemoryBuffer) (n : Nat) : Reachable b → Reachable (b.unwindStateChanges n)

theorem reachable_ok {b : MemoryBuffer} (h : Reachable b) : BufferOk b := by
  induction h with
  | empty => exact bufferOk_empty
  | call b c _ hc ih => exact bufferOk_apply ih hc
  | insertBlock b block hash _ ih => exact ⟨ih.keys, ih.accounts, ih.storage, ih.accountChanges, ih.storageChanges⟩
  | canonize b n hash _ ih => exact ⟨ih.keys, ih.accounts, ih.storage, ih.accountChanges, ih.storageChanges⟩
  | decanonize b n _ ih => exact ⟨ih.keys, ih.accounts, ih.storage, ih.accountChanges, ih.storageChanges⟩
  | unwind b n _ ih => exact bufferOk_unwind ih n

/-- The hash function has results of 32 bytes, the constant for the empty trie is the one of this function, and no two
addresses, and no two locations of an account, that are in the buffer have the same hash. -/
structure HashOk (keccak : Bytes → Bytes) (b : MemoryBuffer) : Prop where
  length : ∀ x, (keccak x).length = 32
  empty : keccak [0x80] = kEmptyRoot
  addresses : NoCollision keccak b.accounts
  locations : ∀ e ∈ b.accounts, NoCollision keccak (storageOf b e.1 e.2.incarnation)

/-- C70: for every buffer that can come about, `state_root_hash` is the root of the world state of the Yellow Paper, and no
assertion of the hash builder fails. -/
theorem c70_state_root (keccak : Bytes → Bytes) (b : MemoryBuffer) (hb : Reachable b) (hk : HashOk keccak b) :
    stateRootHash keccak b =
      .ok (stateRoot keccak (b.accounts.map (fun e => (e.1, e.2, storageOf b e.1 e.2.incarnation)))) :=
  have h := reachable_ok hb
  stateRootHash_spec hk.length hk.empty h.keys h.accounts (fun e _ => storageOf_ok h.storage e.1 e.2.incarnation)
    hk.addresses hk.locations

/-- C70: `account_storage_root` is the root of the storage trie. -/
theorem c70_storage_root (keccak : Bytes → Bytes) (b : MemoryBuffer) (hb : Reachable b) (address : Bytes) (incarnation : Nat)
    (hk : ∀ x, (keccak x).length = 32) (h0 : keccak [0x80] = kEmptyRoot)
    (hn : NoCollision keccak (storageOf b address incarnation)) :
    accountStorageRoot keccak b address incarnation = .ok (storageRoot keccak (storageOf b address incarnation)) :=
  accountStorageRoot_spec hk h0 (storageOf_ok (reachable_ok hb).storage address incarnation) hn

theorem perm_of_get? {K V : Type} [DecidableEq K] [DecidableEq V] {m n : AMap K V} (hm : AMap.WF m) (hn : AMap.WF n)
    (h : ∀ k, m.get? k = n.get? k) : m.Perm n := by
  have nd : ∀ {l : AMap K V}, AMap.WF l → l.Nodup := by
    intro l hl
    exact List.Pairwise.imp (fun h h0 => h (by rw [h0])) (List.pairwise_map.mp hl)
  rw [List.perm_ext_iff_of_nodup (nd hm) (nd hn)]
  rintro ⟨k, v⟩
  constructor
  · intro hmem
    exact AMap.mem_of_get? (by rw [← h]; exact AMap.get?_of_mem hm hmem)
  · intro hmem
    exact AMap.mem_of_get? (by rw [h]; exact AMap.get?_of_mem hn hmem)

theorem get?_storageOf (b : MemoryBuffer) (a : Bytes) (n : Nat) (k : Bytes) :
    AMap.get? (storageOf b a n) k = MemoryBuffer.nestedGet? b.storage a n k := by
  unfold storageOf MemoryBuffer.nestedGet?
  cases b.storage.get? a with
  | none => rfl
  | some m1 =>
    cases h : m1.get? n with
    | none => simp only [h, Option.getD_none]; rfl
    | some m2 => simp only [h, Option.getD_some]

/-- What can be read of a slot determines whether it is stored. -/
theorem nestedGet?_of_read {b : MemoryBuffer} (h : BufferOk b) (a : Bytes) (n : Nat) (k : Bytes) :
    MemoryBuffer.nestedGet? b.storage a n k = if b.readStorage a n k = zero32 then none else some (b.readStorage a n k) := by
  have hs := storageOf_ok h.storage a n
  unfold MemoryBuffer.readStorage
  cases he : MemoryBuffer.nestedGet? b.storage a n k with
  | none => rfl
  | some v =>
    rw [← get?_storageOf] at he
    have := hs.nonzero (k, v) (AMap.mem_of_get? he)
    simp only [Option.getD_some]
    rw [if_neg this]

/-- C70: two buffers that give the same answers about accounts, and about the storage of the accounts that exist, have the
same state root, whatever happened to them before. In particular the root does not depend on the order of hash maps. -/
theorem c70_root_of_observable_state (keccak : Bytes → Bytes) (b c : MemoryBuffer) (hb : Reachable b) (hc : Reachable c)
    (hkb : HashOk keccak b) (hkc : HashOk keccak c) (ha : ∀ a, b.readAccount a = c.readAccount a)
    (hs : ∀ a x, b.readAccount a = some x → ∀ k, b.readStorage a x.incarnation k = c.readStorage a x.incarnation k) :
    stateRootHash keccak b = stateRootHash keccak c := by
  have ob := reachable_ok hb
  have oc := reachable_ok hc
  rw [c70_state_root keccak b hb hkb, c70_state_root keccak c hc hkc]
  congr 1
  have hperm : b.accounts.Perm c.accounts := perm_of_get? ob.keys oc.keys ha
  have hroot : ∀ e ∈ b.accounts, storageRoot keccak (storageOf b e.1 e.2.incarnation) =
      storageRoot keccak (storageOf c e.1 e.2.incarnation) := by
    intro e he
    have hb1 := storageOf_ok ob.storage e.1 e.2.incarnation
    have hp : (storageOf b e.1 e.2.incarnation).Perm (storageOf c e.1 e.2.incarnation) := by
      apply perm_of_get? hb1.wf (storageOf_ok oc.storage e.1 e.2.incarnation).wf
      intro k
      rw [get?_storageOf, get?_storageOf, nestedGet?_of_read ob, nestedGet?_of_read oc,
        hs e.1 e.2 (AMap.get?_of_mem ob.keys he) k]
    unfold storageRoot
    apply trieRoot_perm keccak ((hp.filter _).map _)
    apply prefixFree_of_length
    · intro x hx
      obtain ⟨y, _, rfl⟩ := List.mem_map.mp hx
      exact hkb.length _
    · have hf : (storageOf b e.1 e.2.incarnation).filter (fun x => fromBe x.2 ≠ 0) = storageOf b e.1 e.2.incarnation := by
        rw [List.filter_eq_self]
        intro x hx
        rw [fromBe_eq, decide_eq_true_eq]
        exact fun h => hb1.nonzero x hx (beToNat_zero (hb1.length x hx) h)
      rw [hf]
      exact pairwise_keys (keccak := keccak) (fun e => rfl) hb1.wf (hkb.locations e he)
  unfold stateRoot
  simp only [List.map_map, Function.comp_def]
  have e1 : b.accounts.map (fun e => (keccak e.1,
      Spec.rlp (Spec.accountItem e.2 (storageRoot keccak (storageOf b e.1 e.2.incarnation))))) =
      b.accounts.map (fun e => (keccak e.1,
      Spec.rlp (Spec.accountItem e.2 (storageRoot keccak (storageOf c e.1 e.2.incarnation))))) := by
    apply List.map_congr_left
    intro e he
    rw [hroot e he]
  show trieRoot keccak (b.accounts.map _) = trieRoot keccak (c.accounts.map _)
  rw [e1]
  apply trieRoot_perm keccak (hperm.map _)
  apply prefixFree_of_length
  · intro x hx
    obtain ⟨y, _, rfl⟩ := List.mem_map.mp hx
    exact hkb.length _
  · exact pairwise_keys (keccak := keccak) (fun e => rfl) ob.keys hkb.addresses

/-- A hash function for the example: the constant of the code for the empty string's RLP. -/
def toyHash2 (b : Bytes) : Bytes := if b = [0x80] then kEmptyRoot else toyHash b

/-- Two accounts, one of them with two storage slots, one of which was overwritten with zero. -/
def sampleCalls : List BufferCall :=
  [.beginBlock 1,
   .updateAccount (List.replicate 20 1) none (some ⟨1, 10, kEmptyHash, 0⟩),
   .updateAccount (List.replicate 20 2) none (some ⟨0, 7, List.replicate 32 9, 1⟩),
   .updateStorage (List.replicate 20 2) 1 (beFixed 32 5) zero32 (beFixed 32 300),
   .updateStorage (List.replicate 20 2) 1 (beFixed 32 6) zero32 (beFixed 32 1),
   .updateStorage (List.replicate 20 2) 1 (beFixed 32 6) (beFixed 32 1) zero32]

example : stateRootHash toyHash2 (MemoryBuffer.applyAll {} sampleCalls) =
    .ok (stateRoot toyHash2 [(List.replicate 20 1, ⟨1, 10, kEmptyHash, 0⟩, []),
      (List.replicate 20 2, ⟨0, 7, List.replicate 32 9, 1⟩, [(beFixed 32 5, beFixed 32 300)])]) := by decide +kernel

example : stateRootHash toyHash2 {} = .ok kEmptyRoot := by decide +kernel

end Silkworm.Properties
