import Verif.Db.CborLemmas
import Verif.Properties.Receipt

/-!
# C92: logs and receipts as they are stored in the database
-/

namespace Silkworm.Spec

/-- A log: an array of its address, the array of its topics, and its data. -/
def logCbor (l : Log) : CborItem := .array [.bytes l.address, .array (l.topics.map .bytes), .bytes l.data]

def logsCbor (v : List Log) : CborItem := .array (v.map logCbor)

/-- A receipt: an array of its type, null in place of the state after the transaction, its status and the gas used. -/
def receiptCbor (r : Receipt) : CborItem :=
  .array [.uint (match r.type with | .legacy => 0 | .eip2930 => 1 | .eip1559 => 2), .null, .uint (if r.success then 1 else 0),
    .uint r.cumulativeGasUsed]

/-- Null stands for no receipts. -/
def receiptsCbor (v : List Receipt) : CborItem := if v = [] then .null else .array (v.map receiptCbor)

end Silkworm.Spec

namespace Silkworm.Properties

open Silkworm.Spec Silkworm.Cbor

/-- C92: logs are encoded as the CBOR item of their fields, and so are receipts. -/
theorem c92_encoding : (∀ v : List Log, Cbor.encodeLogs v = cbor (logsCbor v)) ∧
    ∀ v : List Receipt, Cbor.encodeReceipts v = cbor (receiptsCbor v) := by
  have hlog : ∀ l, Cbor.encodeLog l = cbor (logCbor l) := by
    intro l
    unfold Cbor.encodeLog logCbor writeArray writeBytes
    simp only [cbor, cborItems, head2, head4, List.length_cons, List.length_nil, List.length_map, List.append_nil,
      List.append_assoc, cborItems_map CborItem.bytes (fun b => head 2 b.length ++ b) (fun b => by rw [cbor, head2])]
  have hrec : ∀ r, Cbor.encodeReceipt r = cbor (receiptCbor r) := by
    intro r
    unfold Cbor.encodeReceipt receiptCbor writeArray writeInt writeNull
    have ht : (Rlp.typeByte r.type).toNat = (match r.type with | .legacy => 0 | .eip2930 => 1 | .eip1559 => 2) := by
      cases r.type <;> rfl
    rw [ht]
    simp only [cbor, cborItems, head0, head4, List.length_cons, List.length_nil, List.append_nil, List.append_assoc]
  constructor
  · intro v
    unfold Cbor.encodeLogs logsCbor writeArray
    rw [cbor, head4, List.length_map, cborItems_map logCbor Cbor.encodeLog hlog]
  · intro v
    unfold Cbor.encodeReceipts receiptsCbor writeNull writeArray
    cases v with
    | nil => rfl
    | cons x xs =>
      rw [if_neg (by simp), if_neg (by simp), cbor, head4, List.length_map, cborItems_map receiptCbor Cbor.encodeReceipt hrec]

/-- C92: logs are determined by their encoding. -/
theorem c92_logs_injective (v w : List Log) (hv : v.length < 2 ^ 64) (hw : w.length < 2 ^ 64)
    (hl : ∀ l ∈ v ++ w, l.address.length < 2 ^ 64 ∧ l.topics.length < 2 ^ 64 ∧ (∀ t ∈ l.topics, t.length < 2 ^ 64) ∧
      l.data.length < 2 ^ 64)
    (h : Cbor.encodeLogs v = Cbor.encodeLogs w) : v = w := by
  rw [c92_encoding.1, c92_encoding.1] at h
  have hf : ∀ l ∈ v ++ w, cborFits (logCbor l) := by
    intro l hm
    obtain ⟨h1, h2, h3, h4⟩ := hl l hm
    simp only [logCbor, cborFits, cborFitsItems, List.length_cons, List.length_nil, List.length_map, and_true]
    refine ⟨by decide, h1, ⟨h2, cborFitsItems_iff.mpr fun x hx => ?_⟩, h4⟩
    obtain ⟨t, ht, rfl⟩ := List.mem_map.mp hx
    exact h3 t ht
  have hfits : ∀ u : List Log, u.length < 2 ^ 64 → (∀ l ∈ u, l ∈ v ++ w) → cborFits (logsCbor u) := by
    intro u hu hm
    simp only [logsCbor, cborFits, List.length_map]
    refine ⟨hu, cborFitsItems_iff.mpr fun x hx => ?_⟩
    obtain ⟨t, ht, rfl⟩ := List.mem_map.mp hx
    exact hf t (hm t ht)
  have he := (cbor_prefix_free _ _ [] [] (hfits v hv fun l hl => List.mem_append_left _ hl)
    (hfits w hw fun l hl => List.mem_append_right _ hl) (by rw [h])).1
  simp only [logsCbor, CborItem.array.injEq] at he
  refine (List.map_inj_right ?_).mp he
  intro a b hab
  simp only [logCbor, CborItem.array.injEq, List.cons.injEq, CborItem.bytes.injEq, and_true] at hab
  obtain ⟨h1, h2, h3⟩ := hab
  have h2 := (List.map_inj_right fun x y (h : CborItem.bytes x = .bytes y) => CborItem.bytes.inj h).mp h2
  cases a; cases b
  simp_all

/-- What of a receipt is stored. -/
def storedPart (r : Receipt) : TxType × Bool × Nat := (r.type, r.success, r.cumulativeGasUsed)

/-- C92: the types, statuses and amounts of gas of receipts are determined by their encoding. -/
theorem c92_receipts_injective (v w : List Receipt) (hv : v.length < 2 ^ 64) (hw : w.length < 2 ^ 64)
    (hg : ∀ r ∈ v ++ w, r.cumulativeGasUsed < 2 ^ 64) (h : Cbor.encodeReceipts v = Cbor.encodeReceipts w) :
    v.map storedPart = w.map storedPart := by
  rw [c92_encoding.2, c92_encoding.2] at h
  have hf : ∀ r ∈ v ++ w, cborFits (receiptCbor r) := by
    intro r hm
    simp only [receiptCbor, cborFits, cborFitsItems, List.length_cons, List.length_nil, and_true, true_and]
    refine ⟨by decide, ?_, ?_, hg r hm⟩
    · cases r.type <;> decide
    · split <;> decide
  have hfits : ∀ u : List Receipt, u.length < 2 ^ 64 → (∀ l ∈ u, l ∈ v ++ w) → cborFits (receiptsCbor u) := by
    intro u hu hm
    unfold receiptsCbor
    split
    · simp only [cborFits]
    simp only [cborFits, List.length_map]
    refine ⟨hu, cborFitsItems_iff.mpr fun x hx => ?_⟩
    obtain ⟨t, ht, rfl⟩ := List.mem_map.mp hx
    exact hf t (hm t ht)
  have he := (cbor_prefix_free _ _ [] [] (hfits v hv fun l hl => List.mem_append_left _ hl)
    (hfits w hw fun l hl => List.mem_append_right _ hl) (by rw [h])).1
  have hmap : v.map receiptCbor = w.map receiptCbor := by
    unfold receiptsCbor at he
    split at he <;> split at he
    · rename_i h1 h2; rw [h1, h2]
    · cases he
    · cases he
    · exact CborItem.array.inj he
  have hstep : ∀ a b : Receipt, receiptCbor a = receiptCbor b → storedPart a = storedPart b := by
    intro a b hab
    simp only [receiptCbor, CborItem.array.injEq, List.cons.injEq, CborItem.uint.injEq, and_true, true_and] at hab
    obtain ⟨h1, h2, h3⟩ := hab
    have h4 : a.type = b.type := by
      cases ha : a.type <;> cases hb : b.type <;> rw [ha, hb] at h1 <;> first | rfl | cases h1
    have h5 : a.success = b.success := by
      cases ha : a.success <;> cases hb : b.success <;> rw [ha, hb] at h2 <;> first | rfl | cases h2
    unfold storedPart
    rw [h3, h4, h5]
  clear h he hfits hf hg hv hw
  induction v generalizing w with
  | nil => cases w with
    | nil => rfl
    | cons y ys => cases hmap
  | cons x xs ih => cases w with
    | nil => cases hmap
    | cons y ys =>
      rw [List.map_cons, List.map_cons] at hmap ⊢
      rw [hstep x y (List.cons.inj hmap).1, ih ys (List.cons.inj hmap).2]

example : Cbor.encodeReceipts [exReceipt] = [0x81, 0x84, 1, 0xf6, 1, 0x19, 0x52, 0x08] := by decide +kernel
example : Cbor.encodeReceipts [] = [0xf6] := by decide +kernel
example : (Cbor.encodeLogs [exLog]).take 3 = [0x81, 0x83, 0x54] := by decide +kernel
example : Cbor.encodeLogs [⟨[1], [], [2]⟩, ⟨[], [[3]], []⟩] =
    [0x82, 0x83, 0x41, 1, 0x80, 0x41, 2, 0x83, 0x40, 0x81, 0x41, 3, 0x40] := by decide +kernel

end Silkworm.Properties
