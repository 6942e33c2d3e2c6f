import Verif.Types.LogLemmas
import Verif.Types.TransactionDecode

/-!
# Properties C05 (logs), C18, C63: logs, blooms and receipts
-/

namespace Silkworm.Properties

open Silkworm Silkworm.Rlp

/-- C05: `length(Log)` is the size of the encoding. -/
theorem c05_length_log (l : Log) (hw : l.WF) (h64 : (Spec.rlp (Spec.logItem l)).length < 2 ^ 64) :
    lengthLog l = (encodeLog l).length := by
  obtain ⟨h1, h2⟩ := log_spec hw h64
  rw [h1, h2]

/-- C05 for lists of logs, as used in receipts. -/
theorem c05_length_logs (ls : List Log) (hw : ∀ l ∈ ls, l.WF)
    (h64 : (Spec.rlp (.list (ls.map Spec.logItem))).length < 2 ^ 64) :
    lengthVector lengthLog ls = (encodeVector lengthLog encodeLog ls).length := by
  have gl := rlp_list_length_ge (ls.map Spec.logItem)
  have hl : ∀ l ∈ ls, encodeLog l = Spec.rlp (Spec.logItem l) ∧ lengthLog l = (Spec.rlp (Spec.logItem l)).length := by
    intro l h
    have := rlp_le_rlpItems (f := Spec.logItem) h
    exact log_spec (hw l h) (by omega)
  obtain ⟨k1, k2⟩ := encVec (f := Spec.logItem) (fun l h => (hl l h).1) (fun l h => (hl l h).2) (by omega)
  rw [k1, k2]

/-- A log and a receipt used in the examples. -/
def exLog : Log := ⟨List.replicate 20 1, [List.replicate 32 2, List.replicate 32 3], List.replicate 60 4⟩
/-- See `exLog`. -/
def exReceipt : Receipt := ⟨.eip2930, true, 21000, List.replicate 256 0xab, [exLog, exLog]⟩

theorem exLog_wf : exLog.WF := by
  refine ⟨List.length_replicate, ?_⟩
  intro t h
  simp only [exLog, List.mem_cons, List.not_mem_nil, or_false] at h
  rcases h with h | h <;> subst h <;> exact List.length_replicate

theorem exReceipt_wf : exReceipt.WF := by
  refine ⟨by decide +kernel, List.length_replicate, ?_⟩
  intro l h
  simp only [exReceipt, List.mem_cons, List.not_mem_nil, or_false, or_self] at h
  subst h
  exact exLog_wf

example : lengthLog exLog = 153 ∧ (encodeLog exLog).length = 153 := by decide +kernel

/-! ## C63 -/

/-- C63: the encoding of a receipt is the one of the Yellow Paper and EIP-2718. -/
theorem c63_receipt_spec (r : Receipt) (hw : r.WF) (h64 : (Spec.rlp (Spec.receiptItem r)).length < 2 ^ 64) :
    encodeReceipt r = Spec.receiptBytes r := receipt_spec hw h64

/-- C63: receipts with equal encodings are equal. -/
theorem c63_receipt_injective (a b : Receipt) (ha : a.WF) (hb : b.WF)
    (la : (Spec.rlp (Spec.receiptItem a)).length < 2 ^ 64) (lb : (Spec.rlp (Spec.receiptItem b)).length < 2 ^ 64)
    (e : encodeReceipt a = encodeReceipt b) : a = b := by
  rw [receipt_spec ha la, receipt_spec hb lb] at e
  have fa := fits_of_length _ la
  have fb := fits_of_length _ lb
  -- a list never starts with a type byte
  have hlist : ∀ (r : Receipt) (ty : UInt8) (t : Bytes), (Spec.rlp (Spec.receiptItem r)).length < 2 ^ 64 →
      (ty = 1 ∨ ty = 2) → Spec.rlp (Spec.receiptItem r) ≠ ty :: t := by
    intro r ty t h64 hty h
    have hg := rlp_list_length_ge [Spec.num r.success.toNat, Spec.num r.cumulativeGasUsed, .str r.bloom,
      .list (r.logs.map Spec.logItem)]
    unfold Spec.receiptItem at h64 h
    obtain ⟨c, cs, h1, h2, h3⟩ := list_head_ge (by omega : (Spec.rlpItems [Spec.num r.success.toNat,
      Spec.num r.cumulativeGasUsed, .str r.bloom, .list (r.logs.map Spec.logItem)]).length < 2 ^ 64)
    rw [h1] at h
    injection h with h _
    subst h
    rcases hty with h | h
    · exact h2 h
    · exact h3 h
  have hi : a.type = b.type ∧ Spec.receiptItem a = Spec.receiptItem b := by
    unfold Spec.receiptBytes at e
    cases ta : a.type <;> cases tb : b.type <;> simp only [ta, tb, Spec.typeNumber] at e
    · exact ⟨rfl, Spec.rlp_inj fa fb e⟩
    · exact absurd e (hlist a _ _ la (by decide))
    · exact absurd e (hlist a _ _ la (by decide))
    · exact absurd e.symm (hlist b _ _ lb (by decide))
    · exact ⟨rfl, Spec.rlp_inj fa fb (List.cons.inj e).2⟩
    · exact absurd (List.cons.inj e).1 (by decide)
    · exact absurd e.symm (hlist b _ _ lb (by decide))
    · exact absurd (List.cons.inj e).1 (by decide)
    · exact ⟨rfl, Spec.rlp_inj fa fb (List.cons.inj e).2⟩
  obtain ⟨h1, h2, h3, h4⟩ := receiptItem_inj hi.2
  cases a
  cases b
  simp only at *
  obtain ⟨h0, _⟩ := hi
  subst h0 h1 h2 h3 h4
  rfl

example : encodeReceipt exReceipt = Spec.receiptBytes exReceipt :=
  c63_receipt_spec _ exReceipt_wf (by decide +kernel)

/-! ## C18: blooms -/

/-- C18: a bit of the bloom of a list of logs is set if and only if an address or topic of one of them asks for it. -/
theorem c18_logs_bloom (keccak : Bytes → Bytes) (hk : ∀ x, (keccak x).length = 32) (logs : List Log) :
    (logsBloom keccak logs).length = 256 ∧ ∀ k, k < 2048 →
      (Spec.bloomHas (logsBloom keccak logs) k = true ↔
        ∃ x ∈ Spec.logEntries logs, k ∈ Spec.bloomIndices (keccak x)) := by
  unfold logsBloom
  rw [logsBloom_eq]
  obtain ⟨h1, h2⟩ := m3_fold hk (Spec.logEntries logs) (b := List.replicate 256 0) List.length_replicate
  refine ⟨h1, fun k h => ?_⟩
  rw [h2 k h, bloomHas_zero]
  simp

/-- C18: no false negatives. -/
theorem c18_no_false_negatives (keccak : Bytes → Bytes) (hk : ∀ x, (keccak x).length = 32) (logs : List Log) (l : Log)
    (hl : l ∈ logs) (x : Bytes) (hx : x = l.address ∨ x ∈ l.topics) (k : Nat)
    (h : k ∈ Spec.bloomIndices (keccak x)) : Spec.bloomHas (logsBloom keccak logs) k = true := by
  have hlt : k < 2048 := by
    simp only [Spec.bloomIndices, List.mem_cons, List.not_mem_nil, or_false] at h
    omega
  refine ((c18_logs_bloom keccak hk logs).2 k hlt).mpr ⟨x, ?_, h⟩
  unfold Spec.logEntries
  exact List.mem_flatMap.mpr ⟨l, hl, by rcases hx with hx | hx <;> simp [hx]⟩

/-- C18: the bloom of a concatenation is the join of the blooms. -/
theorem c18_append (keccak : Bytes → Bytes) (hk : ∀ x, (keccak x).length = 32) (a b : List Log) :
    logsBloom keccak (a ++ b) = joinBloom (logsBloom keccak a) (logsBloom keccak b) := by
  obtain ⟨la, ha⟩ := c18_logs_bloom keccak hk a
  obtain ⟨lb, hb⟩ := c18_logs_bloom keccak hk b
  obtain ⟨lab, hab⟩ := c18_logs_bloom keccak hk (a ++ b)
  apply bloom_ext lab (joinBloom_length la lb)
  intro k h
  rw [bloomHas_join la lb h, Bool.eq_iff_iff, Bool.or_eq_true, hab k h, ha k h, hb k h]
  simp only [Spec.logEntries, List.flatMap_append, List.mem_append, or_and_right, exists_or]

/-- C18: join sets exactly the bits set in one of its arguments; it is commutative, associative and idempotent. -/
theorem c18_join (a b c : Bytes) (ha : a.length = 256) (hb : b.length = 256) (hc : c.length = 256) :
    (∀ k, k < 2048 → Spec.bloomHas (joinBloom a b) k = (Spec.bloomHas a k || Spec.bloomHas b k)) ∧
    joinBloom a b = joinBloom b a ∧ joinBloom (joinBloom a b) c = joinBloom a (joinBloom b c) ∧ joinBloom a a = a := by
  have hab := joinBloom_length ha hb
  have hbc := joinBloom_length hb hc
  refine ⟨fun k h => bloomHas_join ha hb h, ?_, ?_, ?_⟩
  · apply bloom_ext hab (joinBloom_length hb ha)
    intro k h
    rw [bloomHas_join ha hb h, bloomHas_join hb ha h, Bool.or_comm]
  · apply bloom_ext (joinBloom_length hab hc) (joinBloom_length ha hbc)
    intro k h
    rw [bloomHas_join hab hc h, bloomHas_join ha hb h, bloomHas_join ha hbc h, bloomHas_join hb hc h, Bool.or_assoc]
  · apply bloom_ext (joinBloom_length ha ha) ha
    intro k h
    rw [bloomHas_join ha ha h, Bool.or_self]

/-- A toy hash: the first six bytes are the first six bytes of the input. -/
def exHash (x : Bytes) : Bytes := (x ++ List.replicate 32 0).take 32

theorem exHash_length (x : Bytes) : (exHash x).length = 32 := by simp [exHash]

example : Spec.bloomHas (logsBloom exHash [exLog]) 0x101 = true ∧ Spec.bloomHas (logsBloom exHash [exLog]) 0x202 = true ∧
    Spec.bloomHas (logsBloom exHash [exLog]) 0x102 = false := by decide +kernel

end Silkworm.Properties
