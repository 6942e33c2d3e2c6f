import Verif.Common.LruLemmas
import Verif.Common.UtilLemmas

/-!
# Properties C57, C58, C59: the common helpers
-/

namespace Silkworm.Properties

open Silkworm

/-! ## C57 -/

/-- C57: no sequence of operations on a fresh cache meets a dangling iterator, and afterwards the cache answers every
question like the abstract cache with the same history and has its size, which never exceeds the limit. -/
theorem c57_lru_refines {K V : Type} [DecidableEq K] (n : Nat) (ops : List (LruCache.Op K V)) :
    ∃ c : LruCache K V, (LruCache.empty n).run ops = .ok c ∧ c.size = (Spec.lruRun n [] ops).length ∧ c.size ≤ n ∧
      ∀ k, ∃ c', c.get k = .ok (Spec.lruValue (Spec.lruRun n [] ops) k, c') := by
  obtain ⟨c, e, i, s, m⟩ := LruCache.run_spec ops (LruCache.inv_empty (K := K) (V := V) n)
  have s' : c.contents = Spec.lruRun n [] ops := s
  have hsz : c.size = c.contents.length := by
    rw [LruCache.size, i.map.length_eq, LruCache.contents, List.length_map, List.length_map]
  refine ⟨c, e, by rw [hsz, s'], ?_, ?_⟩
  · have := i.size
    rw [hsz, LruCache.contents, List.length_map]
    rw [m] at this
    exact this
  · intro k
    obtain ⟨c', h, -⟩ := LruCache.get_spec i k
    exact ⟨c', by rw [h, s']⟩

/-- C57: a stored value is found again as long as fewer than `n` other keys were used since it was stored, whatever
happened before. -/
theorem c57_lru_retains {K V : Type} [DecidableEq K] (n : Nat) (before after : List (LruCache.Op K V)) (k : K) (v : V)
    (keys : List K) (hn : keys.length < n) (hkeys : ∀ op ∈ after, ∀ k', Spec.lruUses k' op → k' = k ∨ k' ∈ keys)
    (hput : ∀ v', .put k v' ∉ after) (hclear : .clear ∉ after) :
    ∃ c c' : LruCache K V, (LruCache.empty n).run (before ++ .put k v :: after) = .ok c ∧ c.get k = .ok (some v, c') := by
  obtain ⟨c, e, i, s, m⟩ := LruCache.run_spec (before ++ .put k v :: after) (LruCache.inv_empty (K := K) (V := V) n)
  obtain ⟨c0, e0, i0, s0, m0⟩ := LruCache.run_spec before (LruCache.inv_empty (K := K) (V := V) n)
  obtain ⟨c', h, -⟩ := LruCache.get_spec i k
  refine ⟨c, c', e, ?_⟩
  rw [h]
  have hrun : c.contents = Spec.lruRun n (Spec.lruStep n c0.contents (.put k v)) after := by
    rw [s, s0]
    simp only [Spec.lruRun, List.foldl_append, List.foldl_cons]
    rfl
  have hd0 := i0.contents_nodup
  have hr : LruCache.Recent k v keys (Spec.lruStep n c0.contents (.put k v)) :=
    LruCache.recent_take ⟨[], _, rfl, by simp⟩ (LruCache.filter_keys_nodup hd0 k v) hn
  obtain ⟨⟨pre, post, hp, -⟩, hd⟩ := LruCache.recent_run (n := n) hn after
    (fun op ho k' hu => List.mem_cons.mpr (hkeys op ho k' hu)) hput hclear hr (LruCache.step_nodup n hd0 _)
  rw [Spec.lruValue, hrun, (LruCache.lookup_iff hd (a := v)).mpr (by rw [hp]; simp)]

/-- C57: after `n` different other keys were stored and the key itself was not used in between, it is gone. -/
theorem c57_lru_evicts {K V : Type} [DecidableEq K] (n : Nat) (before after : List (LruCache.Op K V)) (k : K)
    (hk : ∀ op ∈ after, ¬ Spec.lruUses k op) (ks : List K) (hks : ks.Nodup) (hn : n ≤ ks.length)
    (hput : ∀ x ∈ ks, ∃ v, .put x v ∈ after) :
    ∃ c c' : LruCache K V, (LruCache.empty n).run (before ++ after) = .ok c ∧ c.get k = .ok (none, c') := by
  obtain ⟨c, e, i, s, m⟩ := LruCache.run_spec (before ++ after) (LruCache.inv_empty (K := K) (V := V) n)
  obtain ⟨c0, e0, i0, s0, m0⟩ := LruCache.run_spec before (LruCache.inv_empty (K := K) (V := V) n)
  obtain ⟨c', h, -⟩ := LruCache.get_spec i k
  refine ⟨c, c', e, ?_⟩
  rw [h]
  have hrun : c.contents = Spec.lruRun n c0.contents after := by
    rw [s, s0]
    simp only [Spec.lruRun, List.foldl_append]
    rfl
  have hlen : c0.contents.length ≤ n := by
    have := i0.size
    rw [LruCache.contents, List.length_map]
    rw [m0] at this
    exact this
  obtain ⟨used, h1, h2, -, h4⟩ := LruCache.older_run (n := n) after hk LruCache.older_nil i0.contents_nodup hlen
  rw [Spec.lruValue, hrun, LruCache.older_gone h1 h2 hks hn]
  intro x hx
  obtain ⟨v, hv⟩ := hput x hx
  exact h4 x v hv

-- Capacity 2: after storing 1 and 2 and asking for 1, storing 3 evicts 2.
example : (LruCache.empty 2 : LruCache Nat Nat).run [.put 1 10, .put 2 20, .get 1, .put 3 30] =
    .ok { items := [(2, 3, 30), (0, 1, 10)], map := [(3, 2), (1, 0)], maxSize := 2, next := 3 } := rfl

example : ∃ c c' : LruCache Nat Nat, (LruCache.empty 2).run ([.put 7 70] ++ .put 1 10 :: [.put 2 20, .get 1, .put 2 30]) = .ok c ∧
    c.get 1 = .ok (some 10, c') :=
  c57_lru_retains 2 _ _ 1 10 [2] (by decide) (by
    intro op ho k' hu
    simp only [List.mem_cons, List.not_mem_nil, or_false] at ho
    rcases ho with rfl | rfl | rfl <;> simp_all [Spec.lruUses]) (by simp) (by simp)

example : ∃ c c' : LruCache Nat Nat, (LruCache.empty 2).run ([.put 1 10] ++ [.put 2 20, .get 2, .put 3 30]) = .ok c ∧
    c.get 1 = .ok (none, c') :=
  c57_lru_evicts 2 _ _ 1 (by
    intro op ho
    simp only [List.mem_cons, List.not_mem_nil, or_false] at ho
    rcases ho with rfl | rfl | rfl <;> simp [Spec.lruUses]) [2, 3] (by decide) (by decide) (by
    intro x hx
    simp only [List.mem_cons, List.not_mem_nil, or_false] at hx
    rcases hx with rfl | rfl
    · exact ⟨20, by simp⟩
    · exact ⟨30, by simp⟩)

/-! ## C58 -/

/-- C58: the hexadecimal text of a byte string, alone or behind "0x" or "0X", is read back as the same bytes. -/
theorem c58_hex_roundtrip (b text : Bytes) (h : Spec.HexText text (toHex b)) : fromHex text = some b :=
  (fromHex_iff text b).mpr ⟨toHex b, h, toHex_length b, toHex_number b⟩

/-- C58: a text is accepted exactly if, apart from the prefix, it consists of an even number of hexadecimal digits; the
result has half as many bytes and they represent the same number. -/
theorem c58_hex_accepts (text b : Bytes) : fromHex text = some b ↔
    ∃ digits, Spec.HexText text digits ∧ digits.length = 2 * b.length ∧ Spec.hexNumber digits = some (beToNat b) :=
  fromHex_iff text b

/-- C58: a text with a character that is no digit behind the optional prefix, or with an odd number of digits, is
rejected. -/
theorem c58_hex_rejects (text : Bytes) (h : ∀ digits, Spec.HexText text digits →
    digits.length % 2 = 1 ∨ ∃ ch ∈ digits, Spec.hexDigit ch = none) : fromHex text = none := by
  cases hf : fromHex text with
  | none => rfl
  | some b =>
    obtain ⟨digits, h1, h2, h3⟩ := (fromHex_iff text b).mp hf
    rcases h digits h1 with h4 | ⟨ch, hc, h4⟩
    · omega
    · have : ∀ ds : Bytes, ch ∈ ds → Spec.hexNumber ds = none := by
        intro ds
        induction ds with
        | nil => simp
        | cons d ds ih =>
          intro hm
          simp only [Spec.hexNumber]
          rcases List.mem_cons.mp hm with rfl | hm
          · rw [h4]
          · rw [ih hm]; cases Spec.hexDigit d <;> rfl
      rw [this digits hc] at h3
      cases h3

/-- C58: the printed form has two lower-case digits per byte. -/
theorem c58_hex_lower (b : Bytes) : (toHex b).length = 2 * b.length ∧
    ∀ ch ∈ toHex b, ch ∈ "0123456789abcdef".toList.map (fun c => UInt8.ofNat c.toNat) := by
  refine ⟨toHex_length b, fun ch hc => ?_⟩
  have : "0123456789abcdef".toList.map (fun c => UInt8.ofNat c.toNat) = hexDigits := by decide +kernel
  rw [this]
  exact toHex_lower b ch hc

-- "0X0aFf" is 0a ff; "0x0" has an odd number of digits; "0g" is no number.
example : fromHex [0x30, 0x58, 0x30, 0x61, 0x46, 0x66] = some [0x0a, 0xff] := by decide +kernel
example : fromHex [0x30, 0x78, 0x30] = none := by decide +kernel
example : fromHex [0x30, 0x67] = none := by decide +kernel
example : fromHex (0x30 :: 0x78 :: toHex [0x00, 0x9a, 0xff]) = some [0x00, 0x9a, 0xff] :=
  c58_hex_roundtrip _ _ (Or.inr (Or.inl rfl))

/-! ## C59 -/

/-- C59 for `left_pad`: whenever the view does not point into the buffer, or the buffer need not be moved, the result is
the view's bytes behind as many zeros as the minimum size asks for.

The full claim has no second condition; `c59_left_pad_violated` shows that it is needed. -/
theorem c59_left_pad_partial (view : PadView) (minSize : Nat) (buffer : Buffer) (hv : view.InBounds buffer)
    (hc : (∃ b, view = .external b) ∨ minSize ≤ buffer.capacity) :
    ∃ buffer', leftPad view minSize buffer =
      .ok (List.replicate (minSize - (view.read buffer).length) 0 ++ view.read buffer, buffer') :=
  leftPad_ok view minSize buffer hv hc

/-- C59 is violated by `left_pad`: growing the buffer moves its contents, and a view into the buffer is then read after
its memory was freed. Padding a view of a three-byte buffer to 32 bytes does this. -/
theorem c59_left_pad_violated : ∃ (view : PadView) (minSize : Nat) (buffer : Buffer), view.InBounds buffer ∧ buffer.WF ∧
    leftPad view minSize buffer = .ub :=
  ⟨.inside 0 3, 32, ⟨[1, 2, 3], 15⟩, by simp [PadView.InBounds], by simp [Buffer.WF], rfl⟩

/-- C59 for `right_pad`: for every view, also one into the buffer, the result is the view's bytes followed by as many
zeros as the minimum size asks for. -/
theorem c59_right_pad (view : PadView) (minSize : Nat) (buffer : Buffer) (hv : view.InBounds buffer) :
    ∃ buffer', rightPad view minSize buffer =
      .ok (view.read buffer ++ List.replicate (minSize - (view.read buffer).length) 0, buffer') :=
  rightPad_ok view minSize buffer hv

/-- C59: the padded view represents the same number and has at least the minimum size. -/
theorem c59_left_pad_value_partial (view : PadView) (minSize : Nat) (buffer : Buffer) (hv : view.InBounds buffer)
    (hc : (∃ b, view = .external b) ∨ minSize ≤ buffer.capacity) :
    ∃ out buffer', leftPad view minSize buffer = .ok (out, buffer') ∧ beToNat out = beToNat (view.read buffer) ∧
      out.length = max minSize (view.read buffer).length := by
  obtain ⟨buffer', h⟩ := leftPad_ok view minSize buffer hv hc
  refine ⟨_, buffer', h, beToNat_replicate_zero _ _, ?_⟩
  rw [List.length_append, List.length_replicate]
  omega

/-- C59: `zeroless_view` only drops leading zeros, and drops all of them, so that the number is the same. -/
theorem c59_zeroless_view (h : Bytes) : (∃ k, h = List.replicate k 0 ++ zerolessView h) ∧
    (zerolessView h).head? ≠ some 0 ∧ beToNat (zerolessView h) = beToNat h := by
  obtain ⟨k, h1, h2⟩ := zerolessView_spec h
  refine ⟨⟨k, h1⟩, h2, ?_⟩
  conv => rhs; rw [h1]
  rw [beToNat_replicate_zero]

/-- C59: `to_bytes32` restores a hash from its zeroless view and pads any shorter string without changing the number. -/
theorem c59_to_bytes32 (b : Bytes) (hb : b.length ≤ 32) : (toBytes32 b).length = 32 ∧ beToNat (toBytes32 b) = beToNat b ∧
    (b.length = 32 → toBytes32 (zerolessView b) = b) := by
  have gen : ∀ c : Bytes, c.length ≤ 32 → toBytes32 c = List.replicate (32 - c.length) 0 ++ c := by
    intro c hc
    unfold toBytes32 toArray
    simp only
    rw [Nat.min_eq_left hc, List.take_of_length_le (Nat.le_refl _)]
  refine ⟨?_, ?_, ?_⟩
  · rw [gen b hb, List.length_append, List.length_replicate]; omega
  · rw [gen b hb, beToNat_replicate_zero]
  · intro hl
    obtain ⟨k, h1, -⟩ := zerolessView_spec b
    have hlen := congrArg List.length h1
    rw [List.length_append, List.length_replicate] at hlen
    rw [gen _ (by omega)]
    conv => rhs; rw [h1]
    rw [show 32 - (zerolessView b).length = k by omega]

/-- C59: the same for `to_address` and 20 bytes. -/
theorem c59_to_address (b : Bytes) (hb : b.length ≤ 20) : (toAddress b).length = 20 ∧ beToNat (toAddress b) = beToNat b := by
  have gen : toAddress b = List.replicate (20 - b.length) 0 ++ b := by
    unfold toAddress toArray
    simp only
    rw [Nat.min_eq_left hb, List.take_of_length_le (Nat.le_refl _)]
  rw [gen]
  refine ⟨?_, beToNat_replicate_zero _ _⟩
  rw [List.length_append, List.length_replicate]; omega

-- A view of the middle of the buffer, padded in place.
example : ∃ buffer', leftPad (.inside 1 2) 4 ⟨[9, 1, 2, 9], 15⟩ = .ok ([0, 0, 1, 2], buffer') := ⟨_, rfl⟩
example : ∃ buffer', rightPad (.inside 1 2) 40 ⟨[9, 1, 2, 9], 15⟩ = .ok ([1, 2] ++ List.replicate 38 0, buffer') :=
  c59_right_pad _ _ _ (by simp [PadView.InBounds])
example : zerolessView (List.replicate 31 0 ++ [5]) = [5] ∧ toBytes32 [5] = List.replicate 31 0 ++ [5] := by decide +kernel

end Silkworm.Properties
