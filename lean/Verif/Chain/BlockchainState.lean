import Verif.Chain.BlockchainLemmas
import Verif.State.BufferLemmas
import Verif.Spec.State

/-!
# The state kept by the model of `Blockchain`
-/

namespace Silkworm.Blockchain

open Silkworm.Spec (ChainTo CanonicalChain SameContents RecordsInitial)
open MemoryBuffer (changes storeChanges Recorded)

/-- What is assumed about execution: a block records what was in the buffer, under its number, and the result depends on the
accounts and storage values only. -/
structure ExecOk (execute : MemoryBuffer → Block → Outcome ValidationError (List BufferCall)) : Prop where
  shape : ∀ b x calls, execute b x = .ok calls →
    ∃ L, calls = .beginBlock x.header.number :: L ∧ ∀ c ∈ L, RecordsInitial b c
  congr : ∀ b b' x, SameContents b b' → execute b x = execute b' x

/-- An executed block: the block, its hash and the calls after `begin_block`. -/
structure Frame where
  block : Block
  hash : Bytes
  calls : List BufferCall

theorem sameContents_refl (b : MemoryBuffer) : SameContents b b := ⟨fun _ => rfl, fun _ _ _ => rfl⟩

theorem sameContents_symm {b c : MemoryBuffer} (h : SameContents b c) : SameContents c b :=
  ⟨fun a => (h.1 a).symm, fun a n k => (h.2 a n k).symm⟩

theorem sameContents_trans {a b c : MemoryBuffer} (h : SameContents a b) (k : SameContents b c) : SameContents a c :=
  ⟨fun x => (h.1 x).trans (k.1 x), fun x n l => (h.2 x n l).trans (k.2 x n l)⟩

theorem sameContents_apply {b c : MemoryBuffer} (h : SameContents b c) (call : BufferCall) :
    SameContents (b.apply call) (c.apply call) := by
  cases call with
  | beginBlock n => exact h
  | updateAccountCode _ _ x code => exact h
  | updateAccount a i v =>
    refine ⟨fun x => ?_, fun x n k => ?_⟩
    · show (b.updateAccount a i v).readAccount x = (c.updateAccount a i v).readAccount x
      rw [MemoryBuffer.updateAccount_accounts, MemoryBuffer.updateAccount_accounts, h.1]
    · show (b.updateAccount a i v).readStorage x n k = (c.updateAccount a i v).readStorage x n k
      unfold MemoryBuffer.readStorage
      rw [(MemoryBuffer.updateAccount_storage b a i v).1, (MemoryBuffer.updateAccount_storage c a i v).1]
      exact h.2 x n k
  | updateStorage a n k i v =>
    refine ⟨fun x => h.1 x, fun x m l => ?_⟩
    have e := MemoryBuffer.nestedRead_storeValue b.storage a n k v x m l
    have e' := MemoryBuffer.nestedRead_storeValue c.storage a n k v x m l
    show MemoryBuffer.nestedRead (MemoryBuffer.storeValue b.storage a n k v) x m l =
      MemoryBuffer.nestedRead (MemoryBuffer.storeValue c.storage a n k v) x m l
    rw [e, e']
    have := h.2 x m l
    unfold MemoryBuffer.readStorage at this
    unfold MemoryBuffer.nestedRead
    rw [this]

theorem sameContents_applyAll (L : List BufferCall) {b c : MemoryBuffer} (h : SameContents b c) :
    SameContents (b.applyAll L) (c.applyAll L) := by
  induction L generalizing b c with
  | nil => exact h
  | cons x L ih => exact ih (sameContents_apply h x)

/-- What calls record depends on the calls only. -/
theorem changes_congr (L : List BufferCall) (n : Nat) {b c : MemoryBuffer} (hL : ∀ x ∈ L, ∀ m, x ≠ .beginBlock m)
    (hb : b.blockNumber = n) (hc : c.blockNumber = n) (h1 : b.changes n = c.changes n)
    (h2 : b.storeChanges n = c.storeChanges n) :
    (b.applyAll L).changes n = (c.applyAll L).changes n ∧ (b.applyAll L).storeChanges n = (c.applyAll L).storeChanges n := by
  induction L generalizing b c with
  | nil => exact ⟨h1, h2⟩
  | cons x L ih =>
    have hL' : ∀ y ∈ L, ∀ m, y ≠ .beginBlock m := fun y hy => hL y (List.mem_cons_of_mem _ hy)
    cases x with
    | beginBlock m => exact absurd rfl (hL _ List.mem_cons_self m)
    | updateAccountCode a m y code => exact ih hL' hb hc h1 h2
    | updateAccount a i v =>
      obtain ⟨_, u2, _, u4, u5⟩ := MemoryBuffer.updateAccount_storage b a i v
      obtain ⟨_, w2, _, w4, w5⟩ := MemoryBuffer.updateAccount_storage c a i v
      refine ih (b := b.updateAccount a i v) (c := c.updateAccount a i v) hL' (u4.trans hb) (w4.trans hc) ?_ ?_
      · unfold changes at h1 ⊢
        rw [u5, w5, hb, hc, AMap.get?_set_self, AMap.get?_set_self]
        simp only [Option.getD_some]
        rw [h1]
      · unfold storeChanges at h2 ⊢
        rw [u2, w2]
        exact h2
    | updateStorage a m k i v =>
      refine ih (b := b.updateStorage a m k i v) (c := c.updateStorage a m k i v) hL' hb hc h1 ?_
      unfold storeChanges at h2 ⊢
      unfold MemoryBuffer.updateStorage
      simp only [hb, hc, AMap.get?_set_self, Option.getD_some, h2]

/-- The changes recorded for block `n` by the calls. -/
def recordedBy (n : Nat) (L : List BufferCall) : MemoryBuffer := MemoryBuffer.applyAll {} (.beginBlock n :: L)

theorem changes_recordedBy (b : MemoryBuffer) (n : Nat) (L : List BufferCall) (hL : ∀ x ∈ L, ∀ m, x ≠ .beginBlock m) :
    (b.applyAll (.beginBlock n :: L)).changes n = (recordedBy n L).changes n ∧
    (b.applyAll (.beginBlock n :: L)).storeChanges n = (recordedBy n L).storeChanges n := by
  refine changes_congr (b := b.beginBlock n) (c := ({} : MemoryBuffer).beginBlock n) L n hL rfl rfl ?_ ?_
  · unfold changes MemoryBuffer.beginBlock; simp
  · unfold storeChanges MemoryBuffer.beginBlock; simp

/-- Executions of blocks with consecutive numbers, starting from a buffer. -/
inductive Trace (execute : MemoryBuffer → Block → Outcome ValidationError (List BufferCall)) (start : MemoryBuffer) :
    List Frame → MemoryBuffer → Prop
  | nil : Trace execute start [] start
  | snoc (fs : List Frame) (s : MemoryBuffer) (f : Frame) : Trace execute start fs s →
      f.block.header.number = fs.length + 1 → execute s f.block = .ok (.beginBlock (fs.length + 1) :: f.calls) →
      (∀ c ∈ f.calls, RecordsInitial s c) →
      Trace execute start (fs ++ [f]) (s.applyAll (.beginBlock (fs.length + 1) :: f.calls))

variable {execute : MemoryBuffer → Block → Outcome ValidationError (List BufferCall)} {start : MemoryBuffer}

theorem Trace.snoc_inv {fs : List Frame} {f : Frame} {s' : MemoryBuffer} (t : Trace execute start (fs ++ [f]) s') :
    ∃ s, Trace execute start fs s ∧ f.block.header.number = fs.length + 1 ∧
      execute s f.block = .ok (.beginBlock (fs.length + 1) :: f.calls) ∧ (∀ c ∈ f.calls, RecordsInitial s c) ∧
      s' = s.applyAll (.beginBlock (fs.length + 1) :: f.calls) := by
  generalize hg : fs ++ [f] = gs at t
  cases t with
  | nil => simp at hg
  | snoc gs' s g t h1 h2 h3 =>
    obtain ⟨e1, e2⟩ := List.append_inj' hg rfl
    injection e2 with e2
    subst e1 e2
    exact ⟨s, t, h1, h2, h3, rfl⟩

theorem Trace.unique {fs : List Frame} {s s' : MemoryBuffer} (t : Trace execute start fs s)
    (t' : Trace execute start fs s') : s = s' := by
  induction t generalizing s' with
  | nil =>
    generalize hg : ([] : List Frame) = gs at t'
    cases t' with
    | nil => rfl
    | snoc gs s f => simp at hg
  | snoc fs s f t h1 h2 h3 ih =>
    obtain ⟨s2, t2, _, _, _, rfl⟩ := t'.snoc_inv
    rw [ih t2]

theorem records_plain {b : MemoryBuffer} {L : List BufferCall} (h : ∀ c ∈ L, RecordsInitial b c) :
    ∀ x ∈ L, ∀ m, x ≠ .beginBlock m := by
  rintro x hx m rfl
  exact h _ hx

/-- The buffer holds the state after the trace, and the changes of its blocks. -/
structure Good (b : MemoryBuffer) (fs : List Frame) (s : MemoryBuffer) : Prop where
  contents : SameContents b s
  recorded : ∀ i f, fs[i]? = some f → b.changes (i + 1) = (recordedBy (i + 1) f.calls).changes (i + 1) ∧
    b.storeChanges (i + 1) = (recordedBy (i + 1) f.calls).storeChanges (i + 1)

theorem Good.unwind {fs : List Frame} {f : Frame} {b s' : MemoryBuffer} (t : Trace execute start (fs ++ [f]) s')
    (g : Good b (fs ++ [f]) s') :
    ∃ s, Trace execute start fs s ∧ Good (b.unwindStateChanges (fs.length + 1)) fs s := by
  obtain ⟨s, t1, _, _, h3, rfl⟩ := t.snoc_inv
  refine ⟨s, t1, ?_, ?_⟩
  · have hrec : Recorded (s.applyAll (.beginBlock (fs.length + 1) :: f.calls)) (fs.length + 1) s.readAccount s.readStorage :=
      MemoryBuffer.recorded_applyAll f.calls (MemoryBuffer.recorded_begin s (fs.length + 1)) (fun c hc => by
        have h := h3 c hc
        cases c with
        | beginBlock m => exact h
        | updateAccount a i c => exact h
        | updateAccountCode a n x c => trivial
        | updateStorage a n k i c => exact h)
    have hu := MemoryBuffer.unwind_recorded hrec
    obtain ⟨r1, r2⟩ := g.recorded fs.length f (by simp)
    obtain ⟨q1, q2⟩ := changes_recordedBy s (fs.length + 1) f.calls (records_plain h3)
    have hc := MemoryBuffer.unwind_congr (r1.trans q1.symm) (r2.trans q2.symm) g.contents.1 g.contents.2
    exact ⟨fun a => (hc.1 a).trans (hu.1 a), fun a n k => (hc.2 a n k).trans (hu.2 a n k)⟩
  · intro i f' hf
    have hi : i < fs.length := (List.getElem?_eq_some_iff.mp hf).1
    exact g.recorded i f' (by rw [List.getElem?_append_left hi]; exact hf)

/-- Unwinding the last blocks. -/
theorem Good.unwinds (a k : Nat) {fs : List Frame} {b s : MemoryBuffer} (t : Trace execute start fs s) (g : Good b fs s)
    (hl : fs.length = a + k) :
    ∃ s', Trace execute start (fs.take a) s' ∧
      Good ((List.range' (a + 1) k).reverse.foldl (fun b n => b.unwindStateChanges n) b) (fs.take a) s' := by
  induction k generalizing fs b s with
  | zero =>
    rw [List.take_of_length_le (by omega)]
    exact ⟨s, t, g⟩
  | succ k ih =>
    rw [List.range'_concat, List.reverse_append]
    simp only [List.reverse_cons, List.reverse_nil, List.nil_append, List.singleton_append, List.foldl_cons, Nat.one_mul]
    rcases List.eq_nil_or_concat fs with rfl | ⟨gs, f, rfl⟩
    · simp at hl
    · simp only [List.concat_eq_append] at t g hl ⊢
      rw [List.length_append] at hl
      have hl' : gs.length = a + k := by simp at hl; omega
      obtain ⟨s1, t1, g1⟩ := Good.unwind t g
      rw [hl', show a + k + 1 = a + 1 + k by omega] at g1
      obtain ⟨s2, t2, g2⟩ := ih t1 g1 hl'
      rw [List.take_append_of_le_length (by omega)]
      exact ⟨s2, t2, g2⟩

/-- Executing the next block. -/
theorem Good.exec (he : ExecOk execute) {fs : List Frame} {b s : MemoryBuffer} (t : Trace execute start fs s) (g : Good b fs s)
    {x : Block} (h : Bytes) {calls : List BufferCall} (hn : x.header.number = fs.length + 1) (e : execute b x = .ok calls) :
    ∃ L, Trace execute start (fs ++ [⟨x, h, L⟩]) (s.applyAll calls) ∧ Good (b.applyAll calls) (fs ++ [⟨x, h, L⟩]) (s.applyAll calls) := by
  have e' : execute s x = .ok calls := by rw [← he.congr b s x g.contents]; exact e
  obtain ⟨L, rfl, hL⟩ := he.shape s x calls e'
  rw [hn] at e' ⊢
  refine ⟨L, Trace.snoc fs s ⟨x, h, L⟩ t hn e' hL, sameContents_applyAll _ g.contents, ?_⟩
  intro i f hf
  rcases Nat.lt_trichotomy i fs.length with hi | hi | hi
  · rw [List.getElem?_append_left hi] at hf
    obtain ⟨r1, r2⟩ := g.recorded i f hf
    have o1 := MemoryBuffer.begin_other b (fs.length + 1) (m := i + 1) (by omega)
    have hp : ∀ c ∈ L, MemoryBuffer.Plain c := by
      intro c hc
      have := hL c hc
      cases c with
      | beginBlock m => exact this
      | updateAccount a i c => trivial
      | updateAccountCode a n x c => trivial
      | updateStorage a n k i c => trivial
    have o2 := MemoryBuffer.applyAll_other L (b := b.beginBlock (fs.length + 1)) hp (m := i + 1)
      (show i + 1 ≠ fs.length + 1 by omega)
    exact ⟨(o2.1.trans o1.1).trans r1, (o2.2.trans o1.2).trans r2⟩
  · subst hi
    rw [List.getElem?_append_right (Nat.le_refl _), Nat.sub_self] at hf
    injection hf with hf
    subst hf
    exact changes_recordedBy b _ L (records_plain hL)
  · rw [List.getElem?_eq_none (by rw [List.length_append]; simp; omega)] at hf
    cases hf

variable {env : ChainEnv}

theorem executeBlock_good (he : ExecOk env.execute) {fs : List Frame} {b s : MemoryBuffer}
    (t : Trace env.execute start fs s) (g : Good b fs s) {x : Block} (h : Bytes) (hn : x.header.number = fs.length + 1)
    {check : Bool} {r : MemoryBuffer × Option ValidationError} (e : executeBlock env b x check = .ok r) :
    (∀ err, r.2 = some err → Good r.1 fs s) ∧
    (r.2 = none → ∃ L s', Trace env.execute start (fs ++ [⟨x, h, L⟩]) s' ∧ Good r.1 (fs ++ [⟨x, h, L⟩]) s') := by
  unfold executeBlock at e
  cases hx : env.execute b x with
  | ub => rw [hx] at e; cases e
  | err er =>
    rw [hx] at e
    injection e with e
    subst e
    exact ⟨fun _ _ => g, fun h => by cases h⟩
  | ok calls =>
    rw [hx] at e
    dsimp only at e
    obtain ⟨L, t1, g1⟩ := Good.exec he t g h hn hx
    have okcase : ∀ {r : MemoryBuffer × Option ValidationError}, (b.applyAll calls, none) = r →
        (∀ err, r.2 = some err → Good r.1 fs s) ∧
        (r.2 = none → ∃ L s', Trace env.execute start (fs ++ [⟨x, h, L⟩]) s' ∧ Good r.1 (fs ++ [⟨x, h, L⟩]) s') := by
      rintro r rfl
      exact ⟨fun _ h => (by cases h), fun _ => ⟨L, _, t1, g1⟩⟩
    cases check with
    | false =>
      simp only [Bool.false_eq_true, if_false] at e
      exact okcase (Outcome.ok.inj e)
    | true =>
      simp only [if_true] at e
      unfold checkStateRoot at e
      obtain ⟨root, _, e⟩ := Trie.bind_ok.mp e
      split at e
      · injection e with e
        subst e
        refine ⟨fun _ _ => ?_, fun h => by cases h⟩
        obtain ⟨s2, t2, g2⟩ := Good.unwind t1 g1
        rw [t.unique t2, hn]
        exact g2
      · exact okcase (Outcome.ok.inj e)

/-- Executing a list of blocks with consecutive numbers. -/
theorem executeChain_good (he : ExecOk env.execute) {check : Bool} (C : List (Block × Bytes)) {fs : List Frame}
    {b s : MemoryBuffer} (t : Trace env.execute start fs s) (g : Good b fs s)
    (hC : ∀ i y, C[i]? = some y → y.1.header.number = fs.length + 1 + i)
    {r : MemoryBuffer × Nat × Option ValidationError} (e : executeChain env check b C = .ok r) :
    ∃ gs s', Trace env.execute start (fs ++ gs) s' ∧ Good r.1 (fs ++ gs) s' ∧ gs.length = r.2.1 ∧
      gs.map (fun f => (f.block, f.hash)) = C.take r.2.1 ∧ (r.2.2 = none → r.2.1 = C.length) := by
  induction C generalizing fs b s r with
  | nil =>
    injection e with e
    subst e
    exact ⟨[], s, by simpa using t, by simpa using g, rfl, rfl, fun _ => rfl⟩
  | cons x C ih =>
    unfold executeChain at e
    obtain ⟨⟨b', o⟩, e1, e⟩ := Trie.bind_ok.mp e
    have hn : x.1.header.number = fs.length + 1 := hC 0 x rfl
    obtain ⟨k1, k2⟩ := executeBlock_good he t g x.2 hn e1
    cases o with
    | some er =>
      injection e with e
      subst e
      exact ⟨[], s, by simpa using t, by simpa using k1 er rfl, rfl, rfl, fun h => by cases h⟩
    | none =>
      obtain ⟨L, s', t1, g1⟩ := k2 rfl
      obtain ⟨q, e2, e⟩ := Trie.bind_ok.mp e
      injection e with e
      subst e
      dsimp only at e2 g1
      obtain ⟨gs, s2, t2, g2, l2, m2, n2⟩ := ih t1 g1 (fun i y hy => by
        rw [hC (i + 1) y hy, List.length_append]
        simp only [List.length_cons, List.length_nil]
        omega) e2
      refine ⟨⟨x.1, x.2, L⟩ :: gs, s2, ?_, ?_, ?_, ?_, ?_⟩
      · simpa using t2
      · simpa using g2
      · simp [l2]
      · simp [m2]
      · intro h
        rw [List.length_cons, n2 h]

/-- The stored canonical blocks are those of the frames. -/
def Stored (b : MemoryBuffer) (fs : List Frame) : Prop :=
  (∃ h, b.canonicalHashes = h :: fs.map (·.hash)) ∧
    ∀ i f, fs[i]? = some f → storedBlock b (i + 1) f.hash = .ok f.block

theorem storedBlock_same {b c : MemoryBuffer} (h : Same b c) (n : Nat) (x : Bytes) : storedBlock c n x = storedBlock b n x := by
  unfold storedBlock MemoryBuffer.readBody MemoryBuffer.readHeader
  rw [h.1, h.2.1]

theorem Stored.same {b c : MemoryBuffer} {fs : List Frame} (s : Stored b fs) (h : Same b c) : Stored c fs :=
  ⟨by rw [h.2.2.2]; exact s.1, fun i f hf => by rw [storedBlock_same h]; exact s.2 i f hf⟩

/-- Executing the canonical blocks again succeeds and leads to the same state. -/
theorem reExecuteLoop_good (he : ExecOk env.execute) (a k : Nat) {fs : List Frame} {b s sa : MemoryBuffer}
    (t : Trace env.execute start fs s) (ta : Trace env.execute start (fs.take a) sa) (ga : Good b (fs.take a) sa)
    (hl : fs.length = a + k) (st : Stored b fs) :
    ∃ b', reExecuteLoop env b (List.range' (a + 1) k) = .ok b' ∧ Good b' fs s := by
  induction k generalizing a b sa with
  | zero =>
    rw [List.take_of_length_le (by omega)] at ta ga
    rw [t.unique ta]
    exact ⟨b, rfl, ga⟩
  | succ k ih =>
    have hlt : a < fs.length := by omega
    obtain ⟨f, hf⟩ : ∃ f, fs[a]? = some f := ⟨fs[a], List.getElem?_eq_getElem hlt⟩
    have htake : fs.take (a + 1) = fs.take a ++ [f] := by
      rw [List.take_add_one, hf]; rfl
    have hlen : (fs.take a).length = a := by rw [List.length_take]; omega
    -- the trace of the longer prefix
    have pre : ∀ j (gs : List Frame) (u : MemoryBuffer), Trace env.execute start gs u → ∃ v, Trace env.execute start (gs.take j) v := by
      intro j gs u tu
      induction tu with
      | nil => exact ⟨start, by rw [List.take_nil]; exact .nil⟩
      | snoc gs u g tu h1 h2 h3 ih =>
        by_cases hj : j ≤ gs.length
        · rw [List.take_append_of_le_length hj]; exact ih
        · rw [List.take_of_length_le (by rw [List.length_append]; simp; omega)]
          exact ⟨_, Trace.snoc gs u g tu h1 h2 h3⟩
    obtain ⟨s1, t1⟩ := pre (a + 1) fs s t
    rw [htake] at t1
    obtain ⟨s0, t0, hn, hex, hrec, rfl⟩ := t1.snoc_inv
    rw [hlen] at hn hex
    have : s0 = sa := t0.unique ta
    subst this
    obtain ⟨hh, hcan⟩ := st.1
    have hch : b.canonicalHash (a + 1) = some f.hash := by
      unfold MemoryBuffer.canonicalHash
      rw [hcan, List.getElem?_cons_succ, List.getElem?_map, hf]
      rfl
    have hsb := st.2 a f hf
    have hexb : env.execute b f.block = .ok (.beginBlock (a + 1) :: f.calls) := by
      rw [he.congr b s0 _ ga.contents]; exact hex
    have step : reExecuteBlock env b (a + 1) = .ok (b.applyAll (.beginBlock (a + 1) :: f.calls)) := by
      unfold reExecuteBlock
      rw [hch]
      dsimp only
      rw [hsb]
      show (executeBlock env b f.block false).bind _ = _
      unfold executeBlock
      rw [hexb]
      rfl
    obtain ⟨L, t2, g2⟩ := Good.exec he ta ga f.hash (by rw [hlen]; exact hn) hexb
    have hLeq : L = f.calls := by
      obtain ⟨s3, t3, _, h3, _, _⟩ := t2.snoc_inv
      rw [t3.unique ta, hlen] at h3
      have := h3.symm.trans hex
      injection this with this
      injection this
    have hfr : (⟨f.block, f.hash, L⟩ : Frame) = f := by rw [hLeq]
    rw [hfr, ← htake] at t2 g2
    have sm : Same b (b.applyAll (.beginBlock (a + 1) :: f.calls)) := same_applyAll _ b
    obtain ⟨b', e1, e2⟩ := ih (a + 1) t2 g2 (by omega) (st.same sm)
    refine ⟨b', ?_, e2⟩
    rw [List.range'_succ]
    unfold reExecuteLoop
    rw [step]
    exact e1

/-- Back to the canonical state from a branch. -/
theorem restore_good (he : ExecOk env.execute) (a : Nat) {fs gs : List Frame} {b s s' : MemoryBuffer}
    (t : Trace env.execute start fs s) (t' : Trace env.execute start (fs.take a ++ gs) s') (g' : Good b (fs.take a ++ gs) s')
    (hl : a ≤ fs.length) (st : Stored b fs) :
    ∃ b', restore env b a gs.length fs.length = .ok b' ∧ Good b' fs s := by
  have hta : (fs.take a).length = a := by rw [List.length_take]; omega
  obtain ⟨sa, ta, ga⟩ := Good.unwinds a gs.length t' g' (by rw [List.length_append, hta])
  rw [List.take_append_of_le_length (by omega), List.take_of_length_le (l := fs.take a) (by omega)] at ta ga
  have hun : unwindLast b a (a + gs.length) =
      .ok ((List.range' (a + 1) gs.length).reverse.foldl (fun b n => b.unwindStateChanges n) b) := by
    unfold unwindLast
    rw [if_neg (by omega), Nat.add_sub_cancel_left]
  obtain ⟨b', e1, e2⟩ := reExecuteLoop_good he a (fs.length - a) t ta ga (by omega) (st.same (same_unwinds _ b))
  refine ⟨b', ?_, e2⟩
  unfold restore
  rw [hun]
  show reExecute env _ a fs.length = _
  unfold reExecute
  rw [if_neg (by omega)]
  exact e1

theorem chainBack_stored {b : MemoryBuffer} (count n : Nat) (h : Bytes) {L : List (Block × Bytes)}
    (e : chainBack b count n h = .ok L) : ∀ y ∈ L, ∃ m, storedBlock b m y.2 = .ok y.1 := by
  induction count generalizing n h L with
  | zero => injection e with e; subst e; intro y hy; cases hy
  | succ count ih =>
    unfold chainBack at e
    obtain ⟨x, e1, e⟩ := Trie.bind_ok.mp e
    obtain ⟨rest, e2, e⟩ := Trie.bind_ok.mp e
    injection e with e
    subst e
    intro y hy
    rcases List.mem_append.mp hy with hy | hy
    · exact ih _ _ e2 y hy
    · rw [List.mem_singleton.mp hy]
      exact ⟨n, e1⟩

theorem Link.numbers {H : BlockHeader → Bytes} {A : List BlockHeader} {p q : Bytes} {k : Nat} {L : List (Block × Bytes)}
    (l : Link H A p k L q) : ∀ i y, L[i]? = some y → y.1.header.number = k + 1 + i ∧ y.2 = H y.1.header := by
  induction l with
  | nil => intro i y h; cases h
  | snoc L q x _ hx hp hn ih =>
    intro i y h
    rcases Nat.lt_trichotomy i L.length with hi | hi | hi
    · rw [List.getElem?_append_left hi] at h
      exact ih i y h
    · rw [List.getElem?_append_right (by omega), hi, Nat.sub_self] at h
      injection h with h
      subst h
      exact ⟨by dsimp only; omega, rfl⟩
    · rw [List.getElem?_eq_none (by rw [List.length_append]; simp; omega)] at h
      cases h

/-- The buffer holds the state of the canonical chain. -/
def Kept (env : ChainEnv) (start b : MemoryBuffer) : Prop :=
  ∃ fs s, Trace env.execute start fs s ∧ Good b fs s ∧ Stored b fs

theorem storedBlock_insert {b : MemoryBuffer} {x : Block} {h : Bytes} {n : Nat} {k : Bytes}
    (hne : ¬ (n = x.header.number ∧ k = h)) : storedBlock (b.insertBlock x h) n k = storedBlock b n k := by
  have e1 : (b.insertBlock x h).readHeader n k = b.readHeader n k := by
    show MemoryBuffer.indexGet? (MemoryBuffer.indexSet (MemoryBuffer.grow b.headers _) _ _ _) n k = _
    rw [indexGet?_set_grow, if_neg hne]
    rfl
  have e2 : (b.insertBlock x h).readBody n k = b.readBody n k := by
    show MemoryBuffer.indexGet? (MemoryBuffer.indexSet (MemoryBuffer.grow b.bodies _) _ _ _) n k = _
    rw [indexGet?_set_grow, if_neg hne]
    rfl
  unfold storedBlock
  rw [e1, e2]

theorem storedBlock_insert_self (b : MemoryBuffer) (x : Block) (h : Bytes) :
    storedBlock (b.insertBlock x h) x.header.number h = .ok x := by
  have e1 : (b.insertBlock x h).readHeader x.header.number h = some x.header := by
    show MemoryBuffer.indexGet? (MemoryBuffer.indexSet (MemoryBuffer.grow b.headers _) _ _ _) _ h = _
    rw [indexGet?_set_grow, if_pos ⟨rfl, rfl⟩]
  have e2 : (b.insertBlock x h).readBody x.header.number h = some x.toBlockBody := by
    show MemoryBuffer.indexGet? (MemoryBuffer.indexSet (MemoryBuffer.grow b.bodies _) _ _ _) _ h = _
    rw [indexGet?_set_grow, if_pos ⟨rfl, rfl⟩]
  unfold storedBlock
  rw [e1, e2]

theorem Good.fields {b c : MemoryBuffer} {fs : List Frame} {s : MemoryBuffer} (g : Good b fs s)
    (h1 : c.accounts = b.accounts) (h2 : c.storage = b.storage) (h3 : c.accountChanges = b.accountChanges)
    (h4 : c.storageChanges = b.storageChanges) : Good c fs s := by
  refine ⟨⟨fun a => ?_, fun a n k => ?_⟩, fun i f hf => ?_⟩
  · unfold MemoryBuffer.readAccount; rw [h1]; exact g.contents.1 a
  · unfold MemoryBuffer.readStorage; rw [h2]; exact g.contents.2 a n k
  · unfold MemoryBuffer.changes MemoryBuffer.storeChanges
    rw [h3, h4]
    exact g.recorded i f hf

/-- The parts about accounts and storage. -/
def SameState (b c : MemoryBuffer) : Prop :=
  c.accounts = b.accounts ∧ c.storage = b.storage ∧ c.accountChanges = b.accountChanges ∧ c.storageChanges = b.storageChanges

theorem canonizeChain_state (b : MemoryBuffer) (a t : Nat) (C : List (Block × Bytes)) :
    SameState b (canonizeChain b a t C) := by
  have h1 : ∀ (l : List Nat) (b : MemoryBuffer), SameState b (l.foldl (fun b i => b.decanonizeBlock i) b) := by
    intro l
    induction l with
    | nil => exact fun b => ⟨rfl, rfl, rfl, rfl⟩
    | cons n l ih => exact fun b => ih (b.decanonizeBlock n)
  have h2 : ∀ (l : List (Block × Bytes)) (b : MemoryBuffer),
      SameState b (l.foldl (fun b x => b.canonizeBlock x.1.header.number x.2) b) := by
    intro l
    induction l with
    | nil => exact fun b => ⟨rfl, rfl, rfl, rfl⟩
    | cons n l ih => exact fun b => ih (b.canonizeBlock n.1.header.number n.2)
  unfold canonizeChain
  have k1 := h1 (List.range' (a + 1) (t - a)).reverse b
  have k2 := h2 C ((List.range' (a + 1) (t - a)).reverse.foldl (fun b i => b.decanonizeBlock i) b)
  exact ⟨k2.1.trans k1.1, k2.2.1.trans k1.2.1, k2.2.2.1.trans k1.2.2.1, k2.2.2.2.trans k1.2.2.2⟩

set_option maxHeartbeats 1000000 in
/-- Each insertion that returns keeps the state of the canonical chain. -/
theorem process_kept (he : ExecOk env.execute) {g : BlockHeader} {A : List BlockHeader} {c c' : Blockchain} {x : Block}
    {check : Bool} {r : InsertResult} {p : BlockHeader} (i : Inv (·.hash env.keccak) g A c.state)
    (hA : ∀ y ∈ A, y.number < 2 ^ 64 - 1) (hp : p ∈ A) (hn : x.header.number = p.number + 1)
    (hph : x.header.parentHash = p.hash env.keccak) (hk : Kept env start c.state)
    (e : process env c x (x.header.hash env.keccak) check = .ok (c', r)) (hr : r ≠ .lengthError) :
    Kept env start c'.state := by
  obtain ⟨fs, s, t, gd, st⟩ := hk
  obtain ⟨h0, hcan0⟩ := st.1
  unfold process at e
  obtain ⟨a, ea, e⟩ := Trie.bind_ok.mp e
  obtain ⟨b, eb, e⟩ := Trie.bind_ok.mp e
  have hb := same_unwindLast eb
  have hpn := hA p hp
  have hlenc : c.state.canonicalHashes.length = fs.length + 1 := by rw [hcan0]; simp
  have hcur : c.state.currentCanonicalBlock = fs.length := by
    obtain ⟨z, hz, D, z1, _⟩ := i.heavy
    have := hA z hz
    unfold MemoryBuffer.currentCanonicalBlock
    rw [hlenc]
    rw [hlenc] at z1
    omega
  dsimp only at e eb hb
  rw [hcur] at e eb hb
  rw [hn, sub64_succ p.number (by omega)] at e
  unfold canonicalAncestor at ea
  by_cases hcan : c.state.canonicalHash x.header.number = some (x.header.hash env.keccak)
  · rw [if_pos hcan] at ea
    injection ea with ea
    rw [if_pos (by omega)] at e
    injection e with e
    injection e with e1 e2
    exact absurd e2.symm hr
  · rw [if_neg hcan] at ea
    have hpar : c.state.readHeader (sub64 x.header.number 1) x.header.parentHash = some p := by
      rw [hn, sub64_succ p.number (by omega)]
      exact (i.headers _ _ _).mpr ⟨hp, rfl, hph⟩
    rw [hpar] at ea
    dsimp only at ea
    rw [hph] at ea
    obtain ⟨ha, q, hq, hlink⟩ := ancestor_link i hA _ hp ea
    rw [if_neg (show ¬ p.number < a by omega)] at e
    obtain ⟨L, eL, e⟩ := Trie.bind_ok.mp e
    obtain ⟨⟨b2, k, o⟩, ex, e⟩ := Trie.bind_ok.mp e
    have hex := same_executeChain _ ex
    dsimp only at hex
    have hs2 : Same c.state b2 := hb.1.trans hex
    have eL' : chainBack c.state (p.number - a) p.number (p.hash env.keccak) = .ok L := by
      rw [← eL, hph]
      have : ∀ k n h, chainBack c.state k n h = chainBack b k n h := by
        intro k
        induction k with
        | zero => intro n h; rfl
        | succ k ih =>
          intro n h
          unfold chainBack
          rw [storedBlock_same hb.1]
          simp only [ih]
      exact this _ _ _
    obtain ⟨l1, l2⟩ := hlink L eL'
    have hafs : a ≤ fs.length := hb.2
    have hta : (fs.take a).length = a := by rw [List.length_take]; omega
    -- the state at the ancestor
    obtain ⟨sa, ta, ga⟩ := Good.unwinds a (fs.length - a) t gd (by omega)
    have hbe : b = (List.range' (a + 1) (fs.length - a)).reverse.foldl (fun b n => b.unwindStateChanges n) c.state := by
      unfold unwindLast at eb
      rw [if_neg (by omega)] at eb
      exact (Outcome.ok.inj eb).symm
    rw [← hbe] at ga
    have hlk : Link (·.hash env.keccak) (x.header :: A) q a (L ++ [(x, x.header.hash env.keccak)])
        (x.header.hash env.keccak) :=
      Link.snoc (H := (·.hash env.keccak)) L _ x (Link.mono (fun y hy => List.mem_cons_of_mem _ hy) l1) List.mem_cons_self
        hph (by rw [l2]; omega)
    have hnum := Link.numbers hlk
    obtain ⟨gs, s2, t2, g2, gl, gm, gn⟩ := executeChain_good he (L ++ [(x, x.header.hash env.keccak)]) ta ga
      (fun i y hy => by rw [(hnum i y hy).1, hta]) ex
    dsimp only at g2 gl gm gn
    unfold conclude at e
    cases o with
    | some err =>
      obtain ⟨b3, e3, e⟩ := Trie.bind_ok.mp e
      injection e with e
      injection e with e4 e5
      subst e4 e5
      obtain ⟨b4, e6, g6⟩ := restore_good he a t t2 g2 hafs (st.same hs2)
      dsimp only at e3
      rw [← gl] at e3
      rw [e6] at e3
      obtain rfl := Outcome.ok.inj e3
      exact ⟨fs, s, t, g6, st.same (hs2.trans (same_restore e6))⟩
    | none =>
      dsimp only at e
      obtain ⟨D', eD, e⟩ := Trie.bind_ok.mp e
      have hst3 : SameState b2 (b2.insertBlock x (x.header.hash env.keccak)) := ⟨rfl, rfl, rfl, rfl⟩
      have hcan3 : (b2.insertBlock x (x.header.hash env.keccak)).canonicalHashes = c.state.canonicalHashes := hs2.2.2.2
      have hsb : ∀ n k, ¬ (n = x.header.number ∧ k = x.header.hash env.keccak) →
          storedBlock (b2.insertBlock x (x.header.hash env.keccak)) n k = storedBlock c.state n k := by
        intro n k hne
        rw [storedBlock_insert hne, storedBlock_same hs2]
      have hsx := storedBlock_insert_self b2 x (x.header.hash env.keccak)
      have g3 : Good (b2.insertBlock x (x.header.hash env.keccak)) (fs.take a ++ gs) s2 :=
        g2.fields hst3.1 hst3.2.1 hst3.2.2.1 hst3.2.2.2
      have st3 : Stored (b2.insertBlock x (x.header.hash env.keccak)) fs := by
        refine ⟨by rw [hcan3]; exact st.1, fun j f hf => ?_⟩
        rw [hsb]
        · exact st.2 j f hf
        · rintro ⟨h1, h2⟩
          apply hcan
          unfold MemoryBuffer.canonicalHash
          rw [hcan0, ← h1, List.getElem?_cons_succ, List.getElem?_map, hf, ← h2]
          rfl
      generalize b2.insertBlock x (x.header.hash env.keccak) = b3 at *
      by_cases hgt : optionGreater (b3.totalDifficulty x.header.number (x.header.hash env.keccak)) D' = true
      · rw [if_pos hgt] at e
        injection e with e
        injection e with e4 e5
        subst e4 e5
        have hkl := gn rfl
        have hCl : (L ++ [(x, x.header.hash env.keccak)]).length = p.number - a + 1 := by
          rw [List.length_append, l2]; rfl
        rw [hkl, List.take_length] at gm
        have hdec := decanonize_range (fs.length - a) a b3 (by rw [hcan3, hlenc]; omega)
        have htl : (b3.canonicalHashes.take (a + 1)).length = a + 1 := by
          rw [List.length_take, hcan3, hlenc]; omega
        have hcanon : (canonizeChain b3 a fs.length (L ++ [(x, x.header.hash env.keccak)])).canonicalHashes =
            b3.canonicalHashes.take (a + 1) ++ (L ++ [(x, x.header.hash env.keccak)]).map (·.2) := by
          unfold canonizeChain
          dsimp only
          rw [canonize_link hlk _ (by rw [hdec]; exact htl), hdec]
        have hdf := decanonize_hashes (List.range' (a + 1) (fs.length - a)).reverse b3
        have hcf := canonize_fields (L ++ [(x, x.header.hash env.keccak)])
          ((List.range' (a + 1) (fs.length - a)).reverse.foldl (fun b i => b.decanonizeBlock i) b3)
        have hss := canonizeChain_state b3 a fs.length (L ++ [(x, x.header.hash env.keccak)])
        have hsb4 : ∀ n k, storedBlock (canonizeChain b3 a fs.length (L ++ [(x, x.header.hash env.keccak)])) n k =
            storedBlock b3 n k := by
          intro n k
          unfold storedBlock MemoryBuffer.readBody MemoryBuffer.readHeader canonizeChain
          dsimp only
          rw [hcf.1, hcf.2.1, hdf.1, hdf.2.1]
        refine ⟨fs.take a ++ gs, s2, t2, g3.fields hss.1 hss.2.1 hss.2.2.1 hss.2.2.2, ⟨h0, ?_⟩, ?_⟩
        · show (canonizeChain b3 a fs.length (L ++ [(x, x.header.hash env.keccak)])).canonicalHashes = _
          rw [hcanon, hcan3, hcan0, List.take_succ_cons, ← gm]
          simp [List.map_take]
        · intro j f hf
          rw [hsb4]
          rcases Nat.lt_or_ge j a with hj | hj
          · rw [List.getElem?_append_left (by omega), List.getElem?_take_of_lt hj] at hf
            rw [hsb _ _ (fun h => by omega)]
            exact st.2 j f hf
          · rw [List.getElem?_append_right (by omega), hta] at hf
            have hy : (L ++ [(x, x.header.hash env.keccak)])[j - a]? = some (f.block, f.hash) := by
              rw [← gm, List.getElem?_map, hf]; rfl
            obtain ⟨m1, m2⟩ := hnum _ _ hy
            dsimp only at m1 m2
            rcases Nat.lt_or_ge (j - a) L.length with hl | hl
            · rw [List.getElem?_append_left hl] at hy
              rw [hsb _ _ (fun h => by omega)]
              obtain ⟨m, hm⟩ := chainBack_stored _ _ _ eL' _ (List.mem_of_getElem? hy)
              have hmn : m = f.block.header.number := ((i.headers _ _ _).mp (storedBlock_ok hm)).2.1
              rw [show j + 1 = m by omega]
              exact hm
            · have hjl : j - a = L.length := by
                have : j - a < (L ++ [(x, x.header.hash env.keccak)]).length := (List.getElem?_eq_some_iff.mp hy).1
                rw [List.length_append] at this
                simp at this
                omega
              rw [List.getElem?_append_right (by omega), hjl, Nat.sub_self] at hy
              have hy' := Option.some.inj hy
              have y1 : x = f.block := congrArg Prod.fst hy'
              have y2 : x.header.hash env.keccak = f.hash := congrArg Prod.snd hy'
              rw [← y1, ← y2, show j + 1 = x.header.number by omega]
              exact hsx
      · rw [if_neg hgt] at e
        obtain ⟨b4, e4, e⟩ := Trie.bind_ok.mp e
        injection e with e
        injection e with e5 e6
        subst e5 e6
        obtain ⟨b5, e7, g7⟩ := restore_good he a t t2 g3 hafs st3
        rw [← gl, e7] at e4
        obtain rfl := Outcome.ok.inj e4
        exact ⟨fs, s, t, g7, st3.same (same_restore e7)⟩

theorem insertBlock_kept (he : ExecOk env.execute) {g : BlockHeader} {A : List BlockHeader} {c c' : Blockchain} {x : Block}
    {check : Bool} {r : InsertResult} (i : Inv (·.hash env.keccak) g A c.state)
    (hA : ∀ y ∈ A, y.number < 2 ^ 64 - 1) (hx : x.header.number < 2 ^ 64 - 1) (hk : Kept env start c.state)
    (e : insertBlock env c x check = .ok (c', r)) (hr : r ≠ .lengthError) : Kept env start c'.state := by
  have triv : ∀ err, (Outcome.ok (c, InsertResult.invalid err) : Outcome Empty _) = .ok (c', r) → Kept env start c'.state := by
    intro err e
    injection e with e
    injection e with e1 e2
    subst e1
    exact hk
  unfold insertBlock at e
  cases hv : preValidateBlock env.keccak env.listRoot env.sealOk x c.state.headerStore env.config with
  | ub => rw [hv] at e; cases e
  | err er => rw [hv] at e; exact triv er e
  | ok u =>
    rw [hv] at e
    dsimp only at e
    cases hbad : c.badBlocks.get? (x.header.hash env.keccak) with
    | some er => rw [hbad] at e; exact triv er e
    | none =>
      rw [hbad] at e
      dsimp only at e
      unfold preValidateBlock at hv
      obtain ⟨_, hv1, _⟩ := Outcome.bind_eq_ok.mp hv
      obtain ⟨p, hp⟩ := validateBlockHeader_parent hv1
      obtain ⟨q1, q2, q3⟩ := (i.headers _ _ _).mp hp
      have hpn := hA p q1
      have hnum : x.header.number = p.number + 1 := by
        rcases Nat.eq_zero_or_pos x.header.number with h0 | h0
        · rw [h0] at q2
          have : sub64 0 1 = 2 ^ 64 - 1 := by decide
          omega
        · obtain ⟨m, hm⟩ : ∃ m, x.header.number = m + 1 := ⟨x.header.number - 1, by omega⟩
          rw [hm, sub64_succ m (by omega)] at q2
          omega
      exact process_kept (x := recoverSenders env x) he i hA q1 hnum q3 hk e hr

end Silkworm.Blockchain
