import Verif.Tools.DbToolLemmas

/-!
# Walks over a table and the tool that looks after a database (C133 to C137)
-/

namespace Silkworm.Properties

open Silkworm.Spec Silkworm.Tools Silkworm.Db

/-! ## C133: each record is visited -/

/-- **C133** (partly; the full claim is that `for_each` is called with each record from the cursor on, `∀ func c s, forEach func c s =
visit func (recordsFrom c) s`, and `for_count` with the first `k` of them). `for_each` calls the function as often as there are records,
but each time with the first of them. -/
theorem c133_each_partial {σ : Type} (func : WalkFunc σ) (c : WalkCursor) (s : σ) :
    forEach func c s = visit func ((recordsFrom c).map fun _ => c.here) s ∧
      (NeverRefuses func → (forEach func c s).1 = (recordsFrom c).length) ∧
      (Blind func → forEach func c s = visit func (recordsFrom c) s) ∧
      ((∀ e ∈ c.after, e = c.here) → forEach func c s = visit func (recordsFrom c) s) := by
  refine ⟨forEach_eq func c s, ?_, ?_, ?_⟩
  · intro h
    rw [forEach_eq, visit_count h, List.length_map]
  · intro h
    rw [forEach_eq, visit_blind h]
  · intro h
    rw [forEach_eq]
    congr 1
    conv => rhs; rw [← List.map_id (recordsFrom c)]
    apply List.map_congr_left
    intro e he
    unfold recordsFrom at he
    split at he
    · cases he
    · rcases List.mem_cons.mp he with rfl | he
      · rfl
      · exact (h e he).symm

/-- A function that counts. -/
def exCounter : WalkFunc Nat := fun n _ => (true, n + 1)

/-- Counting three records. -/
example : forEach exCounter { here := ([1], []), after := [([2], []), ([3], [])] } 0 = (3, 3) := by decide

/-- A function that gathers keys. -/
def exGather : WalkFunc (List Bytes) := fun ks e => (true, ks ++ [e.1])

/-- **C133** does not hold for records that differ: the first is seen twice, the second never. -/
theorem c133_each_violated :
    ∃ (func : WalkFunc (List Bytes)) (c : WalkCursor), (visit func (recordsFrom c) []).2 = [[1], [2]] ∧
      (forEach func c []).2 = [[1], [1]] :=
  ⟨exGather, { here := ([1], []), after := [([2], [])] }, by decide, by decide⟩

/-- **C133**, counting (partly, as above): a function that refuses nothing is called, each time with the first record, until both all
records are passed and the number of calls is `k` modulo 2^64. -/
theorem c133_count_partial {σ : Type} {func : WalkFunc σ} (hf : NeverRefuses func) (k : Nat) (hk : k < 2 ^ 64) (c : WalkCursor)
    (hc : c.ended = true → c.after = []) (s u : σ) (n : Nat) :
    ForCount func c.here k c s n u ↔
      FirstFrom (recordsFrom c).length k n ∧ u = (visit func (List.replicate n c.here) s).2 := by
  constructor
  · intro h
    exact forCount_first hf h hk hc
  · rintro ⟨h1, rfl⟩
    exact forCount_ends hf n hk hc h1

/-- As many calls as there are records, when that is what was asked for. -/
example : ForCount exCounter ([1], []) 2 { here := ([1], []), after := [([2], [])] } 0 2 2 :=
  (c133_count_partial (func := exCounter) (fun _ _ => rfl) 2 (by decide) { here := ([1], []), after := [([2], [])] }
    (fun h => by cases h) 0 2 2).mpr ⟨⟨⟨by decide, by decide⟩, fun m h _ => h⟩, rfl⟩

/-- **C133** does not hold for a count above the number of records: the function is called that often all the same. -/
theorem c133_more_violated {σ : Type} {func : WalkFunc σ} (hf : NeverRefuses func) (c : WalkCursor)
    (hc : c.ended = true → c.after = []) (s : σ) (k : Nat) (hk : k < 2 ^ 64) (h : (recordsFrom c).length < k) :
    (visit func ((recordsFrom c).take k) s).1 < k ∧ ∃ u, ForCount func c.here k c s k u := by
  constructor
  · rw [visit_count hf, List.length_take]
    omega
  · refine ⟨_, (c133_count_partial hf k hk c hc s _ k).mpr ⟨⟨⟨by omega, Nat.mod_eq_of_lt hk⟩, ?_⟩, rfl⟩⟩
    intro m _ hm
    rw [← hm]
    exact Nat.mod_le _ _

/-- One record, five calls. -/
example : ∃ u, ForCount exCounter ([1], []) 5 { here := ([1], []), after := [] } 0 5 u :=
  (c133_more_violated (func := exCounter) (fun _ _ => rfl) { here := ([1], []), after := [] } (fun h => by cases h) 0 5 (by decide)
    (by decide)).2

/-- **C133** does not hold for a count below the number of records: there are at least 2^64 calls. -/
theorem c133_fewer_violated {σ : Type} {func : WalkFunc σ} (hf : NeverRefuses func) (c : WalkCursor)
    (hc : c.ended = true → c.after = []) (s u : σ) (k n : Nat) (hk : k < 2 ^ 64) (h : k < (recordsFrom c).length)
    (hn : ForCount func c.here k c s n u) : (visit func ((recordsFrom c).take k) s).1 = k ∧ 2 ^ 64 ≤ n := by
  constructor
  · rw [visit_count hf, List.length_take]
    omega
  · obtain ⟨⟨⟨h1, h2⟩, _⟩, _⟩ := (c133_count_partial hf k hk c hc s u n).mp hn
    by_contra hlt
    rw [Nat.mod_eq_of_lt (by omega)] at h2
    omega

/-- One call asked for, two records: 2^64 and one. -/
example : ∃ u, ForCount exCounter ([1], []) 1 { here := ([1], []), after := [([2], [])] } 0 (2 ^ 64 + 1) u :=
  ⟨_, (c133_count_partial (func := exCounter) (fun _ _ => rfl) 1 (by decide) { here := ([1], []), after := [([2], [])] }
    (fun h => by cases h) 0 _ _).mpr ⟨⟨⟨by simp [recordsFrom], by decide⟩, fun m h1 h2 => by
      simp only [recordsFrom, Bool.false_eq_true, if_false, List.length_cons, List.length_nil] at h1; omega⟩, rfl⟩⟩

/-! ## C134: the numbers that are reported -/

/-- **C134** (partly; the full claim is `FreeReported pageSize (r :: rs) (getFreeInfo pageSize free)`). What is reported of the list of
free pages is right when its entries are all alike, in particular when there is one; otherwise the first is reported for each. -/
theorem c134_free_partial (pageSize : Nat) (r : FreeRecord) (rs : List FreeRecord) (free : Table)
    (h : List.Forall₂ FreeRecord.Stored (r :: rs) free) :
    FreeReported pageSize (List.replicate (rs.length + 1) r) (getFreeInfo pageSize free) ∧
      ((∀ x ∈ rs, x = r) → FreeReported pageSize (r :: rs) (getFreeInfo pageSize free)) := by
  have h1 := getFreeInfo_eq pageSize h
  refine ⟨h1, fun h2 => ?_⟩
  rw [List.replicate_succ, ← List.eq_replicate_iff.mpr ⟨rfl, h2⟩] at h1
  exact h1

/-- One entry: transaction 7, three pages. -/
example : getFreeInfo 4096 [([7, 0, 0, 0, 0, 0, 0, 0], [3, 0, 0, 0, 20, 0, 0, 0, 19, 0, 0, 0, 2, 0, 0, 0])] =
    { pages := 3, size := 12288, entries := [⟨7, 3, 12288⟩] } := by decide

/-- An empty list of free pages. -/
theorem c134_free_none (pageSize : Nat) : FreeReported pageSize [] (getFreeInfo pageSize []) := ⟨rfl, by simp [getFreeInfo], rfl⟩

/-- **C134** does not hold: one page and five pages are reported as two. -/
theorem c134_free_violated :
    ∃ (rs : List FreeRecord) (free : Table), List.Forall₂ FreeRecord.Stored rs free ∧ (rs.map (·.pages)).sum = 6 ∧
      (getFreeInfo 4096 free).pages = 2 ∧ ¬ FreeReported 4096 rs (getFreeInfo 4096 free) := by
  refine ⟨[⟨7, 1⟩, ⟨8, 5⟩], [(le 8 7, le 4 1), (le 8 8, le 4 5)], ?_, rfl, by decide, ?_⟩
  · exact .cons ⟨by decide, by decide, rfl, [], by simp⟩ (.cons ⟨by decide, by decide, rfl, [], by simp⟩ .nil)
  · rintro ⟨h, _⟩
    revert h
    decide

/-- **C134**, scanning: for every table the sizes are the sums of those of its keys and of its values, and as many ticks are printed
as the bar is wide; the difference in the number of ticks never wraps. -/
theorem c134_scan (t : Table) :
    scanTable t = some ((t.map fun e => e.1.length).sum, (t.map fun e => e.2.length).sum, 50) := scanTable_eq t

/-- Two entries. -/
example : scanTable [([1, 2], [3]), ([4], [])] = some (3, 1, 50) := by
  rw [c134_scan]
  rfl

/-! ## C135: copying a database -/

/-- **C135** (partly; the full claim is that an exit status of 0 means `Copied`, and that the status is 0 when the target has none of the
tables). The only table to be copied, when it has entries and is not in the target: it is copied as it is. -/
theorem c135_single_partial (o : CopyOptions) (pre post target : List NamedTable) (t : NamedTable) (hpre : ∀ x ∈ pre, ¬ Wanted o x)
    (hpost : ∀ x ∈ post, ¬ Wanted o x) (hw : Wanted o t) (hs : CopySource (pre ++ t :: post)) (hne : t.entries ≠ [])
    (ha : ∀ i ∈ target, i.name ≠ t.name) : doCopy o (pre ++ t :: post) target = (0, target ++ [t]) := by
  have hm : t ∈ pre ++ t :: post := by simp
  rw [doCopy_one hpre hpost (copyTable_absent hw hne (hs.keys t hm) (hs.ordered t hm) ha ha 0)]

/-- A table with two entries. -/
def exTableA : NamedTable := { name := [0x41], flags := 0, entries := [([1], [10]), ([2], [20])] }

/-- A table with several values of a key. -/
def exTableB : NamedTable := { name := [0x42], flags := 4, entries := [([1], [10]), ([1], [11])] }

/-- A table without entries. -/
def exTableC : NamedTable := { name := [0x43], flags := 0, entries := [] }

/-- Only the second table. -/
example : doCopy { tables := [[0x42]] } [exTableA, exTableB] [exTableC] = (0, [exTableC, exTableB]) := by decide

/-- **C135** (partly, as above): after a table that was not in the target, unless a commit was due with its very last entry, the next
table to be copied makes the command fail; the tables from there on are not copied. -/
theorem c135_next_partial (o : CopyOptions) (pre post target : List NamedTable) (t : NamedTable) (hpre : ∀ x ∈ pre, ¬ Wanted o x)
    (hpost : ∃ x ∈ post, Needed o target x) (hw : Wanted o t) (hs : CopySource (pre ++ t :: post)) (hne : t.entries ≠ [])
    (hn : (target.map (·.name)).Nodup) (ha : ∀ i ∈ target, i.name ≠ t.name) (hu : uncommitted o.commitSize t.entries 0 ≠ 0) :
    doCopy o (pre ++ t :: post) target = (-1, target ++ [t]) := by
  have hm : t ∈ pre ++ t :: post := by simp
  have h : copyLoop o target (pre ++ t :: post) { committed := target, pending := some target } =
      (true, { committed := target ++ [t], pending := none, written := uncommitted o.commitSize t.entries 0 }) := by
    rw [copyLoop_unwanted hpre, copyLoop, copyTable_absent hw hne (hs.keys t hm) (hs.ordered t hm) ha ha 0, if_neg hu]
    exact copyLoop_stopped hn rfl hpost
  rw [doCopy_of (by simp) h]
  rfl

/-- Two tables, of which one is copied. -/
example : doCopy {} [exTableA, exTableB] [] = (-1, [exTableA]) := by decide

/-- **C135** (partly, as above): when there is nothing but empty tables to copy, the command succeeds, and the target is as it was. -/
theorem c135_empty_partial (o : CopyOptions) (source target : List NamedTable) (hne : source ≠ [])
    (h : ∀ t ∈ source, Wanted o t → t.entries = []) : doCopy o source target = (0, target) := by
  obtain ⟨q, hq⟩ := copyLoop_empty (info := target) target source target h
  rw [doCopy_of hne hq]
  rfl

/-- An empty table is not there afterwards. -/
example : doCopy {} [exTableC] [] = (0, []) := by decide

/-- Each name once, no empty keys, in order. -/
theorem exCopySource : CopySource [exTableA, exTableB] where
  names := by decide
  keys := by decide
  ordered := by
    intro t ht
    rcases List.mem_cons.mp ht with rfl | ht
    · have : isMulti exTableA.flags = false := by decide
      unfold TableOrdered
      rw [this]
      unfold Spec.Ordered exTableA
      decide
    · rcases List.mem_cons.mp ht with rfl | ht
      · have : isMulti exTableB.flags = true := by decide
        unfold TableOrdered
        rw [this]
        unfold MultiOrdered exTableB
        decide
      · cases ht

/-- **C135** does not hold: two tables with entries cannot be copied to an empty database at once. -/
theorem c135_copy_violated :
    ∃ (o : CopyOptions) (source : List NamedTable), CopySource source ∧ (∀ t ∈ source, Wanted o t ∧ t.entries ≠ []) ∧
      (doCopy o source []).1 = -1 ∧ ¬ Copied o source [] (doCopy o source []).2 := by
  refine ⟨{}, [exTableA, exTableB], exCopySource, ?_, by decide, ?_⟩
  · intro t ht
    refine ⟨⟨Or.inl rfl, by simp, by simp⟩, ?_⟩
    rcases List.mem_cons.mp ht with rfl | ht
    · decide
    · rcases List.mem_cons.mp ht with rfl | ht
      · decide
      · cases ht
  · rintro ⟨h, _⟩
    have := h exTableB (by simp) ⟨Or.inl rfl, by simp, by simp⟩ (by simp)
    revert this
    decide

/-- **C135** does not hold: the command says it succeeded, and an empty table was not created. -/
theorem c135_status_violated :
    ∃ (o : CopyOptions) (source : List NamedTable), CopySource source ∧ (doCopy o source []).1 = 0 ∧
      ¬ Copied o source [] (doCopy o source []).2 := by
  refine ⟨{}, [exTableC], ⟨by decide, by decide, ?_⟩, by decide, ?_⟩
  · intro t ht
    rcases List.mem_cons.mp ht with rfl | ht
    · have : isMulti exTableC.flags = false := by decide
      unfold TableOrdered
      rw [this]
      exact List.Pairwise.nil
    · cases ht
  · rintro ⟨h, _⟩
    have := h exTableC (by simp) ⟨Or.inl rfl, by simp, by simp⟩ (by simp)
    revert this
    decide

/-- **C135** does not hold for a database to be created: the command fails whatever there is, and creates nothing. -/
theorem c135_create_violated (o : CopyOptions) (source : List NamedTable) (file : Option (List NamedTable)) :
    copyCommand o true source file = (-1, file) := by
  cases file <;> rfl

/-- Without a file. -/
example : copyCommand {} true [exTableA] none = (-1, none) := rfl

/-- Into a database that is there. -/
example : copyCommand {} false [exTableA] (some []) = (0, some [exTableA]) := by decide

/-- **C135**, merging: with `--upsert` the only table to be copied is merged into that of the target: with one value per key, the
value of the source if there is one, and otherwise that of the target; with several, those of both. Other tables are as they were. -/
theorem c135_merge (o : CopyOptions) (pre post before after : List NamedTable) (t i : NamedTable) (hpre : ∀ x ∈ pre, ¬ Wanted o x)
    (hpost : ∀ x ∈ post, ¬ Wanted o x) (hw : Wanted o t) (hup : o.upsert = true) (hs : CopySource (pre ++ t :: post))
    (hne : t.entries ≠ []) (hi : i.name = t.name) (hfl : t.flags = i.flags) (hn : ((before ++ i :: after).map (·.name)).Nodup) :
    ∃ entries, doCopy o (pre ++ t :: post) (before ++ i :: after) = (0, before ++ { i with entries := entries } :: after) ∧
      (isMulti t.flags = false → ∀ k, Table.find entries k = (Table.find t.entries k).or (Table.find i.entries k)) ∧
      (isMulti t.flags = true → ∀ e, e ∈ entries ↔ e ∈ t.entries ∨ e ∈ i.entries) := by
  have hm : t ∈ pre ++ t :: post := by simp
  refine ⟨putAll true t.flags t.entries i.entries, ?_, fun h => putAll_find h (hs.ordered t hm) _, fun h => putAll_mem h _ _⟩
  rw [doCopy_one hpre hpost (copyTable_merge hw hup hne (hs.keys t hm) hi hfl hn)]

/-- A value replaced, one kept and one added. -/
example : doCopy { upsert := true } [exTableA] [{ name := [0x41], flags := 0, entries := [([0], [5]), ([1], [6])] }, exTableC] =
    (0, [{ name := [0x41], flags := 0, entries := [([0], [5]), ([1], [10]), ([2], [20])] }, exTableC]) := by decide

/-! ## C136: compacting a database -/

/-- **C136**: without `--replace`, the compacted database is in the working directory, and every other file is as it was. -/
theorem c136_compact (compacted : Bytes → Bytes) (nobak : Bool) (src bak tgt content : Bytes) (fs : Files) (hs : fs src = some content)
    (ht : fs tgt = none) :
    (doCompact compacted false nobak src bak tgt fs).1 = 0 ∧
      (doCompact compacted false nobak src bak tgt fs).2 tgt = some (compacted content) ∧
      ∀ p, p ≠ tgt → (doCompact compacted false nobak src bak tgt fs).2 p = fs p := by
  have h : doCompact compacted false nobak src bak tgt fs = (0, fs.put tgt (some (compacted content))) := by
    unfold doCompact
    rw [ht, hs]
    rfl
  rw [h]
  refine ⟨rfl, by simp [Files.put], fun p hp => by simp [Files.put, hp]⟩

/-- A directory with a data file. -/
def exFiles : Files := fun p => if p = [1] then some [5, 5] else none

example : (doCompact (fun c => c.take 1) false false [1] [2] [3] exFiles).2 [3] = some [5] ∧
    (doCompact (fun c => c.take 1) false false [1] [2] [3] exFiles).2 [1] = some [5, 5] := by decide

/-- **C136** (partly; the full claim is that with `--replace` the status is 0, the compacted database is in the place of the original,
and this is in the backup unless `--nobak`). With `--replace` the command fails; the compacted database stays in the working directory,
there is no database in the place of the original, which is in the backup unless `--nobak`. -/
theorem c136_replace_partial (compacted : Bytes → Bytes) (nobak : Bool) (src bak tgt content : Bytes) (fs : Files)
    (hs : fs src = some content) (ht : fs tgt = none) (hsb : src ≠ bak) (hst : src ≠ tgt) (hbt : bak ≠ tgt) :
    (doCompact compacted true nobak src bak tgt fs).1 = -1 ∧
      (doCompact compacted true nobak src bak tgt fs).2 tgt = some (compacted content) ∧
      (doCompact compacted true nobak src bak tgt fs).2 src = none ∧
      (doCompact compacted true nobak src bak tgt fs).2 bak = (if nobak then fs bak else some content) ∧
      ∀ p, p ≠ src → p ≠ bak → p ≠ tgt → (doCompact compacted true nobak src bak tgt fs).2 p = fs p := by
  have h : doCompact compacted true nobak src bak tgt fs = replaceFile nobak src bak tgt (fs.put tgt (some (compacted content))) := by
    unfold doCompact
    rw [ht, hs]
    rfl
  rw [h]
  cases nobak
  · rw [replaceFile_backup hsb (show (fs.put tgt (some (compacted content))) src = some content by simp [Files.put, hst, hs])]
    refine ⟨rfl, ?_, ?_, ?_, ?_⟩
    · simp [Files.put, hbt.symm, hst.symm]
    · simp [Files.put, hsb]
    · simp [Files.put]
    · intro p h1 h2 h3; simp [Files.put, h1, h2, h3]
  · rw [replaceFile_nobak (show (fs.put tgt (some (compacted content))) src = some content by simp [Files.put, hst, hs])]
    refine ⟨rfl, ?_, ?_, ?_, ?_⟩
    · simp [Files.put, hst.symm]
    · simp [Files.put]
    · simp [Files.put, hbt, hsb.symm]
    · intro p h1 h2 h3; simp [Files.put, h1, h3]

/-- **C136** does not hold: with `--replace --nobak` the original is in none of the files. -/
theorem c136_replace_violated :
    ∃ (compacted : Bytes → Bytes) (fs : Files), fs [1] = some [5, 5] ∧ fs [3] = none ∧
      (doCompact compacted true true [1] [2] [3] fs).1 = -1 ∧ (doCompact compacted true true [1] [2] [3] fs).2 [1] = none ∧
      ∀ p, (doCompact compacted true true [1] [2] [3] fs).2 p ≠ some [5, 5] := by
  refine ⟨fun c => c.take 1, exFiles, by decide, by decide, by decide, by decide, ?_⟩
  obtain ⟨_, h2, h3, h4, h5⟩ := c136_replace_partial (fun c => c.take 1) true [1] [2] [3] [5, 5] exFiles (by decide) (by decide)
    (by decide) (by decide) (by decide)
  intro p
  by_cases p1 : p = [1]
  · rw [p1, h3]; simp
  · by_cases p2 : p = [2]
    · rw [p2, h4]; decide
    · by_cases p3 : p = [3]
      · rw [p3, h2]; decide
      · rw [h5 p p1 p2 p3]
        unfold exFiles
        rw [if_neg p1]
        simp

/-! ## C137: emptying tables -/

/-- **C137**: with `--yes` the tables named are emptied, or dropped, and the others are as they were. -/
theorem c137_yes (drop : Bool) (names input : List Bytes) (db : List NamedTable) (h : (db.map (·.name)).Nodup) :
    clearLoop drop true names input db = some (Emptied drop names db) := clearLoop_yes drop names input db h

/-- One of two tables, and one that is not there. -/
example : clearLoop false true [[0x41], [0x44]] [] [exTableA, exTableB] =
    some [{ exTableA with entries := [] }, exTableB] := by decide

/-- **C137**: when each question is answered, after any words that are no answer, exactly the tables for which the answer is yes are
emptied or dropped. -/
theorem c137_answers (drop : Bool) (rest : List Bytes) (qs : List Question) (db : List NamedTable) (h : (db.map (·.name)).Nodup)
    (hq : (qs.map (·.name)).Nodup) (ha : ∀ q ∈ qs, q.Asked drop db) :
    clearLoop drop false (qs.map (·.name)) ((qs.flatMap fun q => q.unclear ++ [q.answer]) ++ rest) db =
      some (Emptied drop ((qs.filter fun q => decide (Affirmed q.answer)).map (·.name)) db) :=
  clearLoop_answers drop rest qs db h hq ha

/-- `what Y n`. -/
example : clearLoop false false [[0x41], [0x42]] [[0x77, 0x68, 0x61, 0x74], [0x59], [0x6e]] [exTableA, exTableB] =
    some [{ exTableA with entries := [] }, exTableB] := by decide

/-- **C137** does not hold without an answer: at the end of the input the tables are emptied or dropped as if `--yes` had been given. -/
theorem c137_silence_violated (drop : Bool) (names : List Bytes) (db : List NamedTable) (h : (db.map (·.name)).Nodup) :
    clearLoop drop false names [] db = some (Emptied drop names db) := by
  rw [clearLoop_eof, clearLoop_yes drop names [] db h]

/-- A table emptied that nobody was heard about. -/
example : clearLoop false false [[0x41]] [] [exTableA] = some [{ exTableA with entries := [] }] := by decide

/-- **C137** does not hold when the last words are no answer: the command does not end. -/
theorem c137_end_violated (drop : Bool) (name : Bytes) (names words : List Bytes) (db : List NamedTable) (t : NamedTable)
    (h : (db.map (·.name)).Nodup) (ht : t ∈ db) (hname : t.name = name) (hne : t.entries ≠ []) (hw : words ≠ [])
    (hu : ∀ w ∈ words, Unclear w) : clearLoop drop false (name :: names) words db = none := by
  have hf : db.find? (fun t => t.name == name) = some t := by rw [← hname]; exact find_named h ht
  rw [clearLoop_cons, hf]
  simp only
  rw [if_neg (by rintro ⟨h1, _⟩; exact hne (List.length_eq_zero_iff.mp h1)), askUser_stuck words hu [] (Or.inl hw)]
  simp

/-- `yes`. -/
example : clearLoop false false [[0x41]] [[0x79, 0x65, 0x73]] [exTableA] = none := by decide

end Silkworm.Properties
