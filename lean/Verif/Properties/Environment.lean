import Verif.Db.Environment

/-!
# C152: opening a database
-/

namespace Silkworm.Properties

open Silkworm.Environment

/-- There is a database at this place: a directory with a data file that is not empty. -/
def DatabaseAt (node : Node) : Prop := ∃ others size, node = .directory others (.regular size) ∧ 0 < size

/-- A database can be created at this place: nothing of that name is there yet, and the directory is there or can be made. -/
def PlaceFor (node : Node) : Prop := node = .absent true ∨ ∃ others, node = .directory others .absent

/-- Options that make sense together. -/
def Compatible (c : EnvConfig) : Prop :=
  ¬ (c.exclusive = true ∧ c.shared = true) ∧ (c.create = true → c.shared = false ∧ c.readonly = false)

theorem conflict_none (c : EnvConfig) : conflict c = none ↔ Compatible c := by
  obtain ⟨path, create, readonly, exclusive, inmemory, shared, a, b⟩ := c
  cases create <;> cases readonly <;> cases exclusive <;> cases shared <;> simp [conflict, Compatible]

/-- C152: without `create` a database is opened exactly if there is one, and nothing is changed before that, whether or not it is
opened. -/
theorem c152_existing (c : EnvConfig) (node : Node) (hp : c.path ≠ "") (hc : c.create = false) :
    ((∃ r, (openEnv c node).1 = .ok r) ↔ DatabaseAt node ∧ Compatible c) ∧ (openEnv c node).2 = node := by
  unfold openEnv
  rw [if_neg hp, hc, ← conflict_none]
  unfold prepare
  rw [if_pos rfl]
  rcases node with cr | _ | ⟨others, _ | _ | size⟩
  · exact ⟨⟨(fun ⟨r, h⟩ => by cases h), (fun ⟨⟨o, s, h, _⟩, _⟩ => by cases h)⟩, rfl⟩
  · exact ⟨⟨(fun ⟨r, h⟩ => by cases h), (fun ⟨⟨o, s, h, _⟩, _⟩ => by cases h)⟩, rfl⟩
  · exact ⟨⟨(fun ⟨r, h⟩ => by cases h), (fun ⟨⟨o, s, h, _⟩, _⟩ => by cases h)⟩, rfl⟩
  · exact ⟨⟨(fun ⟨r, h⟩ => by cases h), (fun ⟨⟨o, s, h, _⟩, _⟩ => by cases h)⟩, rfl⟩
  · dsimp only
    by_cases hs : size = 0
    · rw [if_pos hs]
      exact ⟨⟨(fun ⟨r, h⟩ => by cases h), (fun ⟨⟨o, s, h, h0⟩, _⟩ => by cases h; omega)⟩, rfl⟩
    · rw [if_neg hs]
      cases hx : conflict c with
      | none => exact ⟨⟨fun _ => ⟨⟨others, size, rfl, by omega⟩, rfl⟩, fun _ => ⟨_, rfl⟩⟩, rfl⟩
      | some e => exact ⟨⟨(fun ⟨r, h⟩ => by cases h), (fun ⟨_, h⟩ => by cases h)⟩, rfl⟩

/-- C152: with `create` a database is opened exactly if there is none and there is a place for it; so none is ever overwritten. -/
theorem c152_create (c : EnvConfig) (node : Node) (hp : c.path ≠ "") (hc : c.create = true) :
    ((∃ r, (openEnv c node).1 = .ok r) ↔ PlaceFor node ∧ Compatible c) ∧
    ((∃ r, (openEnv c node).1 = .ok r) → ∃ others, (openEnv c node).2 = .directory others .absent) := by
  unfold openEnv
  rw [if_neg hp, hc, ← conflict_none]
  unfold prepare
  rw [if_neg (by decide)]
  have no : ∀ (e : Refusal) (n : Node), ¬ PlaceFor n → ((∃ r : Request, (Outcome.err e : Outcome Refusal Request) = .ok r) ↔
      PlaceFor n ∧ conflict c = none) ∧
      ((∃ r : Request, (Outcome.err e : Outcome Refusal Request) = .ok r) → ∃ others, n = .directory others .absent) :=
    fun e n hn => ⟨⟨(fun ⟨r, h⟩ => by cases h), fun ⟨h, _⟩ => absurd h hn⟩, (fun ⟨r, h⟩ => by cases h)⟩
  rcases node with (_ | _) | _ | ⟨others, _ | _ | size⟩
  · exact no _ _ (by rintro (h | ⟨_, h⟩) <;> cases h)
  · dsimp only
    cases hx : conflict c with
    | none => exact ⟨⟨fun _ => ⟨.inl rfl, rfl⟩, fun _ => ⟨_, rfl⟩⟩, fun _ => ⟨_, rfl⟩⟩
    | some e => exact ⟨⟨(fun ⟨r, h⟩ => by cases h), (fun ⟨_, h⟩ => by cases h)⟩, (fun ⟨r, h⟩ => by cases h)⟩
  · exact no _ _ (by rintro (h | ⟨_, h⟩) <;> cases h)
  · dsimp only
    cases hx : conflict c with
    | none => exact ⟨⟨fun _ => ⟨.inr ⟨_, rfl⟩, rfl⟩, fun _ => ⟨_, rfl⟩⟩, fun _ => ⟨_, rfl⟩⟩
    | some e => exact ⟨⟨(fun ⟨r, h⟩ => by cases h), (fun ⟨_, h⟩ => by cases h)⟩, (fun ⟨r, h⟩ => by cases h)⟩
  · exact no _ _ (by rintro (h | ⟨_, h⟩) <;> cases h)
  · exact no _ _ (by rintro (h | ⟨_, h⟩) <;> cases h)

/-- C152: the request says what the options say: it is for reading exactly if that was asked for, it is for this process alone exactly
if that was asked for, and the size of a database that others have open is left alone. Writes are durable. -/
theorem c152_request (c : EnvConfig) (node : Node) (r : Request) (h : (openEnv c node).1 = .ok r) :
    (Flag.readOnly ∈ r.flags ↔ c.readonly = true) ∧ (Flag.exclusive ∈ r.flags ↔ c.exclusive = true) ∧
    (Flag.accede ∈ r.flags ↔ c.shared = true) ∧ (Flag.noMetaSync ∈ r.flags ↔ c.inmemory = true) ∧ Flag.syncDurable ∈ r.flags ∧
    (r.geometry = none ↔ c.shared = true) ∧ (∀ g, r.geometry = some g → g.growthStep ≤ g.maxSize ∧ g.maxSize % g.pageSize = 0) ∧
    r.accede = c.shared ∧ r.maxTables = c.maxTables ∧ r.maxReaders = c.maxReaders := by
  have hr : r = ⟨directoryPath c.path, openFlags c, openGeometry c, c.maxTables, c.maxReaders, c.shared⟩ := by
    unfold openEnv at h
    split at h
    · cases h
    · split at h
      · cases h
      · cases h
      · split at h
        · cases h
        · exact (Outcome.ok.inj h).symm
  subst hr
  obtain ⟨path, create, readonly, exclusive, inmemory, shared, a, b⟩ := c
  cases readonly <;> cases exclusive <;> cases inmemory <;> cases shared <;> simp [openFlags, openGeometry]

/-- C152: whether or not the separator is written at the end, the same directory and the same file are meant. -/
theorem c152_path (p : String) (h : p.toList.getLast? ≠ some '/') :
    directoryPath (p ++ "/") = directoryPath p ∧ dataFilePath (directoryPath p) = p ++ "/mdbx.dat" := by
  unfold directoryPath dataFilePath
  rw [if_neg h, if_pos (by simp)]
  exact ⟨rfl, by rw [String.append_assoc]; rfl⟩

example : openEnv { path := "/data", readonly := true } (.directory true (.regular 4096)) =
    (.ok ⟨"/data/", [.noTls, .noReadAhead, .coalesce, .syncDurable, .readOnly], some ⟨2 ^ 41, 2 ^ 31, 4096⟩, 128, 100, false⟩,
      .directory true (.regular 4096)) := by decide +kernel
example : (openEnv { path := "/data" } (.directory true (.regular 0))).1 = .err .notFound := by decide +kernel
example : openEnv { path := "/data", create := true } (.absent true) =
    (.ok ⟨"/data/", [.noTls, .noReadAhead, .coalesce, .syncDurable], some ⟨2 ^ 41, 2 ^ 31, 4096⟩, 128, 100, false⟩,
      .directory false .absent) := by decide +kernel
example : (openEnv { path := "/data", create := true } (.directory false (.regular 0))).1 = .err .alreadyExists := by decide +kernel

/-- C152, in full: moreover, what is refused changes nothing. -/
def C152 : Prop := ∀ c node e, (openEnv c node).1 = .err e → (openEnv c node).2 = node

/-- C152 is violated: options are compared after the directory was made; it stays. -/
theorem c152_violated :
    openEnv { path := "/data", create := true, readonly := true } (.absent true) = (.err .createReadonly, .directory false .absent) ∧
    ¬ C152 := by
  have h : openEnv { path := "/data", create := true, readonly := true } (.absent true) =
      (.err .createReadonly, .directory false .absent) := by decide +kernel
  exact ⟨h, fun hc => by have := hc _ _ _ (congrArg Prod.fst h); rw [h] at this; cases this⟩

/-- C152, partial: this is the only case. -/
theorem c152_refused_partial (c : EnvConfig) (node : Node) (e : Refusal) (h : (openEnv c node).1 = .err e)
    (hx : Compatible c ∨ c.create = false ∨ node ≠ .absent true) : (openEnv c node).2 = node := by
  rw [← conflict_none] at hx
  unfold openEnv at h ⊢
  split
  · rfl
  · rename_i hp
    rw [if_neg hp] at h
    cases hq : prepare c.create node with
    | err _ => rfl
    | ub => rfl
    | ok n =>
      rw [hq] at h
      dsimp only at h ⊢
      have hn : node = n ∨ c.create = true ∧ node = .absent true := by
        unfold prepare at hq
        split at hq
        · split at hq
          · split at hq
            · cases hq
            · exact .inl (Outcome.ok.inj hq)
          · cases hq
        · rename_i hc
          split at hq
          · exact .inr ⟨by simpa using hc, rfl⟩
          · cases hq
          · cases hq
          · exact .inl (Outcome.ok.inj hq)
          · cases hq
      rcases hn with hn | ⟨h1, h2⟩
      · subst hn; split <;> rfl
      · rcases hx with hx | hx | hx
        · rw [hx] at h; cases h
        · rw [h1] at hx; cases hx
        · exact absurd h2 hx

end Silkworm.Properties
