import Verif.Common.LruLemmas
import Verif.Execution.Effects
import Verif.Spec.Caches

/-! Helper lemmas: execution with caches and without. -/

namespace Silkworm.Evm

open IntraBlockState State
open Spec.Caches

variable {A : Type}

/-! ## The code store -/

theorem getBalance_store (db : StateReader) (s : IntraBlockState) (a : Bytes) : (getBalance db s a).2.code = s.code :=
  getBalance_code (db := db) s a

theorem addToBalance_store (db : StateReader) (s : IntraBlockState) (a : Bytes) (x : Nat) : (addToBalance db s a x).code = s.code :=
  (touch_keeps _ a).code.trans (modifyCurrent_keeps s a _).code

theorem subtractFromBalance_store (db : StateReader) (s : IntraBlockState) (a : Bytes) (x : Nat) :
    (subtractFromBalance db s a x).code = s.code :=
  (touch_keeps _ a).code.trans (modifyCurrent_keeps s a _).code

theorem setBalance_store (db : StateReader) (s : IntraBlockState) (a : Bytes) (x : Nat) : (setBalance db s a x).code = s.code :=
  (touch_keeps _ a).code.trans (modifyCurrent_keeps s a _).code

theorem setNonce_store (db : StateReader) (s : IntraBlockState) (a : Bytes) (x : Nat) : (setNonce db s a x).code = s.code :=
  (modifyCurrent_keeps s a _).code

theorem selfdestruct_store (env : Env) (s : IntraBlockState) (a b : Bytes) : (selfdestruct env s a b).code = s.code := by
  unfold selfdestruct
  simp only
  rw [setBalance_store, addToBalance_store, getBalance_store, recordSuicide_code]

theorem addRefund_store (s : IntraBlockState) (n : Nat) : (s.addRefund n).code = s.code := rfl

theorem subtractRefund_store (s : IntraBlockState) (n : Nat) : (s.subtractRefund n).code = s.code := rfl

theorem netMetering_store (rev : Nat) (s : IntraBlockState) (o c v : Bytes) : (netMetering rev s o c v).2.code = s.code := by
  have key : ∀ (p : Prop) [Decidable p] (t u : IntraBlockState), t.code = s.code → u.code = s.code →
      (if p then t else u).code = s.code := fun p _ t u ht hu => by by_cases hp : p <;> simp [hp, ht, hu]
  unfold netMetering
  simp only
  by_cases h : o = c
  · rw [if_pos h]
    by_cases h' : o = zero32
    · rw [if_pos h']
    · rw [if_neg h']
      exact key _ _ _ (addRefund_store _ _) rfl
  · rw [if_neg h]
    refine key _ _ _ (key _ _ _ ?_ ?_) ?_ <;>
      first
      | refine (addRefund_store _ _).trans (key _ _ _ ((addRefund_store _ _).trans ?_) ?_)
      | refine key _ _ _ ((addRefund_store _ _).trans ?_) ?_
    all_goals exact key _ _ _ (subtractRefund_store _ _) rfl

theorem grossMetering_store (s : IntraBlockState) (c v : Bytes) : (grossMetering s c v).2.code = s.code := by
  unfold grossMetering
  by_cases h : c = zero32
  · rw [if_pos h]
  · rw [if_neg h]
    by_cases h' : v = zero32
    · rw [if_pos h']; exact addRefund_store _ _
    · rw [if_neg h']

theorem setStorage_store (env : Env) (s : IntraBlockState) (a k v : Bytes) : (setStorage env s a k v).2.code = s.code := by
  have h1 := (getStorage_keeps (db := env.db) s a k false).code
  have h2 := (setStorage_keeps (db := env.db) (getCurrentStorage env.db s a k).2 a k v).code
  unfold setStorage
  simp only
  split_ifs
  · exact h1
  · rw [netMetering_store]
    exact ((getStorage_keeps (db := env.db) _ a k true).code.trans h2).trans h1
  · rw [grossMetering_store]
    exact h2.trans h1

theorem accountExists_store (env : Env) (s : IntraBlockState) (a : Bytes) : (accountExists env s a).2.code = s.code := by
  unfold accountExists
  split_ifs
  · exact isDead_code (db := env.db) s a
  · exact exists?_code (db := env.db) s a

theorem accessAccount_store (env : Env) (s : IntraBlockState) (a : Bytes) : (accessAccount env s a).2.code = s.code := by
  unfold accessAccount
  split_ifs
  · rfl
  · exact accessAccount_code s a

theorem getCodeHash_store (env : Env) (s : IntraBlockState) (a : Bytes) : (getCodeHash env s a).2.code = s.code := by
  unfold getCodeHash
  simp only
  split_ifs
  · exact isDead_code (db := env.db) s a
  · exact (IntraBlockState.getCodeHash_code (db := env.db) _ a).trans (isDead_code (db := env.db) s a)

theorem openContract_store (env : Env) (msg : Message) (a : Bytes) (s : IntraBlockState) :
    (openContract env msg a s).code = s.code := by
  unfold openContract
  simp only
  rw [addToBalance_store, subtractFromBalance_store]
  split_ifs
  · rw [setNonce_store]; exact (createContract_keeps (db := env.db) s a).code
  · exact (createContract_keeps (db := env.db) s a).code

theorem transfer_store (env : Env) (msg : Message) (a : Bytes) (s : IntraBlockState) : (transfer env msg a s).code = s.code := by
  unfold transfer
  split_ifs
  · exact (touch_keeps s a).code
  · rw [addToBalance_store, subtractFromBalance_store]
  · rfl

theorem revertToSnapshot_store (s : IntraBlockState) (snap : Snapshot) : (s.revertToSnapshot snap).code = s.code := by
  unfold revertToSnapshot
  exact undo_code _ s

theorem settle_store (snap : Snapshot) (r : Result) (s : IntraBlockState) : (settle snap r s).2.code = s.code := by
  unfold settle
  split_ifs
  · rfl
  · exact revertToSnapshot_store s snap
  · exact revertToSnapshot_store s snap

section

variable {keccak : Bytes → Bytes} {S : Bytes → Prop} {db : StateReader}

theorem _root_.Silkworm.Spec.Caches.Consistent.of_code {s t : IntraBlockState} (h : Consistent keccak S db s) (e : t.code = s.code) : Consistent keccak S db t :=
  ⟨h.db, by rw [e]; exact h.state⟩

theorem _root_.Silkworm.Spec.Caches.Consistent.getCode {s : IntraBlockState} (h : Consistent keccak S db s) (a : Bytes) :
    Consistent keccak S db (getCode db s a).2 := by
  refine ⟨h.db, ?_⟩
  rw [getCode_code]
  cases curOf db s a with
  | none => exact h.state
  | some c =>
    simp only
    split_ifs
    · exact h.state
    · cases hg : s.code.get? c.codeHash with
      | some x => exact h.state
      | none =>
        intro k x hx hne
        simp only [AMap.get?_set] at hx
        split_ifs at hx with e
        · cases hx
          rw [e]
          exact h.db _ hne
        · exact h.state k x hx hne

theorem _root_.Silkworm.Spec.Caches.Consistent.setCode {s : IntraBlockState} (h : Consistent keccak S db s) (a code : Bytes) (hc : S code) :
    Consistent keccak S db (setCode keccak db s a code) := by
  have hm := h.of_code (modifyCurrent_keeps (db := db) s a (fun c => { c with codeHash := keccak code })).code
  unfold IntraBlockState.setCode
  simp only
  split
  · exact hm
  · refine ⟨h.db, ?_⟩
    intro k x hx hne
    simp only [AMap.get?_set] at hx
    split_ifs at hx with e
    · cases hx
      exact ⟨hc, e.symm⟩
    · exact hm.state k x hx hne

/-- Code that is run belongs to its hash. -/
theorem _root_.Silkworm.Spec.Caches.Consistent.runs {s : IntraBlockState} (h : Consistent keccak S db s) (a : Bytes) (hne : (IntraBlockState.getCode db s a).1 ≠ []) :
    S (IntraBlockState.getCode db s a).1 ∧
      keccak (IntraBlockState.getCode db s a).1 = (IntraBlockState.getCodeHash db (IntraBlockState.getCode db s a).2 a).1 := by
  obtain ⟨t, e, hs⟩ := getCode_eq (db := db) s a
  obtain ⟨u, f, -⟩ := getCodeHash_eq (db := db) t a
  rw [e] at hne ⊢
  simp only at hne ⊢
  rw [f]
  have hcur : curOf db t a = curOf db s a := by unfold curOf; rw [hs.obj a]
  rw [hcur]
  cases hc : curOf db s a with
  | none => rw [hc] at hne; exact absurd rfl hne
  | some c =>
    rw [hc] at hne
    unfold codeOf at hne ⊢
    simp only at hne ⊢
    split_ifs at hne ⊢ with he
    · exact absurd rfl hne
    · unfold lookupCode at hne ⊢
      cases hg : s.code.get? c.codeHash with
      | some x =>
        rw [hg] at hne
        exact h.state _ _ hg hne
      | none =>
        rw [hg] at hne
        exact h.db _ hne

end

/-! ## The caches -/

/-- Cached analyses are those of codes with the hash. -/
structure Sound (engine : Engine A) (keccak : Bytes → Bytes) (S : Bytes → Prop) (c : AnalysisCache A) : Prop where
  inv : c.cache.Inv
  entry : ∀ e ∈ c.cache.contents, ∃ code, S code ∧ keccak code = e.1 ∧ e.2 = engine.analyze c.revision code

/-- What holds of caches between messages. -/
structure Caches.Ok (engine : Engine A) (keccak : Bytes → Bytes) (S : Bytes → Prop) (k : Caches A) : Prop where
  analysis : ∀ c, k.analysis = some c → Sound engine keccak S c
  distinct : (k.busy ++ k.pool.getD []).Nodup
  fresh : ∀ i ∈ k.busy ++ k.pool.getD [], i < k.next
  count : k.pool.isSome = true → (k.busy ++ k.pool.getD []).length = k.next

/-- What a message does to the caches. -/
structure After (engine : Engine A) (keccak : Bytes → Bytes) (S : Bytes → Prop) (k k' : Caches A) : Prop where
  ok : k'.Ok engine keccak S
  busy : k'.busy = k.busy
  advanced : k'.analysis.isSome = k.analysis.isSome
  pooled : k'.pool.isSome = k.pool.isSome

section

variable {engine : Engine A} {keccak : Bytes → Bytes} {S : Bytes → Prop}

theorem After.refl {k : Caches A} (h : k.Ok engine keccak S) : After engine keccak S k k := ⟨h, rfl, rfl, rfl⟩

theorem After.trans {k l m : Caches A} (h : After engine keccak S k l) (g : After engine keccak S l m) : After engine keccak S k m :=
  ⟨g.ok, g.busy.trans h.busy, g.advanced.trans h.advanced, g.pooled.trans h.pooled⟩

theorem sound_empty (n : Nat) : Sound engine keccak S (.empty n) :=
  ⟨LruCache.inv_empty n, by intro e he; simp [AnalysisCache.empty, LruCache.empty, LruCache.contents] at he⟩

theorem mem_touch {K : Type} [DecidableEq K] {l : List (K × A)} {k : K} {e : K × A} (h : e ∈ Spec.lruTouch l k) : e ∈ l := by
  unfold Spec.lruTouch at h
  cases hl : l.lookup k with
  | none => rw [hl] at h; exact h
  | some v =>
    rw [hl] at h
    simp only [List.mem_cons] at h
    rcases h with rfl | h
    · induction l with
      | nil => cases hl
      | cons x l ih =>
        obtain ⟨a, b⟩ := x
        rw [List.lookup_cons] at hl
        cases hb : k == a with
        | true => rw [hb] at hl; cases hl; rw [eq_of_beq hb]; exact List.mem_cons_self
        | false => rw [hb] at hl; exact List.mem_cons_of_mem _ (ih hl)
    · exact (List.mem_filter.mp h).1

theorem mem_of_lookup {K : Type} [DecidableEq K] {l : List (K × A)} {k : K} {v : A} (hl : l.lookup k = some v) : (k, v) ∈ l := by
  induction l with
  | nil => cases hl
  | cons x l ih =>
    obtain ⟨a, b⟩ := x
    rw [List.lookup_cons] at hl
    cases hb : k == a with
    | true => rw [hb] at hl; cases hl; rw [eq_of_beq hb]; exact List.mem_cons_self
    | false => rw [hb] at hl; exact List.mem_cons_of_mem _ (ih hl)

theorem mem_put {K : Type} [DecidableEq K] {n : Nat} {l : List (K × A)} {k : K} {v : A} {e : K × A} (h : e ∈ Spec.lruPut n l k v) :
    e = (k, v) ∨ e ∈ l := by
  unfold Spec.lruPut at h
  rcases List.mem_cons.mp (List.mem_of_mem_take h) with h | h
  · exact .inl h
  · exact .inr (List.mem_filter.mp h).1

/-- The analysis that is used is that of the code. -/
theorem analysisOf_ok (hS : ∀ c d, S c → S d → keccak c = keccak d → c = d) {k : Caches A} (hk : k.Ok engine keccak S)
    (rev : Nat) (code : Bytes) (hash : Option Bytes) (hc : ∀ h, hash = some h → S code ∧ keccak code = h) :
    ∃ k', k.analysisOf engine rev code hash = .ok (engine.analyze rev code, k') ∧ After engine keccak S k k' := by
  unfold Caches.analysisOf
  cases hash with
  | none => exact ⟨k, by rfl, .refl hk⟩
  | some h =>
    obtain ⟨hSc, hkc⟩ := hc h rfl
    cases ha : k.analysis with
    | none => exact ⟨k, rfl, .refl hk⟩
    | some c =>
      have hs := hk.analysis c ha
      have fin : ∀ c' : AnalysisCache A, Sound engine keccak S c' →
          After engine keccak S k { k with analysis := some c' } := fun c' h' =>
        ⟨⟨fun x hx => by cases hx; exact h', hk.distinct, hk.fresh, hk.count⟩, rfl, by rw [ha]; rfl, rfl⟩
      have store : ∀ c' : AnalysisCache A, Sound engine keccak S c' → ∃ c'',
          c'.put h (engine.analyze rev code) rev = .ok c'' ∧ Sound engine keccak S c'' := by
        intro c' h'
        have hi : (if c'.revision ≠ rev then c'.cache.clear else c'.cache).Inv := by
          split_ifs
          · exact LruCache.inv_clear h'.inv
          · exact h'.inv
        obtain ⟨p, e, i, hcont, -⟩ := LruCache.put_spec hi h (engine.analyze rev code)
        refine ⟨⟨p, rev⟩, by unfold AnalysisCache.put; simp only; rw [e]; rfl, ⟨i, ?_⟩⟩
        intro x hx
        rw [show (⟨p, rev⟩ : AnalysisCache A).cache = p from rfl, hcont] at hx
        rcases mem_put hx with rfl | hx
        · exact ⟨code, hSc, hkc, rfl⟩
        · by_cases hr : c'.revision = rev
          · rw [if_neg (not_not.mpr hr)] at hx
            obtain ⟨w, w1, w2, w3⟩ := h'.entry x hx
            exact ⟨w, w1, w2, by rw [w3, hr]⟩
          · rw [if_pos hr] at hx
            simp [LruCache.clear, LruCache.contents] at hx
      simp only [AnalysisCache.get]
      by_cases hr : c.revision = rev
      · rw [if_pos hr]
        obtain ⟨g, e, i, hcont, -⟩ := LruCache.get_spec hs.inv h
        have hsg : Sound engine keccak S { c with cache := g } :=
          ⟨i, fun x hx => hs.entry x (mem_touch (by rw [← hcont]; exact hx))⟩
        rw [e]
        cases hv : Spec.lruValue c.cache.contents h with
        | some a =>
          obtain ⟨code', h1, h2, h3⟩ := hs.entry (h, a) (mem_of_lookup hv)
          have : code' = code := hS _ _ h1 hSc (h2.trans hkc.symm)
          subst this
          refine ⟨_, ?_, fin _ hsg⟩
          simp only [Outcome.bind, lift]
          rw [← hr]
          exact congrArg (fun z => Outcome.ok (z, _)) h3
        | none =>
          obtain ⟨c'', e2, h2⟩ := store _ hsg
          refine ⟨_, ?_, fin _ h2⟩
          simp only [Outcome.bind, lift]
          rw [e2]
      · rw [if_neg hr]
        obtain ⟨c'', e2, h2⟩ := store _ hs
        refine ⟨_, ?_, fin _ h2⟩
        simp only [Outcome.bind, lift]
        rw [e2]

/-- A state that is acquired is not in use. -/
theorem acquire_ok {k : Caches A} (hk : k.Ok engine keccak S) :
    ∃ id k', k.acquire = .ok (id, k') ∧ k'.Ok engine keccak S ∧ k'.busy = id :: k.busy ∧ id ∉ k.busy ∧
      k'.analysis = k.analysis ∧ k'.pool.isSome = k.pool.isSome := by
  obtain ⟨an, pool, busy, next⟩ := k
  have hd := hk.distinct
  have hf := hk.fresh
  have new : ∀ P : List Nat, busy ++ P = busy ++ pool.getD [] → next ∉ busy ∧ (next :: busy ++ P).Nodup ∧
      ∀ i ∈ next :: busy ++ P, i < next + 1 := by
    intro P e
    have hn : next ∉ busy ++ P := fun h => by
      rw [e] at h
      exact Nat.lt_irrefl _ (hf next h)
    refine ⟨fun h => hn (List.mem_append_left _ h), ?_, ?_⟩
    · rw [List.cons_append, List.nodup_cons]
      exact ⟨hn, by rw [e]; exact hd⟩
    · intro i hi
      rw [List.cons_append, List.mem_cons, e] at hi
      rcases hi with rfl | hi
      · exact Nat.lt_succ_self _
      · exact Nat.lt_succ_of_lt (hf i hi)
  unfold Caches.acquire
  rcases pool with _ | (_ | ⟨id, rest⟩)
  · obtain ⟨h1, h2, h3⟩ := new [] rfl
    exact ⟨_, _, rfl, ⟨hk.analysis, h2, h3, fun h => by cases h⟩, rfl, h1, rfl, rfl⟩
  · obtain ⟨h1, h2, h3⟩ := new [] rfl
    have hcount : (busy ++ []).length = next := hk.count rfl
    refine ⟨_, _, rfl, ⟨hk.analysis, h2, h3, fun _ => ?_⟩, rfl, h1, rfl, rfl⟩
    show (next :: busy ++ []).length = next + 1
    rw [List.cons_append, List.length_cons, hcount]
  · simp only [Option.getD_some] at hd hf
    have hd' : (id :: (busy ++ rest)).Nodup := (List.perm_middle.nodup_iff).mp hd
    have hnot : id ∉ busy := fun h => (List.nodup_cons.mp hd').1 (List.mem_append_left _ h)
    simp only [if_neg hnot]
    have hcount : (busy ++ id :: rest).length = next := hk.count rfl
    refine ⟨_, _, rfl, ⟨hk.analysis, hd', ?_, fun _ => ?_⟩, rfl, hnot, rfl, rfl⟩
    · intro i hi
      apply hf
      simp only [Option.getD_some, List.cons_append, List.mem_cons, List.mem_append] at hi ⊢
      tauto
    · show (id :: busy ++ rest).length = next
      rw [← hcount]
      simp only [List.length_append, List.length_cons]
      omega

/-- A state is released by whoever acquired it. -/
theorem release_ok {k : Caches A} {id : Nat} {rest : List Nat} (hk : k.Ok engine keccak S) (hb : k.busy = id :: rest) :
    (k.release id).Ok engine keccak S ∧ (k.release id).busy = rest ∧ (k.release id).analysis = k.analysis ∧
      (k.release id).pool.isSome = k.pool.isSome := by
  have hd := hk.distinct
  have hf := hk.fresh
  rw [hb] at hd hf
  have hbusy : (k.release id).busy = rest := by simp [Caches.release, hb]
  refine ⟨⟨hk.analysis, ?_, ?_, ?_⟩, hbusy, rfl, by simp [Caches.release]⟩
  · rw [hbusy]
    cases hp : k.pool with
    | none =>
      simp only [Caches.release, hp, Option.map_none, Option.getD_none, List.append_nil]
      rw [hp] at hd
      simp only [Option.getD_none, List.append_nil, List.nodup_cons] at hd
      exact hd.2
    | some l =>
      simp only [Caches.release, hp, Option.map_some, Option.getD_some]
      rw [hp] at hd
      exact List.perm_middle.nodup_iff.mpr hd
  · rw [hbusy]
    intro i hi
    apply hf
    cases hp : k.pool with
    | none =>
      simp only [Caches.release, hp, Option.map_none, Option.getD_none, List.append_nil] at hi ⊢
      exact List.mem_cons_of_mem _ hi
    | some l =>
      simp only [Caches.release, hp, Option.map_some, Option.getD_some, List.mem_append, List.mem_cons, List.cons_append] at hi ⊢
      tauto
  · rw [hbusy]
    cases hp : k.pool with
    | none => intro h; simp [Caches.release, hp] at h
    | some l =>
      intro _
      have := hk.count (by rw [hp]; rfl)
      rw [hb, hp] at this
      simp only [Caches.release, hp, Option.map_some, Option.getD_some, List.length_append, List.length_cons] at this ⊢
      omega

end


/-! ## Simulation -/

/-- With caches the same happens as without. -/
def Sim (engine : Engine A) (keccak : Bytes → Bytes) (S : Bytes → Prop) (db : StateReader) {α : Type} (P : α → Prop) (k : Caches A)
    (x : Outcome Fault (α × Machine)) (y : Outcome Fault (α × Machine × Caches A)) : Prop :=
  match x with
  | .ok r => P r.1 ∧ Consistent keccak S db r.2.state ∧ ∃ k', y = .ok (r.1, r.2, k') ∧ After engine keccak S k k'
  | .err e => y = .err e
  | .ub => y = .ub

section

variable {engine : Engine A} {keccak : Bytes → Bytes} {S : Bytes → Prop} {db : StateReader}

theorem Sim.bind {α β : Type} {P : α → Prop} {Q : β → Prop} {k : Caches A} {x : Outcome Fault (α × Machine)}
    {y : Outcome Fault (α × Machine × Caches A)} (h : Sim engine keccak S db P k x y)
    {f : α × Machine → Outcome Fault (β × Machine)} {g : α × Machine × Caches A → Outcome Fault (β × Machine × Caches A)}
    (hfg : ∀ r m k', P r → Consistent keccak S db m.state → After engine keccak S k k' →
      Sim engine keccak S db Q k' (f (r, m)) (g (r, m, k'))) :
    Sim engine keccak S db Q k (x.bind f) (y.bind g) := by
  cases x with
  | ok r =>
    obtain ⟨hp, hc, k', hy, ha⟩ := h
    have := hfg r.1 r.2 k' hp hc ha
    rw [hy]
    show Sim engine keccak S db Q k (f r) (g (r.1, r.2, k'))
    have e : f r = f (r.1, r.2) := rfl
    rw [e]
    cases hf : f (r.1, r.2) with
    | ok z =>
      rw [hf] at this
      obtain ⟨h1, h2, k'', h3, h4⟩ := this
      exact ⟨h1, h2, k'', h3, ha.trans h4⟩
    | err e => rw [hf] at this; exact this
    | ub => rw [hf] at this; exact this
  | err e => rw [show y = .err e from h]; rfl
  | ub => rw [show y = .ub from h]; rfl

theorem Sim.done {α : Type} {P : α → Prop} {k : Caches A} (hk : k.Ok engine keccak S) {r : α} {m : Machine} (hp : P r)
    (hc : Consistent keccak S db m.state) : Sim engine keccak S db P k (.ok (r, m)) (.ok (r, m, k)) :=
  ⟨hp, hc, k, rfl, .refl hk⟩

/-- A computation that does not use the caches. -/
theorem Sim.plain {α : Type} {P : α → Prop} {k : Caches A} (hk : k.Ok engine keccak S) {x : Outcome Fault (α × Machine)}
    (h : ∀ r m, x = .ok (r, m) → P r ∧ Consistent keccak S db m.state) :
    Sim engine keccak S db P k x (x.bind fun r => .ok (r.1, r.2, k)) := by
  cases x with
  | ok r => exact ⟨(h r.1 r.2 rfl).1, (h r.1 r.2 rfl).2, k, rfl, .refl hk⟩
  | err e => rfl
  | ub => rfl

/-- Two ways of handling messages agree. -/
def SubSim (engine : Engine A) (keccak : Bytes → Bytes) (S : Bytes → Prop) (db : StateReader) (advanced : Bool)
    (sub : Message → Machine → Outcome Fault (Result × Machine)) (subC : SubC A) : Prop :=
  ∀ msg m k, Consistent keccak S db m.state → k.Ok engine keccak S → k.analysis.isSome = advanced →
    Sim engine keccak S db (fun _ => True) k (sub msg m) (subC msg m k)

end

section

variable {engine : Engine A} {S : Bytes → Prop} {env : Env} {txn : Transaction} {advanced : Bool}
  {sub : Message → Machine → Outcome Fault (Result × Machine)} {subC : SubC A}

local notation "SimE" => Sim engine env.crypto.keccak S env.db
local notation "Cons" => Consistent env.crypto.keccak S env.db

theorem host_sim (hsub : SubSim engine env.crypto.keccak S env.db advanced sub subC) {m : Machine} {k : Caches A}
    (hc : Cons m.state) (hk : k.Ok engine env.crypto.keccak S) (ha : k.analysis.isSome = advanced) (c : HostCall) :
    SimE (fun _ => True) k (host env txn sub m c) (hostC env txn subC m k c) := by
  cases c with
  | call msg =>
    exact (hsub msg m k hc hk ha).bind fun r m' k' _ hc' ha' => .done ha'.ok trivial hc'
  | accountExists a => exact .done hk trivial (hc.of_code (accountExists_store env _ a))
  | accessAccount a => exact .done hk trivial (hc.of_code (accessAccount_store env _ a))
  | accessStorage a l => exact .done hk trivial (hc.of_code (accessStorage_code _ a l))
  | getStorage a l => exact .done hk trivial (hc.of_code (getStorage_keeps (db := env.db) _ a l false).code)
  | setStorage a l v => exact .done hk trivial (hc.of_code (setStorage_store env _ a l v))
  | getBalance a => exact .done hk trivial (hc.of_code (getBalance_store env.db _ a))
  | getCodeSize a => exact .done hk trivial (hc.getCode a)
  | getCodeHash a => exact .done hk trivial (hc.of_code (getCodeHash_store env _ a))
  | copyCode a o n =>
    refine .done hk trivial ?_
    simp only [copyCode]
    split_ifs <;> exact hc.getCode a
  | selfdestruct a b =>
    have h : Cons (selfdestruct env m.state a b) := hc.of_code (selfdestruct_store env _ a b)
    show SimE (fun _ => True) k (.ok ((), { m with state := selfdestruct env m.state a b }))
      (.ok ((), { m with state := selfdestruct env m.state a b }, k))
    generalize selfdestruct env m.state a b = t at h ⊢
    exact .done hk trivial h
  | getTxContext =>
    refine Sim.plain hk fun r m' h => ?_
    simp only [host] at h
    cases hx : getTxContext env txn with
    | ok x => rw [hx] at h; cases h; exact ⟨trivial, hc⟩
    | err e => cases e
    | ub => rw [hx] at h; cases h
  | getBlockHash n =>
    refine Sim.plain hk fun r m' h => ?_
    simp only [host] at h
    cases hx : getBlockHash env m.blockHashes n with
    | ok x => rw [hx] at h; cases h; exact ⟨trivial, hc⟩
    | err e => cases e
    | ub => rw [hx] at h; cases h
  | emitLog a d t => exact .done hk trivial (hc.of_code rfl)

theorem runProgram_sim (hsub : SubSim engine env.crypto.keccak S env.db advanced sub subC) {p : Program} (hp : Returns S p) :
    ∀ {m : Machine} {k : Caches A}, Cons m.state → k.Ok engine env.crypto.keccak S → k.analysis.isSome = advanced →
      SimE (fun r => S r.output) k (runProgram env txn sub p m) (runProgramC env txn subC p m k) := by
  induction hp with
  | done r h => intro m k hc hk ha; exact .done hk h hc
  | ask c next h ih =>
    intro m k hc hk ha
    exact (host_sim hsub hc hk ha c).bind fun r m' k' _ hc' ha' => ih r hc' ha'.ok (ha'.advanced.trans ha)

/-- Between acquiring and releasing a state. -/
theorem pooled_sim (hsub : SubSim engine env.crypto.keccak S env.db advanced sub subC) {p : Program} (hp : Returns S p)
    {m : Machine} {k : Caches A} (hc : Cons m.state) (hk : k.Ok engine env.crypto.keccak S) (ha : k.analysis.isSome = advanced) :
    SimE (fun r => S r.output) k (runProgram env txn sub p m)
      (k.acquire.bind fun s => (runProgramC env txn subC p m s.2).bind fun r => .ok (r.1, r.2.1, r.2.2.release s.1)) := by
  obtain ⟨id, k1, e, ok1, b1, n1, a1, p1⟩ := acquire_ok hk
  rw [e]
  have h := runProgram_sim (txn := txn) hsub hp hc ok1 (by rw [a1]; exact ha)
  simp only [Outcome.bind]
  cases hx : runProgram env txn sub p m with
  | ok r =>
    rw [hx] at h
    obtain ⟨h1, h2, k2, h3, h4⟩ := h
    rw [h3]
    obtain ⟨ok3, b3, a3, p3⟩ := release_ok h4.ok (h4.busy.trans b1)
    exact ⟨h1, h2, _, rfl, ok3, b3, by rw [a3, h4.advanced, a1], by rw [p3, h4.pooled, p1]⟩
  | err e => rw [hx] at h; rw [show runProgramC env txn subC p m k1 = .err e from h]; rfl
  | ub => rw [hx] at h; rw [show runProgramC env txn subC p m k1 = .ub from h]; rfl

theorem executeCode_sim (hu : Universe engine env.crypto.keccak S) (hi : env.interpreter = program engine advanced)
    (hsub : SubSim engine env.crypto.keccak S env.db advanced sub subC) {msg : Message} {code : Bytes} {hash : Option Bytes}
    {m : Machine} {k : Caches A} (hc : Cons m.state) (hk : k.Ok engine env.crypto.keccak S) (ha : k.analysis.isSome = advanced)
    (hh : ∀ h, hash = some h → S code ∧ env.crypto.keccak code = h) :
    SimE (fun r => S r.output) k (executeCode env txn sub msg code m) (executeCodeC engine env txn subC msg code hash m k) := by
  unfold executeCode executeCodeC
  refine Sim.bind (P := fun r => S r.output) ?_ ?_
  · rw [hi]
    unfold program
    cases he : engine.exo with
    | some exo => exact runProgram_sim hsub (hu.exo exo he _ _ _) hc hk ha
    | none =>
      simp only
      cases had : advanced with
      | false =>
        rw [had] at ha
        rw [ha]
        simp only [Bool.false_eq_true, if_false]
        exact pooled_sim hsub (hu.baseline _ _ _) hc hk (by rw [ha, had])
      | true =>
        rw [had] at ha
        rw [ha]
        simp only [if_true]
        unfold executeDefault
        obtain ⟨k', e, hk'⟩ := analysisOf_ok hu.injective hk env.revision code hash hh
        rw [e]
        have := pooled_sim (txn := txn) hsub (hu.run env.revision msg code) (m := { m with addressStack := msg.destination :: m.addressStack })
          hc hk'.ok (by rw [hk'.advanced, ha, had])
        simp only [Outcome.bind] at this ⊢
        cases hx : runProgram env txn sub (engine.run (engine.analyze env.revision code) env.revision msg code)
            { m with addressStack := msg.destination :: m.addressStack } with
        | ok r =>
          rw [hx] at this
          obtain ⟨h1, h2, k2, h3, h4⟩ := this
          exact ⟨h1, h2, k2, h3, hk'.trans h4⟩
        | err e => rw [hx] at this; exact this
        | ub => rw [hx] at this; exact this
  · intro r m' k' hr hc' ha'
    unfold Machine.pop
    cases hst : m'.addressStack with
    | nil => rfl
    | cons a rest => exact Sim.done ha'.ok hr hc'

theorem depositCode_cons {a : Bytes} {r : Result} (hr : S r.output) {s : IntraBlockState} (hc : Cons s) :
    Cons (depositCode env a r s).2 := by
  unfold depositCode
  simp only
  split_ifs
  · exact hc
  · exact hc
  · exact hc.setCode a r.output hr
  · exact hc
  · exact hc
  · exact hc

theorem deploy_sim (hu : Universe engine env.crypto.keccak S) (hi : env.interpreter = program engine advanced)
    (hsub : SubSim engine env.crypto.keccak S env.db advanced sub subC) {msg : Message} {a : Bytes} {m : Machine} {k : Caches A}
    (hc : Cons m.state) (hk : k.Ok engine env.crypto.keccak S) (ha : k.analysis.isSome = advanced) :
    SimE (fun _ => True) k (deploy env txn sub msg a m) (deployC engine env txn subC msg a m k) := by
  have ho : Cons (openContract env msg a m.state) := hc.of_code (openContract_store env msg a _)
  unfold deploy deployC
  simp only
  generalize openContract env msg a m.state = t at ho ⊢
  refine Sim.bind (P := fun r => S r.output) (executeCode_sim hu hi hsub (hash := none) ho hk ha (by intro _ h; cases h)) ?_
  intro r m' k' hr hc' ha'
  have hd := depositCode_cons (a := a) hr hc'
  simp only
  generalize depositCode env a r m'.state = d at hd ⊢
  have hs : Cons (settle m.state.takeSnapshot d.1 d.2).2 := hd.of_code (settle_store _ _ _)
  generalize settle m.state.takeSnapshot d.1 d.2 = e at hs ⊢
  exact Sim.done ha'.ok trivial hs

theorem create_sim (hu : Universe engine env.crypto.keccak S) (hi : env.interpreter = program engine advanced)
    (hsub : SubSim engine env.crypto.keccak S env.db advanced sub subC) :
    SubSim engine env.crypto.keccak S env.db advanced (create env txn sub) (createC engine env txn subC) := by
  intro msg m k hc hk ha
  have hb : Cons (getBalance env.db m.state msg.sender).2 := hc.of_code (getBalance_store env.db _ _)
  unfold create createC
  simp only
  by_cases h1 : (getBalance env.db m.state msg.sender).1 < msg.value
  · rw [if_pos h1, if_pos h1]
    exact .done hk trivial hb
  · rw [if_neg h1, if_neg h1]
    generalize (getBalance env.db m.state msg.sender).2 = t at hb ⊢
    have hn : Cons (getNonce env.db t msg.sender).2 := hb.of_code (getNonce_code _ _)
    generalize getNonce env.db t msg.sender = n at hn ⊢
    generalize hs : setNonce env.db n.2 msg.sender ((n.1 + 1) % 2 ^ 64) = s
    have hs' : Cons s := hn.of_code (by rw [← hs]; exact setNonce_store _ _ _ _)
    generalize contractAddress env msg n.1 = address
    have haa : Cons (s.accessAccount address).2 := hs'.of_code (accessAccount_code _ _)
    generalize s.accessAccount address = a at haa ⊢
    have hn' : Cons (getNonce env.db a.2 address).2 := haa.of_code (getNonce_code _ _)
    generalize getNonce env.db a.2 address = n' at hn' ⊢
    have hh : Cons (IntraBlockState.getCodeHash env.db n'.2 address).2 := hn'.of_code (IntraBlockState.getCodeHash_code _ _)
    generalize IntraBlockState.getCodeHash env.db n'.2 address = h at hh ⊢
    by_cases h2 : n'.1 ≠ 0 ∨ h.1 ≠ kEmptyHash
    · rw [if_pos h2, if_pos h2]
      exact .done hk trivial hh
    · rw [if_neg h2, if_neg h2]
      exact deploy_sim hu hi hsub hh hk ha

theorem enter_sim (hu : Universe engine env.crypto.keccak S) (hi : env.interpreter = program engine advanced)
    (hsub : SubSim engine env.crypto.keccak S env.db advanced sub subC) {msg : Message} {rcpt : Bytes} {m : Machine} {k : Caches A}
    (hc : Cons m.state) (hk : k.Ok engine env.crypto.keccak S) (ha : k.analysis.isSome = advanced) :
    SimE (fun _ => True) k (enter env txn sub msg rcpt m) (enterC engine env txn subC msg rcpt m k) := by
  have ht : Cons (transfer env msg rcpt m.state) := hc.of_code (transfer_store env msg rcpt _)
  unfold enter enterC
  refine Sim.bind (P := fun _ => True) ?_ ?_
  · by_cases hp : env.isPrecompiled msg.destination = true
    · rw [if_pos hp, if_pos hp]
      cases hx : runPrecompiled env msg with
      | ok r => exact .done hk trivial ht
      | err e => cases e
      | ub => rfl
    · rw [if_neg hp, if_neg hp]
      unfold runCode runCodeC
      simp only
      by_cases he : (getCode env.db (transfer env msg rcpt m.state) msg.destination).1.isEmpty = true
      · rw [if_pos he, if_pos he]
        exact .done hk trivial (ht.getCode _)
      · rw [if_neg he, if_neg he]
        have hr := ht.runs msg.destination (fun h => he (by rw [h]; rfl))
        have := executeCode_sim (txn := txn) hu hi hsub (msg := { msg with destination := rcpt })
          (code := (getCode env.db (transfer env msg rcpt m.state) msg.destination).1)
          (hash := some (IntraBlockState.getCodeHash env.db (getCode env.db (transfer env msg rcpt m.state) msg.destination).2
            msg.destination).1)
          (m := { m with state := (IntraBlockState.getCodeHash env.db
            (getCode env.db (transfer env msg rcpt m.state) msg.destination).2 msg.destination).2 })
          ((ht.getCode _).of_code (IntraBlockState.getCodeHash_code _ _)) hk ha (by
            intro h e
            cases e
            exact hr)
        revert this
        unfold Sim
        split
        · exact fun ⟨_, h2, h3⟩ => ⟨trivial, h2, h3⟩
        · exact id
        · exact id
  · intro r m' k' _ hc' ha'
    exact Sim.done ha'.ok trivial (hc'.of_code (settle_store _ _ _))

theorem call_sim (hu : Universe engine env.crypto.keccak S) (hi : env.interpreter = program engine advanced)
    (hsub : SubSim engine env.crypto.keccak S env.db advanced sub subC) :
    SubSim engine env.crypto.keccak S env.db advanced (call env txn sub) (callC engine env txn subC) := by
  intro msg m k hc hk ha
  unfold call callC
  simp only
  set b := if msg.kind = .delegatecall then (msg.value, m.state) else getBalance env.db m.state msg.sender with hb
  have hcb : Cons b.2 := by
    rw [hb]
    split_ifs
    · exact hc
    · exact hc.of_code (getBalance_store env.db _ _)
  by_cases h1 : msg.kind ≠ .delegatecall ∧ b.1 < msg.value
  · rw [if_pos h1, if_pos h1]
    exact .done hk trivial hcb
  · rw [if_neg h1, if_neg h1]
    cases hr : recipient msg m.addressStack with
    | err e => rfl
    | ub => rfl
    | ok rcpt =>
      simp only [Outcome.bind]
      by_cases h2 : msg.value = 0 ∧ env.revision ≥ Revision.spuriousDragon ∧ env.isPrecompiled msg.destination = false
      · rw [if_pos h2, if_pos h2]
        have hce : Cons (exists? env.db b.2 msg.destination).2 := hcb.of_code (exists?_code _ _)
        by_cases h3 : (exists? env.db b.2 msg.destination).1 = false
        · rw [if_pos h3, if_pos h3]
          exact .done hk trivial hce
        · rw [if_neg h3, if_neg h3]
          exact enter_sim hu hi hsub hce hk ha
      · rw [if_neg h2, if_neg h2]
        exact enter_sim hu hi hsub hcb hk ha

theorem message_sim (hu : Universe engine env.crypto.keccak S) (hi : env.interpreter = program engine advanced) (depth : Nat) :
    SubSim engine env.crypto.keccak S env.db advanced (message env txn depth) (messageC engine env txn depth) := by
  induction depth with
  | zero => intro msg m k hc hk ha; rfl
  | succ n ih =>
    intro msg m k hc hk ha
    unfold message messageC
    by_cases h : msg.kind = .create ∨ msg.kind = .create2
    · rw [if_pos h, if_pos h]; exact create_sim hu hi ih msg m k hc hk ha
    · rw [if_neg h, if_neg h]; exact call_sim hu hi ih msg m k hc hk ha

theorem execute_sim (hu : Universe engine env.crypto.keccak S) (hi : env.interpreter = program engine advanced) (gas : Nat)
    {m : Machine} {k : Caches A} (hc : Cons m.state) (hk : k.Ok engine env.crypto.keccak S) (ha : k.analysis.isSome = advanced) :
    SimE (fun _ => True) k (execute env txn gas m) (executeC engine env txn gas m k) := by
  unfold execute executeC
  cases txn.sender with
  | none => rfl
  | some sender =>
    simp only
    refine Sim.bind (message_sim hu hi maxNesting _ m k hc hk ha) ?_
    intro r m' k' _ hc' ha'
    exact Sim.done ha'.ok trivial hc'

end

theorem uses_sim {engine : Engine A} {keccak : Bytes → Bytes} {S : Bytes → Prop} {advanced : Bool} (hu : Universe engine keccak S)
    (uses : List Use) (h : ∀ u ∈ uses, u.env.crypto.keccak = keccak ∧ u.env.interpreter = program engine advanced ∧
      Consistent keccak S u.env.db u.machine.state) {k : Caches A} (hk : k.Ok engine keccak S) (ha : k.analysis.isSome = advanced) :
    match withoutCaches uses with
    | .ok l => ∃ k', withCaches engine uses k = .ok (l, k') ∧ After engine keccak S k k'
    | .err e => withCaches engine uses k = .err e
    | .ub => withCaches engine uses k = .ub := by
  induction uses generalizing k with
  | nil => exact ⟨k, rfl, .refl hk⟩
  | cons u rest ih =>
    obtain ⟨h1, h2, h3⟩ := h u List.mem_cons_self
    subst h1
    have hs := execute_sim (txn := u.txn) hu h2 u.gas h3 hk ha
    simp only [withoutCaches, withCaches]
    cases hx : execute u.env u.txn u.gas u.machine with
    | err e => rw [hx] at hs; rw [show executeC engine u.env u.txn u.gas u.machine k = .err e from hs]; rfl
    | ub => rw [hx] at hs; rw [show executeC engine u.env u.txn u.gas u.machine k = .ub from hs]; rfl
    | ok r =>
      rw [hx] at hs
      obtain ⟨-, -, k', e, hk'⟩ := hs
      have := ih (fun v hv => h v (List.mem_cons_of_mem _ hv)) hk'.ok (hk'.advanced.trans ha)
      rw [e]
      simp only [Outcome.bind]
      cases hy : withoutCaches rest with
      | err e => rw [hy] at this; simp only [this]
      | ub => rw [hy] at this; simp only [this]
      | ok l =>
        rw [hy] at this
        obtain ⟨k'', e2, hk''⟩ := this
        exact ⟨k'', by simp only [e2], hk'.trans hk''⟩

end Silkworm.Evm
