import Verif.State.Commit

/-!
# Reads in terms of views

Helper lemmas: what reads return depends on the view only.
-/

namespace Silkworm.IntraBlockState

open State Spec MemoryBuffer

variable {keccak : Bytes → Bytes} {db : StateReader}

/-- The code of an optional account. -/
def View.codeAt (v : View) : Option Account → Bytes
  | none => []
  | some c => if c.codeHash = kEmptyHash then [] else v.code c.codeHash

/-- Storage of an optional account. -/
def View.slot (v : View) (a k : Bytes) (original : Bool) : Bytes :=
  match v.cur a with
  | none => zero32
  | some _ => if original then v.orig a k else v.curv a k

/-- What a read returns. -/
def View.read (v : View) : Op → OpResult
  | .doesExist a => .bool (v.cur a).isSome
  | .isDead a => .bool (deadAcc (v.cur a))
  | .getBalance a => .nat (((v.cur a).map (·.balance)).getD 0)
  | .getNonce a => .nat (((v.cur a).map (·.nonce)).getD 0)
  | .getCode a => .bytes (v.codeAt (v.cur a))
  | .getCodeHash a => .bytes (((v.cur a).map (·.codeHash)).getD kEmptyHash)
  | .getCurrentStorage a k => .bytes (v.slot a k false)
  | .getOriginalStorage a k => .bytes (v.slot a k true)
  | .getRefund => .nat v.refund
  | _ => .unit

theorem result_read (s : IntraBlockState) {o : Op} (h : IsRead o) : result keccak db s o = (view db s).read o := by
  unfold result
  cases o with
  | doesExist a => obtain ⟨t, e, _⟩ := exists?_eq (db := db) s a; simp only [Op.step, e]; rfl
  | isDead a => obtain ⟨t, e, _⟩ := isDead_eq (db := db) s a; simp only [Op.step, e]; rfl
  | getBalance a => obtain ⟨t, e, _⟩ := getBalance_eq (db := db) s a; simp only [Op.step, e]; rfl
  | getNonce a => obtain ⟨t, e, _⟩ := getNonce_eq (db := db) s a; simp only [Op.step, e]; rfl
  | getCode a => obtain ⟨t, e, _⟩ := getCode_eq (db := db) s a; simp only [Op.step, e]; rfl
  | getCodeHash a => obtain ⟨t, e, _⟩ := getCodeHash_eq (db := db) s a; simp only [Op.step, e]; rfl
  | getCurrentStorage a k =>
    obtain ⟨t, e, _⟩ := getStorage_eq (db := db) s a k false
    simp only [Op.step, getCurrentStorage, e]; rfl
  | getOriginalStorage a k =>
    obtain ⟨t, e, _⟩ := getStorage_eq (db := db) s a k true
    simp only [Op.step, getOriginalStorage, e]; rfl
  | getRefund => rfl
  | _ => exact absurd h id

/-- Reading leaves the view alone. -/
theorem read_same (s : IntraBlockState) {o : Op} (h : IsRead o) : Same db s (o.step keccak db s).2 := by
  cases o with
  | doesExist a => obtain ⟨t, e, hs⟩ := exists?_eq (db := db) s a; simp only [Op.step, e]; exact hs
  | isDead a => obtain ⟨t, e, hs⟩ := isDead_eq (db := db) s a; simp only [Op.step, e]; exact hs
  | getBalance a => obtain ⟨t, e, hs⟩ := getBalance_eq (db := db) s a; simp only [Op.step, e]; exact hs
  | getNonce a => obtain ⟨t, e, hs⟩ := getNonce_eq (db := db) s a; simp only [Op.step, e]; exact hs
  | getCode a => obtain ⟨t, e, hs⟩ := getCode_eq (db := db) s a; simp only [Op.step, e]; exact hs
  | getCodeHash a => obtain ⟨t, e, hs⟩ := getCodeHash_eq (db := db) s a; simp only [Op.step, e]; exact hs
  | getCurrentStorage a k =>
    obtain ⟨t, e, hs⟩ := getStorage_eq (db := db) s a k false
    simp only [Op.step, getCurrentStorage, e]; exact hs
  | getOriginalStorage a k =>
    obtain ⟨t, e, hs⟩ := getStorage_eq (db := db) s a k true
    simp only [Op.step, getOriginalStorage, e]; exact hs
  | getRefund => exact Same.refl s
  | _ => exact absurd h id

/-- Codes in views. -/
theorem noClash_view {s : IntraBlockState} {codes : List Bytes} (h : NoClash keccak db s codes) {code : Bytes}
    (hc : code ∈ codes) {a : Bytes} {c : Account} (hcur : curOf db s a = some c) (hk : keccak code = c.codeHash)
    (he : c.codeHash ≠ kEmptyHash) : lookupCode db s c.codeHash = code := by
  have hcur' : (view db s).cur a = some c := hcur
  have h1 := h code hc (by rw [hk]; exact he) a (by
    rw [result_read s (by trivial)]
    simp only [View.read, hcur', Option.map_some, Option.getD_some, hk])
  rw [result_read s (by trivial)] at h1
  simp only [View.read, hcur', View.codeAt, if_neg he, OpResult.bytes.injEq] at h1
  exact h1

theorem trace_codeIn (t : Trace) (s : IntraBlockState) {W : Bytes → Prop} (h : ∀ c ∈ traceCodes t, W c) :
    t.All keccak db (fun o _ => o.CodeIn W) s := by
  induction t generalizing s with
  | nil => trivial
  | op o rest ih =>
    refine ⟨?_, ih _ (fun c hc => h c (List.mem_append_right _ hc))⟩
    cases o with
    | setCode a code => exact h code (List.mem_append_left _ (List.mem_cons_self))
    | _ => trivial
  | scope body revert rest ihb ihr =>
    exact ⟨ihb s (fun c hc => h c (List.mem_append_left _ hc)), ihr _ (fun c hc => h c (List.mem_append_right _ hc))⟩

theorem phases_codeIn (ps : List Phase) (s : IntraBlockState) {W : Bytes → Prop} (h : ∀ c ∈ phaseCodes ps, W c) :
    PhasesAll keccak db (fun o _ => o.CodeIn W) ps s := by
  induction ps generalizing s with
  | nil => trivial
  | cons p ps ih =>
    cases p with
    | ops t =>
      exact ⟨trace_codeIn t s (fun c hc => h c (List.mem_append_left _ hc)),
        ih _ (fun c hc => h c (List.mem_append_right _ hc))⟩
    | _ => exact ⟨trivial, ih _ h⟩

theorem phases_codeExt (ps : List Phase) (s : IntraBlockState) {W : Bytes → Prop} (h : ∀ c ∈ phaseCodes ps, W c) :
    CodeExt keccak db W s (runPhases keccak db ps s).2 := by
  induction ps generalizing s with
  | nil => exact CodeExt.refl s
  | cons p ps ih =>
    cases p with
    | ops t =>
      refine CodeExt.trans ?_ (ih _ (fun c hc => h c (List.mem_append_right _ hc)))
      exact (run_ok (strict := False) t s (fun h => h.elim) (trace_codeIn t s (fun c hc => h c (List.mem_append_left _ hc)))).code
    | destructSuicides =>
      exact (CodeExt.of_code (foldl_destruct_view (db := db) s.selfDestructs s).2).trans (ih _ h)
    | destructTouchedDead => exact (CodeExt.of_code (destructTouchedDead_view (db := db) s).2).trans (ih _ h)
    | finalizeTransaction => exact (CodeExt.of_code (by rfl)).trans (ih _ h)
    | clearJournalAndSubstate => exact (CodeExt.of_code (by rfl)).trans (ih _ h)

/-- Reads agree when the parts they look at agree. -/
theorem read_congr {v w : View} (ho : ∀ a, v.cur a = w.cur a)
    (hor : ∀ a k, v.cur a ≠ none → v.orig a k = w.orig a k) (hcu : ∀ a k, v.cur a ≠ none → v.curv a k = w.curv a k)
    (hcode : ∀ a c, v.cur a = some c → c.codeHash ≠ kEmptyHash → v.code c.codeHash = w.code c.codeHash)
    {o : Op} (hr : o = .getRefund → v.refund = w.refund) : v.read o = w.read o := by
  have hslot : ∀ a k b, v.slot a k b = w.slot a k b := by
    intro a k b
    unfold View.slot
    rw [← ho a]
    cases hc : v.cur a with
    | none => rfl
    | some c =>
      have h1 := hor a k (by rw [hc]; simp)
      have h2 := hcu a k (by rw [hc]; simp)
      simp only [h1, h2]
  cases o with
  | doesExist a => simp only [View.read, ho]
  | isDead a => simp only [View.read, ho]
  | getBalance a => simp only [View.read, ho]
  | getNonce a => simp only [View.read, ho]
  | getCodeHash a => simp only [View.read, ho]
  | getCode a =>
    simp only [View.read, ← ho]
    congr 1
    unfold View.codeAt
    cases hc : v.cur a with
    | none => rfl
    | some c =>
      simp only
      by_cases he : c.codeHash = kEmptyHash
      · rw [if_pos he, if_pos he]
      · rw [if_neg he, if_neg he, hcode a c hc he]
  | getCurrentStorage a k => simp only [View.read, hslot]
  | getOriginalStorage a k => simp only [View.read, hslot]
  | getRefund => simp only [View.read, hr rfl]
  | _ => rfl

theorem result_accessAccount (s : IntraBlockState) (a : Bytes) :
    result keccak db s (.accessAccount a) = .bool (!(s.accessedAddresses.contains a)) := by
  show OpResult.bool (IntraBlockState.accessAccount s a).1 = _
  rw [accessAccount_fst]

theorem result_accessStorage (s : IntraBlockState) (a k : Bytes) :
    result keccak db s (.accessStorage a k) = .bool (!((keysOf s a).contains k)) := by
  show OpResult.bool (IntraBlockState.accessStorage s a k).1 = _
  rw [accessStorage_fst]

theorem observations_of_view {s t : IntraBlockState} (h : view db s = view db t) : SameObservations keccak db s t := by
  have e1 := congrArg View.accessedAddresses h
  have e2 := congrArg View.keys h
  have e3 := congrArg View.selfDestructs h
  have e4 := congrArg View.touched h
  refine ⟨fun o ho => ?_, fun a => ?_, fun a k => ?_, congrArg View.logs h, e3, ?_, fun a ha => ?_⟩
  · rw [result_read s ho, result_read t ho, h]
  · rw [result_accessAccount, result_accessAccount]
    have : s.accessedAddresses = t.accessedAddresses := e1
    rw [this]
  · rw [result_accessStorage, result_accessStorage]
    have : keysOf s = keysOf t := e2
    rw [this]
  · unfold numberOfSelfDestructs
    have : s.selfDestructs = t.selfDestructs := e3
    rw [this]
  · have e : s.touched.filter (· != kRipemdAddress) = t.touched.filter (· != kRipemdAddress) := e4
    have key : ∀ l : List Bytes, a ∈ l ↔ a ∈ l.filter (· != kRipemdAddress) := fun l => by
      rw [List.mem_filter]; simp [ha]
    rw [key s.touched, key t.touched, e]

/-- Reads about other addresses. -/
theorem read_frame {v w : View} (a : Bytes) (ho : ∀ b, b ≠ a → v.cur b = w.cur b)
    (hor : ∀ b k, b ≠ a → v.orig b k = w.orig b k) (hcu : ∀ b k, b ≠ a → v.curv b k = w.curv b k)
    (hcode : ∀ b c, b ≠ a → v.cur b = some c → c.codeHash ≠ kEmptyHash → v.code c.codeHash = w.code c.codeHash)
    (hr : v.refund = w.refund) {o : Op} (hn : readAddress o ≠ some a) : v.read o = w.read o := by
  have ne : ∀ b, some b ≠ some a → b ≠ a := fun b h e => h (by rw [e])
  have hslot : ∀ b k x, b ≠ a → v.slot b k x = w.slot b k x := by
    intro b k x hb
    unfold View.slot
    rw [ho b hb, hor b k hb, hcu b k hb]
  cases o with
  | doesExist b => simp only [View.read, ho b (ne b hn)]
  | isDead b => simp only [View.read, ho b (ne b hn)]
  | getBalance b => simp only [View.read, ho b (ne b hn)]
  | getNonce b => simp only [View.read, ho b (ne b hn)]
  | getCodeHash b => simp only [View.read, ho b (ne b hn)]
  | getCode b =>
    simp only [View.read, ← ho b (ne b hn)]
    congr 1
    unfold View.codeAt
    cases hc : v.cur b with
    | none => rfl
    | some c =>
      simp only
      by_cases he : c.codeHash = kEmptyHash
      · rw [if_pos he, if_pos he]
      · rw [if_neg he, if_neg he, hcode b c (ne b hn) hc he]
  | getCurrentStorage b k => simp only [View.read, hslot b k _ (ne b hn)]
  | getOriginalStorage b k => simp only [View.read, hslot b k _ (ne b hn)]
  | getRefund => simp only [View.read, hr]
  | _ => rfl

/-- How a write changes code and refund. -/
theorem write_keeps (s : IntraBlockState) {w : Op} (hw : IsWrite w) (hn : ∀ a code, w ≠ .setCode a code) :
    Keeps s (w.step keccak db s).2 := by
  cases w with
  | setBalance a x => exact (modifyCurrent_keeps s a _).trans (touch_keeps _ a)
  | addToBalance a x => exact (modifyCurrent_keeps s a _).trans (touch_keeps _ a)
  | subtractFromBalance a x => exact (modifyCurrent_keeps s a _).trans (touch_keeps _ a)
  | setNonce a n => exact modifyCurrent_keeps s a (fun c => { c with nonce := n })
  | setCode a code => exact absurd rfl (hn a code)
  | setStorage a k v => exact setStorage_keeps s a k v
  | _ => exact absurd hw id

theorem read_step_congr {s : IntraBlockState} {w : Op} {v : View} (h : SameShape (view db (w.step keccak db s).2) v)
    (hcode : (view db (w.step keccak db s).2).code = v.code) (hr : (view db (w.step keccak db s).2).refund = v.refund)
    {o : Op} (ho : IsRead o) : result keccak db (w.step keccak db s).2 o = v.read o := by
  rw [result_read _ ho]
  have hc : ∀ a, (view db (w.step keccak db s).2).cur a = v.cur a := fun a => by unfold View.cur; rw [h.obj]
  refine read_congr hc (fun a k _ => by rw [h.orig]) (fun a k _ => by rw [h.curv]) (fun a c _ _ => by rw [hcode]) (fun _ => hr)

/-- The view after a write, as far as reads are concerned. -/
def writeView (keccak : Bytes → Bytes) (db : StateReader) (s : IntraBlockState) (w : Op) : View :=
  match w with
  | .setCode a code =>
    { (view db s).modify a (fun c => { c with codeHash := keccak code }) with
      code := upd (view db s).code (keccak code) (known keccak s code) }
  | w => shapeStep keccak db w (view db s)

theorem result_write (s : IntraBlockState) {w o : Op} (hw : IsWrite w) (ho : IsRead o) :
    result keccak db (w.step keccak db s).2 o = (writeView keccak db s w).read o := by
  have key : (∀ a code, w ≠ .setCode a code) → ∀ v : View, v = shapeStep keccak db w (view db s) →
      v.code = (view db s).code → v.refund = (view db s).refund →
      result keccak db (w.step keccak db s).2 o = v.read o := by
    intro hn v hv hcode href
    have hk := write_keeps (keccak := keccak) (db := db) s hw hn
    refine read_step_congr (by rw [hv]; exact step_shape s w) ?_ ?_ ho
    · rw [hcode]
      show lookupCode db _ = lookupCode db s
      funext x
      unfold lookupCode
      rw [hk.code]
    · rw [href]; exact hk.refund
  cases w with
  | setBalance a x => exact key (fun _ _ h => by cases h) _ rfl rfl rfl
  | addToBalance a x => exact key (fun _ _ h => by cases h) _ rfl rfl rfl
  | subtractFromBalance a x => exact key (fun _ _ h => by cases h) _ rfl rfl rfl
  | setNonce a n => exact key (fun _ _ h => by cases h) _ rfl rfl rfl
  | setStorage a k v =>
    refine key (fun _ _ h => by cases h) _ rfl ?_ ?_
    · show ((view db s).setStorage a k v).code = _
      rcases setStorage_cases (view db s) a k v with e | e <;> rw [e]
    · show ((view db s).setStorage a k v).refund = _
      rcases setStorage_cases (view db s) a k v with e | e <;> rw [e]
  | setCode a code =>
    rw [result_read _ ho]
    show (view db (setCode keccak db s a code)).read o = _
    rw [setCode_view]
    rfl
  | _ => exact absurd hw id

/-- Reads that a change of one account does not affect. -/
theorem frame_modify {v w : View} {a : Bytes} {f : Account → Account} (hobj : w.obj = (v.modify a f).obj)
    (horig : w.orig = v.orig) (hcurv : w.curv = v.curv) (hr : w.refund = v.refund)
    (hcode : ∀ b c, b ≠ a → v.cur b = some c → c.codeHash ≠ kEmptyHash → w.code c.codeHash = v.code c.codeHash)
    {o : Op} (ho : IsRead o) (h1 : o ≠ .doesExist a) (h2 : o ≠ .isDead a)
    (h3 : o = .getBalance a → ∀ c, (f c).balance = c.balance) (h4 : o = .getNonce a → ∀ c, (f c).nonce = c.nonce)
    (h5 : o = .getCodeHash a → ∀ c, (f c).codeHash = c.codeHash)
    (h6 : o = .getCode a → (∀ c, (f c).codeHash = c.codeHash) ∧ w.code = v.code)
    (h7 : ∀ k, o = .getCurrentStorage a k ∨ o = .getOriginalStorage a k →
      v.cur a ≠ none ∨ (v.orig a k = zero32 ∧ v.curv a k = zero32)) : w.read o = v.read o := by
  have hcur : ∀ b, w.cur b = (v.modify a f).cur b := fun b => by unfold View.cur; rw [hobj]
  have hself : w.cur a = some (f ((v.cur a).getD {})) := by rw [hcur, View.modify_cur, if_pos rfl]
  have hother : ∀ b, b ≠ a → w.cur b = v.cur b := fun b hb => by rw [hcur, View.modify_cur, if_neg hb]
  by_cases hn : readAddress o = some a
  · cases o with
    | doesExist b => cases hn; exact absurd rfl h1
    | isDead b => cases hn; exact absurd rfl h2
    | getBalance b =>
      cases hn
      simp only [View.read, hself, Option.map_some, Option.getD_some, h3 rfl]
      cases v.cur a <;> rfl
    | getNonce b =>
      cases hn
      simp only [View.read, hself, Option.map_some, Option.getD_some, h4 rfl]
      cases v.cur a <;> rfl
    | getCodeHash b =>
      cases hn
      simp only [View.read, hself, Option.map_some, Option.getD_some, h5 rfl]
      cases v.cur a <;> rfl
    | getCode b =>
      cases hn
      obtain ⟨g1, g2⟩ := h6 rfl
      simp only [View.read, hself]
      congr 1
      unfold View.codeAt
      simp only [g1, g2]
      cases v.cur a <;> rfl
    | getCurrentStorage b k =>
      cases hn
      simp only [View.read]
      congr 1
      unfold View.slot
      rw [hself, hcurv, horig]
      rcases h7 k (Or.inl rfl) with h | ⟨_, h⟩
      · cases hc : v.cur a with
        | none => exact absurd hc h
        | some c => rfl
      · cases hc : v.cur a with
        | none => exact h
        | some c => rfl
    | getOriginalStorage b k =>
      cases hn
      simp only [View.read]
      congr 1
      unfold View.slot
      rw [hself, hcurv, horig]
      rcases h7 k (Or.inr rfl) with h | ⟨h, _⟩
      · cases hc : v.cur a with
        | none => exact absurd hc h
        | some c => rfl
      · cases hc : v.cur a with
        | none => exact h
        | some c => rfl
    | _ => cases hn
  · refine read_frame a hother (fun b k _ => by rw [horig]) (fun b k _ => by rw [hcurv]) (fun b c hb hc he => ?_) hr hn
    rw [hother b hb] at hc
    exact hcode b c hb hc he

/-- Reads that a storage write does not affect. -/
theorem frame_setStorage {v : View} {a k x : Bytes} {o : Op} (ho : o ≠ .getCurrentStorage a k) :
    (v.setStorage a k x).read o = v.read o := by
  rcases setStorage_cases v a k x with e | e
  · rw [e]
  · rw [e]
    cases o with
    | getCurrentStorage b j =>
      simp only [View.read]
      congr 1
      unfold View.slot
      show (match v.cur b with | none => zero32 | some _ => _) = _
      cases v.cur b with
      | none => rfl
      | some c =>
        simp only [Bool.false_eq_true, if_false]
        by_cases hb : b = a
        · subst hb
          rw [upd_self]
          exact upd_ne _ _ (fun h => ho (by rw [h]))
        · rw [upd_ne _ _ hb]
    | _ => rfl

/-- Writes leave other reads alone. -/
theorem write_frame (s : IntraBlockState) {w o : Op} (hw : IsWrite w) (ho : IsRead o) (hn : ¬ Affects w o)
    (hcode : ∀ a code, w = .setCode a code → NoClash keccak db s [code])
    (hst : ∀ a k, writeAddress w = some a → o = .getCurrentStorage a k ∨ o = .getOriginalStorage a k →
      (view db s).cur a ≠ none ∨ ((view db s).orig a k = zero32 ∧ (view db s).curv a k = zero32)) :
    result keccak db (w.step keccak db s).2 o = result keccak db s o := by
  rw [result_write s hw ho, result_read s ho]
  cases w with
  | setBalance a x =>
    exact frame_modify (v := view db s) (w := writeView keccak db s (.setBalance a x)) (a := a)
      (f := fun c => { c with balance := x }) (by rfl) rfl rfl rfl (fun _ _ _ _ _ => rfl) ho (fun h => hn (by rw [h]; rfl))
      (fun h => hn (by rw [h]; rfl)) (fun h => (hn (by rw [h]; rfl)).elim) (fun _ _ => rfl) (fun _ _ => rfl)
      (fun _ => ⟨fun _ => rfl, rfl⟩) (fun k h => hst a k rfl h)
  | addToBalance a x =>
    exact frame_modify (v := view db s) (w := writeView keccak db s (.addToBalance a x)) (a := a)
      (f := fun c => { c with balance := (c.balance + x) % 2 ^ 256 }) (by rfl) rfl rfl rfl (fun _ _ _ _ _ => rfl) ho (fun h => hn (by rw [h]; rfl))
      (fun h => hn (by rw [h]; rfl)) (fun h => (hn (by rw [h]; rfl)).elim) (fun _ _ => rfl) (fun _ _ => rfl)
      (fun _ => ⟨fun _ => rfl, rfl⟩) (fun k h => hst a k rfl h)
  | subtractFromBalance a x =>
    exact frame_modify (v := view db s) (w := writeView keccak db s (.subtractFromBalance a x)) (a := a)
      (f := fun c => { c with balance := (c.balance + (2 ^ 256 - x % 2 ^ 256)) % 2 ^ 256 }) (by rfl) rfl rfl rfl (fun _ _ _ _ _ => rfl) ho (fun h => hn (by rw [h]; rfl))
      (fun h => hn (by rw [h]; rfl)) (fun h => (hn (by rw [h]; rfl)).elim) (fun _ _ => rfl) (fun _ _ => rfl)
      (fun _ => ⟨fun _ => rfl, rfl⟩) (fun k h => hst a k rfl h)
  | setNonce a x =>
    exact frame_modify (v := view db s) (w := writeView keccak db s (.setNonce a x)) (a := a)
      (f := fun c => { c with nonce := x }) (by rfl) rfl rfl rfl (fun _ _ _ _ _ => rfl) ho (fun h => hn (by rw [h]; rfl))
      (fun h => hn (by rw [h]; rfl)) (fun _ _ => rfl) (fun h => (hn (by rw [h]; rfl)).elim) (fun _ _ => rfl)
      (fun _ => ⟨fun _ => rfl, rfl⟩) (fun k h => hst a k rfl h)
  | setCode a code =>
    refine frame_modify (v := view db s) (w := writeView keccak db s (.setCode a code)) (a := a)
      (f := fun c => { c with codeHash := keccak code }) (by rfl) rfl rfl rfl ?_ ho
      (fun h => hn (by rw [h]; rfl))
      (fun h => hn (by rw [h]; rfl)) (fun _ _ => rfl) (fun _ _ => rfl) (fun h => (hn (by rw [h]; rfl)).elim)
      (fun h => (hn (by rw [h]; rfl)).elim) (fun k h => hst a k rfl h)
    intro b c hb hc he
    show upd (view db s).code (keccak code) (known keccak s code) c.codeHash = _
    by_cases hk : c.codeHash = keccak code
    · have hl := noClash_view (hcode a code rfl) (by simp) (a := b) hc hk.symm he
      rw [hk, upd_self]
      rw [hk] at hl
      show _ = lookupCode db s (keccak code)
      unfold lookupCode at hl ⊢
      unfold known
      cases hg : s.code.get? (keccak code) with
      | none => rw [hg] at hl; exact hl.symm
      | some x => rfl
    · exact upd_ne _ _ hk
  | setStorage a k v => exact frame_setStorage (fun h => hn (by rw [h]; exact ⟨rfl, rfl⟩))
  | _ => exact absurd hw id

/-- The calls after the first one. -/
theorem commitCalls_tail {s : IntraBlockState} {n : Nat} {L : List BufferCall} (h : CommitCalls s n L) :
    ∃ M, L = .beginBlock n :: M ∧ ∀ c ∈ M, c ∈ writeToDb s n ∧ Plain c := by
  obtain ⟨M, hM⟩ := h.first
  refine ⟨M, hM, fun c hc => ?_⟩
  have hp := h.perm
  rw [hM] at hp
  unfold writeToDb at hp
  have hp' := (List.perm_cons _).mp hp
  have hmem := hp'.mem_iff.mp hc
  refine ⟨List.mem_cons_of_mem _ hmem, ?_⟩
  rcases List.mem_append.mp hmem with h | h
  · obtain ⟨e, _, he⟩ := List.mem_flatMap.mp h
    obtain ⟨_, _, _, _, _, _, rfl⟩ := storageCalls_mem he
    trivial
  · obtain ⟨e, _, he⟩ := List.mem_flatMap.mp h
    rcases objectCalls_mem he with rfl | ⟨_, _, _, rfl⟩ <;> trivial

theorem commitCalls_same {s : IntraBlockState} {n : Nat} {L : List BufferCall} (h : CommitCalls s n L) :
    SameCalls L (writeToDb s n) := fun _ => h.perm.mem_iff

/-- One block recorded. -/
theorem commit_recorded {b : MemoryBuffer} {s : IntraBlockState} (hi : Inv b.reader s) {n : Nat} {L : List BufferCall}
    (h : CommitCalls s n L) : Recorded (b.applyAll L) n b.readAccount b.readStorage := by
  obtain ⟨M, rfl, hM⟩ := commitCalls_tail h
  refine recorded_applyAll M (recorded_begin b n) (fun c hc => ?_)
  rcases writeToDb_faithful hi (hM c hc).1 with rfl | hf
  · exact absurd (hM _ hc).2 id
  · exact hf

theorem commit_other {b : MemoryBuffer} {s : IntraBlockState} {n : Nat} {L : List BufferCall}
    (h : CommitCalls s n L) {m : Nat} (hm : m ≠ n) :
    (b.applyAll L).changes m = b.changes m ∧ (b.applyAll L).storeChanges m = b.storeChanges m := by
  obtain ⟨M, rfl, hM⟩ := commitCalls_tail h
  obtain ⟨h1, h2⟩ := begin_other b n hm
  obtain ⟨g1, g2⟩ := applyAll_other M (b := b.beginBlock n) (fun c hc => (hM c hc).2) hm
  exact ⟨g1.trans h1, g2.trans h2⟩

theorem blocks_safeDb {b b' : MemoryBuffer} {ns : List Nat} (h : Blocks keccak b ns b') (hdb : SafeDb b.reader) :
    SafeDb b'.reader := by
  induction h with
  | nil b => exact hdb
  | block b n ps L ns b' safe _ hend calls _ ih =>
    have hi := phases_inv hdb ps safe inv_init
    have hp := phases_stable hdb (plainZero_stable (keccak := keccak) hdb) ps safe
      (PhasesAll.triv (fun _ _ => trivial) ps {}) inv_init (plainZero_init hdb)
    exact ih (commit_safeDb hdb hi hp hend (commitCalls_same calls))

theorem blocks_changes {b b' : MemoryBuffer} {ns : List Nat} (h : Blocks keccak b ns b') {m : Nat} (hm : m ∉ ns) :
    b'.changes m = b.changes m ∧ b'.storeChanges m = b.storeChanges m := by
  induction h with
  | nil b => exact ⟨rfl, rfl⟩
  | block b n ps L ns b' _ _ _ calls _ ih =>
    obtain ⟨h1, h2⟩ := ih (fun h => hm (List.mem_cons_of_mem _ h))
    obtain ⟨g1, g2⟩ := commit_other (b := b) calls (m := m) (fun h => hm (by rw [h]; exact List.mem_cons_self))
    exact ⟨h1.trans g1, h2.trans g2⟩

theorem unwindAll_changes (ns : List Nat) (b : MemoryBuffer) (m : Nat) :
    (unwindAll b ns).changes m = b.changes m ∧ (unwindAll b ns).storeChanges m = b.storeChanges m := by
  induction ns generalizing b with
  | nil => exact ⟨rfl, rfl⟩
  | cons n ns ih => exact ih (b.unwindStateChanges n)

theorem unwindAll_append (l m : List Nat) (b : MemoryBuffer) : unwindAll b (l ++ m) = unwindAll (unwindAll b l) m := by
  induction l generalizing b with
  | nil => rfl
  | cons n l ih => exact ih (b.unwindStateChanges n)

theorem blocks_unwind {b b' : MemoryBuffer} {ns : List Nat} (h : Blocks keccak b ns b') (hdb : SafeDb b.reader)
    (hn : ns.Nodup) : SameContents (unwindAll b' ns.reverse) b := by
  induction h with
  | nil b => exact ⟨fun _ => rfl, fun _ _ _ => rfl⟩
  | block b n ps L ns b' safe settled hend calls rest ih =>
    have hdb1 : SafeDb (b.applyAll L).reader := by
      refine blocks_safeDb (keccak := keccak) (ns := [n]) ?_ hdb
      exact .block b n ps L [] _ safe settled hend calls (.nil _)
    obtain ⟨hn1, hn2⟩ := List.nodup_cons.mp hn
    obtain ⟨i1, i2⟩ := ih hdb1 hn2
    obtain ⟨c1, c2⟩ := blocks_changes rest hn1
    obtain ⟨u1, u2⟩ := unwindAll_changes ns.reverse b' n
    have hi := phases_inv hdb ps safe inv_init
    obtain ⟨r1, r2⟩ := unwind_recorded (commit_recorded (b := b) hi calls)
    obtain ⟨x1, x2⟩ := unwind_congr (b := unwindAll b' ns.reverse) (c := b.applyAll L) (m := n) (u1.trans c1) (u2.trans c2) i1 i2
    rw [List.reverse_cons, unwindAll_append]
    exact ⟨fun a => (x1 a).trans (r1 a), fun a i k => (x2 a i k).trans (r2 a i k)⟩

/-- A fresh state over a buffer. -/
theorem fresh_cur (b : MemoryBuffer) (a : Bytes) : (view b.reader {}).cur a = b.readAccount a := by
  show curOf b.reader {} a = _
  unfold curOf effObj
  show (Option.map _ (b.readAccount a)).bind _ = _
  cases b.readAccount a <;> rfl

theorem fresh_slot (b : MemoryBuffer) {a : Bytes} {c : Account} (h : b.readAccount a = some c) (k : Bytes) :
    (view b.reader {}).orig a k = b.readStorage a c.incarnation k ∧
      (view b.reader {}).curv a k = b.readStorage a c.incarnation k := by
  have hc : curOf b.reader {} a = some c := (fresh_cur b a).trans h
  have hi : iniOf b.reader {} a = some c := by
    unfold iniOf effObj
    show (Option.map _ (b.readAccount a)).bind _ = _
    rw [h]
    rfl
  have : dbView b.reader (iniOf b.reader {} a) (incOf (curOf b.reader {} a)) a k = b.readStorage a c.incarnation k := by
    rw [hi, hc]
    unfold dbView incOf
    simp only [ne_eq, not_true_eq_false, if_false]
    rfl
  exact ⟨this, this⟩

theorem settled_view {s : IntraBlockState} (h : Settled keccak db s) {a : Bytes} {c : Account} (hc : curOf db s a = some c)
    (k : Bytes) : curvOf db s a k = origOf db s a k := by
  have h1 := h a k
  rw [result_read s (by trivial), result_read s (by trivial)] at h1
  have hc' : (view db s).cur a = some c := hc
  simp only [View.read, View.slot, hc', OpResult.bytes.injEq, if_true] at h1
  exact h1

end Silkworm.IntraBlockState
