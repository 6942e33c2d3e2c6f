import Verif.Crypto.EthashLemmas

namespace Silkworm.Ethash

open Keccak (keccak256 keccak512)
open Spec.Keccak (number)
open Spec.Ethash (serialize deserialize fnv sequential remix mkcache)

theorem serialize_words {k : Nat} {b : Bytes} (h : b.length = 4 * k) : serialize (words 4 b) = b := by
  rw [← ofWords_eq, ofWords_words (by decide) k b h]

theorem serialize_append (a b : List Nat) : serialize (a ++ b) = serialize a ++ serialize b := List.flatMap_append ..

theorem words_append (k : Nat) (a b : Bytes) (h : a.length = 4 * k) : words 4 (a ++ b) = words 4 a ++ words 4 b := by
  refine chunk_induction (n := 4) (P := fun a => words 4 (a ++ b) = words 4 a ++ words 4 b) ?_ ?_ k a h
  · rw [words_nil]; rfl
  · intro x y hx ih
    rw [List.append_assoc, words_cons (by decide) hx, words_cons (by decide) hx, ih, List.cons_append]

/-! The light cache -/

/-- The items of a cache of the code are those of a cache of the specification. -/
structure Rep (cache : List Bytes) (o : List (List Nat)) : Prop where
  length : ∀ x ∈ cache, x.length = 64
  words : cache.map (Ethash.words 4) = o

theorem Rep.size {cache : List Bytes} {o : List (List Nat)} (h : Rep cache o) : o.length = cache.length := by
  rw [← h.words, List.length_map]

theorem Rep.at {cache : List Bytes} {o : List (List Nat)} (h : Rep cache o) {i : Nat} (hi : i < cache.length) :
    ∃ x, itemAt cache i = .ok x ∧ x.length = 64 ∧ Ethash.words 4 x = o.getD i [] := by
  refine ⟨cache[i], ?_, h.length _ (List.getElem_mem _), ?_⟩
  · unfold itemAt; rw [List.getElem?_eq_getElem hi]
  · rw [← h.words, List.getD_eq_getElem?_getD, List.getElem?_map, List.getElem?_eq_getElem hi]; rfl

theorem Rep.set {cache : List Bytes} {o : List (List Nat)} (h : Rep cache o) (i : Nat) {x : Bytes} (hx : x.length = 64) :
    Rep (cache.set i x) (o.set i (Ethash.words 4 x)) := by
  refine ⟨fun y hy => ?_, by rw [List.map_set, h.words]⟩
  rcases List.mem_or_eq_of_mem_set hy with hy | hy
  · exact h.length y hy
  · rw [hy]; exact hx

/-- The items of the first loop. -/
def seqBytes (seed : Bytes) : Nat → Bytes
  | 0 => keccak512 seed
  | i + 1 => keccak512 (seqBytes seed i)

theorem length_seqBytes (seed : Bytes) : ∀ i, (seqBytes seed i).length = 64
  | 0 => length_keccak512 _
  | _ + 1 => length_keccak512 _

theorem words_seqBytes (seed : Bytes) : ∀ i, words 4 (seqBytes seed i) = sequential seed i
  | 0 => words_keccak512 _
  | i + 1 => by
    rw [seqBytes, words_keccak512, sequential, ← words_seqBytes seed i, serialize_words (k := 16) (length_seqBytes seed i)]

theorem firstLoop_eq (seed : Bytes) (num : Nat) : ∀ n i cache, cache.length = num → i + 1 + n = num →
    (∀ j, j < i + 1 → cache[j]? = some (seqBytes seed j)) →
    ∃ c, firstLoop keccak512 n (i + 1) (seqBytes seed i) cache = .ok c ∧ c.length = num ∧ ∀ j, j < num → c[j]? = some (seqBytes seed j)
  | 0, i, cache, hl, hn, h => ⟨cache, rfl, hl, fun j hj => h j (by omega)⟩
  | n + 1, i, cache, hl, hn, h => by
    unfold firstLoop
    rw [if_pos (by omega)]
    refine firstLoop_eq seed num n (i + 1) _ (by rw [List.length_set, hl]) (by omega) fun j hj => ?_
    rw [List.getElem?_set]
    by_cases e : i + 1 = j
    · subst e
      rw [if_pos rfl, if_pos (by omega)]; rfl
    · rw [if_neg e]; exact h j (by omega)

theorem remainder_ok {a b : Nat} (h : 0 < b) : remainder a b = .ok (a % b) := if_neg (by omega)

theorem previous {num i : Nat} (h0 : 0 < num) (hn : num ≤ 2 ^ 31) (hi : i < num) :
    (num + (i + 2 ^ 32 - 1) % 2 ^ 32) % 2 ^ 32 % num = (i + num - 1) % num := by
  have e : (num + (i + 2 ^ 32 - 1) % 2 ^ 32) % 2 ^ 32 = i + num - 1 := by omega
  rw [e]

theorem mixItem_eq {cache : List Bytes} {o : List (List Nat)} (h : Rep cache o) {num i : Nat} (hl : cache.length = num) (h0 : 0 < num)
    (hn : num ≤ 2 ^ 31) (hi : i < num) :
    ∃ c, mixItem keccak512 num cache i = .ok c ∧ Rep c (remix num o i) ∧ c.length = num := by
  obtain ⟨x, e1, _, w1⟩ := h.at (i := i) (by omega)
  obtain ⟨a, e2, l2, w2⟩ := h.at (i := (words 4 x).getD 0 0 % num) (by rw [hl]; exact Nat.mod_lt _ h0)
  obtain ⟨b, e3, l3, w3⟩ := h.at (i := (i + num - 1) % num) (by rw [hl]; exact Nat.mod_lt _ h0)
  refine ⟨cache.set i (keccak512 (xor512 a b)), ?_, ?_, by rw [List.length_set, hl]⟩
  · unfold mixItem
    rw [e1, Outcome.ok_bind, remainder_ok h0, Outcome.ok_bind, remainder_ok h0, Outcome.ok_bind, previous h0 hn hi, e2, Outcome.ok_bind,
      e3, Outcome.ok_bind]
  · have hs := h.set i (length_keccak512 (xor512 a b))
    have e : o.set i (words 4 (keccak512 (xor512 a b))) = remix num o i := by
      unfold remix
      dsimp only
      rw [words_keccak512, ← w1, ← w2, ← w3]
      congr 2
      rw [← serialize_words (k := 16) (length_xor512 l2 l3), words_xor512 l2 l3]
      congr 1
      rw [List.zipWith_comm_of_comm (fun x y => Nat.xor_comm x y)]
    rw [← e]; exact hs

theorem mixLoop_eq {num : Nat} (h0 : 0 < num) (hn : num ≤ 2 ^ 31) : ∀ n i (cache : List Bytes) (o : List (List Nat)), Rep cache o →
    cache.length = num → i + n = num →
    ∃ c, mixLoop keccak512 num n i cache = .ok c ∧ Rep c ((List.range' i n).foldl (remix num) o) ∧ c.length = num
  | 0, i, cache, o, h, hl, _ => ⟨cache, rfl, h, hl⟩
  | n + 1, i, cache, o, h, hl, hi => by
    obtain ⟨c, e, hr, hc⟩ := mixItem_eq h hl h0 hn (i := i) (by omega)
    obtain ⟨c', e', hr', hc'⟩ := mixLoop_eq h0 hn n (i + 1) c _ hr hc (by omega)
    refine ⟨c', ?_, ?_, hc'⟩
    · unfold mixLoop; rw [e, Outcome.ok_bind, e']
    · rw [List.range'_succ, List.foldl_cons]; exact hr'

theorem mixRounds_eq {num : Nat} (h0 : 0 < num) (hn : num ≤ 2 ^ 31) : ∀ n (cache : List Bytes) (o : List (List Nat)), Rep cache o →
    cache.length = num →
    ∃ c, mixRounds keccak512 num n cache = .ok c ∧
      Rep c ((List.replicate n ()).foldl (fun o _ => (List.range num).foldl (remix num) o) o) ∧ c.length = num
  | 0, cache, o, h, hl => ⟨cache, rfl, h, hl⟩
  | n + 1, cache, o, h, hl => by
    obtain ⟨c, e, hr, hc⟩ := mixLoop_eq h0 hn num 0 cache o h hl (by omega)
    obtain ⟨c', e', hr', hc'⟩ := mixRounds_eq h0 hn n c _ hr hc
    refine ⟨c', ?_, ?_, hc'⟩
    · unfold mixRounds; rw [e, Outcome.ok_bind, e']
    · rw [List.replicate_succ, List.foldl_cons, List.range_eq_range']; rw [List.range_eq_range'] at hr'; exact hr'

theorem buildLightCache_eq {num : Nat} (h0 : 0 < num) (hn : num ≤ 2 ^ 31) (seed : Bytes) :
    ∃ c, buildLightCache keccak512 num seed = .ok c ∧ Rep c (mkcache num seed) ∧ c.length = num := by
  obtain ⟨c, e, hl, hc⟩ := firstLoop_eq seed num (num - 1) 0 ((List.replicate num (List.replicate 64 0)).set 0 (keccak512 seed))
    (by simp) (by omega) (by
      intro j hj
      have : j = 0 := by omega
      subst this
      rw [List.getElem?_set, if_pos rfl, if_pos (by simp; omega)]; rfl)
  have hc' : c = (List.range num).map (seqBytes seed) := by
    apply List.ext_getElem?
    intro j
    by_cases hj : j < num
    · rw [hc j hj, List.getElem?_map, List.getElem?_range hj]; rfl
    · rw [List.getElem?_eq_none (by omega), List.getElem?_eq_none (by simp; omega)]
  have hr : Rep c ((List.range num).map (sequential seed)) := by
    refine ⟨fun x hx => ?_, ?_⟩
    · rw [hc'] at hx
      obtain ⟨i, _, rfl⟩ := List.mem_map.mp hx
      exact length_seqBytes seed i
    · rw [hc', List.map_map]
      exact List.map_congr_left fun i _ => words_seqBytes seed i
  obtain ⟨c', e', hr', hl'⟩ := mixRounds_eq h0 hn 3 c _ hr hl
  refine ⟨c', ?_, hr', hl'⟩
  unfold buildLightCache
  simp only [List.length_replicate]
  rw [if_neg (by omega)]
  have e1 : firstLoop keccak512 (num - 1) 1 (keccak512 seed) ((List.replicate num (List.replicate 64 0)).set 0 (keccak512 seed)) = .ok c := e
  rw [e1, Outcome.ok_bind, e']

/-! Items of the dataset -/

/-- A context whose cache is that of the specification. -/
structure ContextOk (c : Context) (o : List (List Nat)) : Prop where
  rep : Rep c.cache o
  items : c.cacheItems = o.length
  some : 0 < o.length

theorem word_lt (b : Bytes) (i : Nat) : (words 4 b).getD i 0 < 2 ^ 32 := by
  rw [List.getD_eq_getElem?_getD]
  cases h : (words 4 b)[i]? with
  | none => simp
  | some w => exact words_lt (n := 4) b w (List.mem_of_getElem? h)

theorem init_eq {c : Context} {o : List (List Nat)} (h : ContextOk c o) (index : Nat) :
    ∃ s, Item.init c index = .ok s ∧ s.seed = index ∧ s.mix.length = 64 ∧
      words 4 s.mix = Spec.Ethash.hash512 (serialize ((o.getD (index % o.length) []).set 0 ((o.getD (index % o.length) []).getD 0 0 ^^^ index))) := by
  obtain ⟨x, e, _, w⟩ := h.rep.at (i := index % o.length) (by rw [← h.rep.size]; exact Nat.mod_lt _ h.some)
  refine ⟨⟨index, keccak512 (ofWords 4 ((words 4 x).set 0 ((words 4 x).getD 0 0 ^^^ index)))⟩, ?_, rfl, length_keccak512 _, ?_⟩
  · unfold Item.init
    rw [h.items, remainder_ok h.some, Outcome.ok_bind, e, Outcome.ok_bind]
  · rw [words_keccak512, ofWords_eq, w]

theorem update_eq {c : Context} {o : List (List Nat)} (h : ContextOk c o) (s : Item) (hs : s.mix.length = 64) (round : Nat) :
    ∃ s', s.update c round = .ok s' ∧ s'.seed = s.seed ∧ s'.mix.length = 64 ∧ words 4 s'.mix = List.zipWith fnv (words 4 s.mix)
      (o.getD (fnv (s.seed ^^^ round) ((words 4 s.mix).getD (round % 16) 0) % o.length) []) := by
  have hf := fnv1_eq (s.seed ^^^ round) _ (word_lt s.mix (round % 16))
  obtain ⟨x, e, l, w⟩ := h.rep.at (i := fnv (s.seed ^^^ round) ((words 4 s.mix).getD (round % 16) 0) % o.length)
    (by rw [← h.rep.size]; exact Nat.mod_lt _ h.some)
  refine ⟨{ s with mix := fnv1_512 s.mix x }, ?_, rfl, length_fnv (k := 16) hs l, ?_⟩
  · unfold Item.update
    dsimp only
    rw [h.items, remainder_ok h.some, hf, Outcome.ok_bind, e, Outcome.ok_bind]
  · rw [← w]; exact words_fnv s.mix x

/-- One round of `calc_dataset_item`. -/
def specRound (o : List (List Nat)) (i : Nat) (mix : List Nat) (j : Nat) : List Nat :=
  List.zipWith fnv mix (o.getD (fnv (i ^^^ j) (mix.getD (j % 16) 0) % o.length) [])

theorem parentLoop_eq {c : Context} {o : List (List Nat)} (h : ContextOk c o) : ∀ n r (a b : Item), a.mix.length = 64 → b.mix.length = 64 →
    ∃ p, parentLoop c n r a b = .ok p ∧ p.1.mix.length = 64 ∧ p.2.mix.length = 64 ∧
      words 4 p.1.mix = (List.range' r n).foldl (specRound o a.seed) (words 4 a.mix) ∧
      words 4 p.2.mix = (List.range' r n).foldl (specRound o b.seed) (words 4 b.mix)
  | 0, _, a, b, ha, hb => ⟨(a, b), rfl, ha, hb, rfl, rfl⟩
  | n + 1, r, a, b, ha, hb => by
    obtain ⟨a', ea, sa, la, wa⟩ := update_eq h a ha r
    obtain ⟨b', eb, sb, lb, wb⟩ := update_eq h b hb r
    obtain ⟨p, e, l1, l2, w1, w2⟩ := parentLoop_eq h n (r + 1) a' b' la lb
    refine ⟨p, ?_, l1, l2, ?_, ?_⟩
    · unfold parentLoop; rw [ea, Outcome.ok_bind, eb, Outcome.ok_bind, e]
    · rw [w1, sa, wa, List.range'_succ, List.foldl_cons, specRound]
    · rw [w2, sb, wb, List.range'_succ, List.foldl_cons, specRound]

theorem datasetItem_def (o : List (List Nat)) (i : Nat) : Spec.Ethash.datasetItem o i =
    Spec.Ethash.hash512 (serialize ((List.range 256).foldl (specRound o i)
      (Spec.Ethash.hash512 (serialize ((o.getD (i % o.length) []).set 0 ((o.getD (i % o.length) []).getD 0 0 ^^^ i)))))) := by
  unfold Spec.Ethash.datasetItem specRound
  rfl

theorem datasetItem_eq {c : Context} {o : List (List Nat)} (h : ContextOk c o) {index : Nat} (hi : index < 2 ^ 31) :
    ∃ b, datasetItem c index = .ok b ∧ b.length = 128 ∧
      words 4 b = Spec.Ethash.datasetItem o (2 * index) ++ Spec.Ethash.datasetItem o (2 * index + 1) := by
  have h1 : index * 2 % 2 ^ 32 = 2 * index := by omega
  have h2 : (index * 2 + 1) % 2 ^ 32 = 2 * index + 1 := by omega
  obtain ⟨a, ea, sa, la, wa⟩ := init_eq h (2 * index)
  obtain ⟨b, eb, sb, lb, wb⟩ := init_eq h (2 * index + 1)
  obtain ⟨p, e, l1, l2, w1, w2⟩ := parentLoop_eq h 256 0 a b la lb
  refine ⟨p.1.final ++ p.2.final, ?_, ?_, ?_⟩
  · unfold datasetItem
    rw [h1, h2, ea, Outcome.ok_bind, eb, Outcome.ok_bind, e, Outcome.ok_bind]
  · rw [List.length_append]; unfold Item.final; rw [length_keccak512, length_keccak512]
  · unfold Item.final
    rw [words_append 16 _ _ (length_keccak512 _), words_keccak512, words_keccak512]
    have f1 : Spec.Ethash.hash512 p.1.mix = Spec.Ethash.datasetItem o (2 * index) := by
      rw [datasetItem_def, ← wa, ← serialize_words (k := 16) l1, w1, sa, List.range_eq_range']
    have f2 : Spec.Ethash.hash512 p.2.mix = Spec.Ethash.datasetItem o (2 * index + 1) := by
      rw [datasetItem_def, ← wb, ← serialize_words (k := 16) l2, w2, sb, List.range_eq_range']
    rw [f1, f2]

theorem accessLoop_eq {c : Context} {o : List (List Nat)} (h : ContextOk c o) (hd : 0 < c.datasetItems) (hd' : c.datasetItems ≤ 2 ^ 31)
    (seed : Bytes) : ∀ n i (mix : Bytes), mix.length = 128 →
    ∃ m, accessLoop c ((words 4 seed).getD 0 0) n i mix = .ok m ∧ m.length = 128 ∧
      words 4 m = (List.range' i n).foldl (Spec.Ethash.access c.datasetItems (Spec.Ethash.datasetItem o) (words 4 seed)) (words 4 mix)
  | 0, _, mix, hm => ⟨mix, rfl, hm, rfl⟩
  | n + 1, i, mix, hm => by
    have hf := fnv1_eq (i ^^^ (words 4 seed).getD 0 0) _ (word_lt mix (i % 32))
    obtain ⟨b, eb, lb, wb⟩ := datasetItem_eq h (index := fnv (i ^^^ (words 4 seed).getD 0 0) ((words 4 mix).getD (i % 32) 0) % c.datasetItems)
      (Nat.lt_of_lt_of_le (Nat.mod_lt _ hd) hd')
    obtain ⟨m, e, l, w⟩ := accessLoop_eq h hd hd' seed n (i + 1) (ofWords 4 (List.zipWith fnv1 (words 4 mix) (words 4 b)))
      (length_fnv (k := 32) hm lb)
    refine ⟨m, ?_, l, ?_⟩
    · unfold accessLoop
      rw [hf, remainder_ok hd, Outcome.ok_bind, eb, Outcome.ok_bind, e]
    · rw [w, words_fnv, wb, List.range'_succ, List.foldl_cons, Spec.Ethash.access]

theorem compress_cons (a b c d : Nat) (rest : List Nat) :
  Spec.Ethash.compress (a :: b :: c :: d :: rest) = fnv (fnv (fnv a b) c) d :: Spec.Ethash.compress rest := by
  rw [Spec.Ethash.compress]

theorem foldFour {f g : Nat → Nat → Nat} {b c d : Nat} (hb : ∀ u, f u b = g u b) (hc : ∀ u, f u c = g u c) (hd : ∀ u, f u d = g u d)
    (a : Nat) : f (f (f a b) c) d = g (g (g a b) c) d := by rw [hd, hc, hb]

theorem four_succ (f : Nat → Nat → Nat) (a b c d : Nat) (rest : List Nat) (n : Nat) :
    (List.range (n + 1)).map (fun k => f (f (f ((a :: b :: c :: d :: rest).getD (4 * k) 0) ((a :: b :: c :: d :: rest).getD (4 * k + 1) 0))
      ((a :: b :: c :: d :: rest).getD (4 * k + 2) 0)) ((a :: b :: c :: d :: rest).getD (4 * k + 3) 0)) =
    f (f (f a b) c) d :: (List.range n).map (fun k => f (f (f (rest.getD (4 * k) 0) (rest.getD (4 * k + 1) 0)) (rest.getD (4 * k + 2) 0))
      (rest.getD (4 * k + 3) 0)) := by
  rw [List.range_succ_eq_map, List.map_cons, List.map_map]
  rfl

theorem compress_eq : ∀ n (ws : List Nat), ws.length = 4 * n → (∀ w ∈ ws, w < 2 ^ 32) →
    (List.range n).map (fun k => fnv1 (fnv1 (fnv1 (ws.getD (4 * k) 0) (ws.getD (4 * k + 1) 0)) (ws.getD (4 * k + 2) 0))
      (ws.getD (4 * k + 3) 0)) = Spec.Ethash.compress ws
  | 0, ws, h, _ => by
    have : ws = [] := List.length_eq_zero_iff.mp (by simpa using h)
    rw [this]; rfl
  | n + 1, a :: b :: c :: d :: rest, h, hw => by
    rw [four_succ, compress_cons, compress_eq n rest (by simp at h; omega) (fun w hw' => hw w (by simp [hw'])),
      foldFour (fun u => fnv1_eq u b (hw b (by simp))) (fun u => fnv1_eq u c (hw c (by simp))) (fun u => fnv1_eq u d (hw d (by simp)))]

/-- `hash_mix` and `hash_final` compute the mix digest and the result. -/
theorem hashMix_eq {c : Context} {o : List (List Nat)} (h : ContextOk c o) (hd : 0 < c.datasetItems) (hd' : c.datasetItems ≤ 2 ^ 31)
    (header nonceBytes : Bytes) (nonce : Nat) (hn : beFixed 8 nonce = nonceBytes) :
    ∃ mix, hashMix c (hashSeed header nonce) = .ok mix ∧
      Spec.Ethash.hashimoto c.datasetItems (Spec.Ethash.datasetItem o) header nonceBytes =
        (mix, hashFinal (hashSeed header nonce) mix) := by
  have hs : (hashSeed header nonce).length = 64 := length_keccak512 _
  obtain ⟨m, e, l, w⟩ := accessLoop_eq h hd hd' (hashSeed header nonce) 64 0 (hashSeed header nonce ++ hashSeed header nonce)
    (by rw [List.length_append, hs])
  have hw : words 4 (hashSeed header nonce) = Spec.Ethash.hash512 (header ++ nonceBytes.reverse) := by
    unfold hashSeed; rw [words_keccak512, hn]
  refine ⟨ofWords 4 (compress (words 4 m)), ?_, ?_⟩
  · unfold hashMix; rw [e, Outcome.ok_bind]
  · unfold Spec.Ethash.hashimoto
    simp only
    rw [words_append 16 _ _ hs, ← List.range_eq_range', hw] at w
    have hc : compress (words 4 m) = Spec.Ethash.compress (words 4 m) :=
      compress_eq 8 (words 4 m) (by rw [length_words, l]) (words_lt (n := 4) m)
    rw [← w, ← hc, ofWords_eq]
    congr 1
    unfold Spec.Ethash.hash256 hashFinal
    rw [serialize_append, ← hw, serialize_words (k := 16) hs, Keccak.keccak256_eq]
    have h8 := words_eq 8 (keccak256 (hashSeed header nonce ++ serialize (compress (words 4 m)))) (length_keccak256 _)
    have h9 := serialize_words (k := 8) (length_keccak256 (hashSeed header nonce ++ serialize (compress (words 4 m))))
    rw [h8, Keccak.keccak256_eq] at h9
    exact h9

end Silkworm.Ethash
