import Verif.Spec.Msgpack
/- Property C28. -/
namespace Verif.Msgpack
open Spec

theorem skip_zero (ts : List Tok) : skip 0 ts = some ts := by rw [skip]

mutual
theorem skip_val : ∀ (v : Val) (k : ℕ) (ts : List Tok), skip (k + 1) (v.enc ++ ts) = skip k ts
  | .str s, k, ts => by rw [Val.enc, List.singleton_append, skip]; rfl
  | .bin s, k, ts => by rw [Val.enc, List.singleton_append, skip]; rfl
  | .other x, k, ts => by rw [Val.enc, List.singleton_append, skip]; rfl
  | .arr vs, k, ts => by rw [Val.enc, List.cons_append, skip, arity, skip_vals vs k ts]
  | .map kvs, k, ts => by rw [Val.enc, List.cons_append, skip, arity, skip_kvs kvs k ts]
theorem skip_vals : ∀ (vs : Vals) (k : ℕ) (ts : List Tok), skip (k + vs.len) (vs.enc ++ ts) = skip k ts
  | .nil, k, ts => rfl
  | .cons v r, k, ts => by
    rw [Vals.enc, Vals.len, List.append_assoc, ← Nat.add_assoc, skip_val v (k + r.len), skip_vals r k ts]
theorem skip_kvs : ∀ (kvs : KVs) (k : ℕ) (ts : List Tok), skip (k + 2 * kvs.len) (kvs.enc ++ ts) = skip k ts
  | .nil, k, ts => rfl
  | .cons key v r, k, ts => by
    rw [KVs.enc, KVs.len, List.cons_append, show k + 2 * (r.len + 1) = (k + 2 * r.len + 1) + 1 by omega, skip,
      show arity (Tok.str key) = 0 from rfl, Nat.add_zero, List.append_assoc, skip_val v (k + 2 * r.len), skip_kvs r k ts]
end

theorem rep_mono {h h' : List Obj} {lo lo' : ℕ} (hlo : lo' ≤ lo) (hh : ∀ i d, lo ≤ i → h[i]? = some d → h'[i]? = some d)
    {d : Obj} {ks : KItems} (hr : Rep h lo d ks) : Rep h' lo' d ks := by
  induction hr with
  | nil => exact Rep.nil
  | leaf k d ks _ ih => exact Rep.leaf k d ks ih
  | dict k i d d' ks ks' h1 h2 _ _ ih1 ih2 => exact Rep.dict k i d d' ks ks' (by omega) (hh i d' h1 h2) ih1 ih2

mutual
/-- Number of keys visited. -/
def vsteps : Val → ℕ
  | .map kvs => steps kvs
  | _ => 0
def steps : KVs → ℕ
  | .nil => 0
  | .cons _ v r => 1 + vsteps v + steps r
end

/-- After the pairs of one map. -/
structure After (h : List Obj) (r : ℕ) (d0 : Obj) (h' : List Obj) (items : Obj) (ks : KItems) : Prop where
  grow : h.length ≤ h'.length
  keep : ∀ i, i < h.length → i ≠ r → h'[i]? = h[i]?
  own : h'[r]? = some (d0 ++ items)
  rep : Rep h' h.length items ks

theorem assign_get (h : List Obj) (r : ℕ) (k : List Char) (v : Option ℕ) (d0 : Obj) (hr : h[r]? = some d0)
    (hk : k ∉ PyDict.keys d0) : (assign h r k v)[r]? = some (d0 ++ [(k, v)]) ∧
      (∀ i, i ≠ r → (assign h r k v)[i]? = h[i]?) ∧ (assign h r k v).length = h.length := by
  unfold assign
  refine ⟨?_, ?_, by simp⟩
  · rw [List.getElem?_modify, hr]
    show some (if r = r then _ else _) = _
    rw [if_pos rfl, PyDict.set_append_of_not_mem d0 k v hk]
  · intro i hi
    rw [List.getElem?_modify]
    cases h[i]? with
    | none => rfl
    | some d => show some (if r = i then _ else _) = _; rw [if_neg (by omega)]

theorem loop_leaf (f : ℕ) (r : ℕ) (stack : List ℕ) (k : List Char) (v : Val) (hv : ∀ kvs, v ≠ .map kvs) (ts : List Tok) (h : List Obj) :
    loop (f + 1) (r :: stack) (.str k :: (v.enc ++ ts)) h = loop f stack ts (assign h r k none) := by
  have hs := skip_val v 0 ts
  rw [Nat.zero_add, skip_zero] at hs
  cases v with
  | map kvs => exact absurd rfl (hv kvs)
  | str s => simp only [Val.enc, List.singleton_append] at hs ⊢; simp only [loop, readKey, hs]
  | bin s => simp only [Val.enc, List.singleton_append] at hs ⊢; simp only [loop, readKey, hs]
  | other s => simp only [Val.enc, List.singleton_append] at hs ⊢; simp only [loop, readKey, hs]
  | arr s => simp only [Val.enc, List.cons_append] at hs ⊢; simp only [loop, readKey, hs]

theorem loop_map (f : ℕ) (r : ℕ) (stack : List ℕ) (k : List Char) (kvs : KVs) (ts : List Tok) (h : List Obj) :
    loop (f + 1) (r :: stack) (.str k :: ((Val.map kvs).enc ++ ts)) h =
      loop f (List.replicate kvs.len h.length ++ stack) (kvs.enc ++ ts) (assign h r k (some h.length) ++ [[]]) := by
  simp only [Val.enc, List.cons_append, loop, readKey]

mutual
/-- The value of one key. -/
theorem run_val : ∀ (v : Val) (k : List Char) (h : List Obj) (r : ℕ) (d0 : Obj) (stack : List ℕ) (ts : List Tok) (f : ℕ),
    v.WF → h[r]? = some d0 → k ∉ PyDict.keys d0 →
    ∃ h' x, loop (1 + vsteps v + f) (r :: stack) (.str k :: (v.enc ++ ts)) h = loop f stack ts h' ∧
      h.length ≤ h'.length ∧ (∀ i, i < h.length → i ≠ r → h'[i]? = h[i]?) ∧ h'[r]? = some (d0 ++ [(k, x)]) ∧
      ∀ h'' d ks, (∀ i e, h.length ≤ i → h'[i]? = some e → h''[i]? = some e) → Rep h'' h.length d ks →
        Rep h'' h.length ((k, x) :: d) (.cons k v.keyTree ks)
  | .map kvs, k, h, r, d0, stack, ts, f, hwf, hr, hk => by
    obtain ⟨a1, a2, a3⟩ := assign_get h r k (some h.length) d0 hr hk
    have hrl : r < h.length := (List.getElem?_eq_some_iff.1 hr).1
    set h1 := assign h r k (some h.length) ++ [[]] with hh1
    have hl1 : h1.length = h.length + 1 := by rw [hh1, List.length_append, a3]; rfl
    have hnew : h1[h.length]? = some [] := by
      rw [hh1, List.getElem?_append_right (by omega), a3, Nat.sub_self]; rfl
    obtain ⟨h2, items, e2, A⟩ := run_kvs kvs h1 h.length [] stack ts f (by simpa [Val.WF] using hwf) hnew (by intro k _; simp [PyDict.keys])
    refine ⟨h2, some h.length, ?_, by have := A.grow; omega, ?_, ?_, ?_⟩
    · rw [show 1 + vsteps (.map kvs) + f = (steps kvs + f) + 1 by rw [vsteps]; omega, loop_map]
      exact e2
    · intro i hi hir
      rw [A.keep i (by omega) (by omega), hh1, List.getElem?_append_left (by omega), a2 i hir]
    · rw [A.keep r (by omega) (by omega), hh1, List.getElem?_append_left (by omega), a1]
    · intro h'' d ks hk' hrep
      rw [Val.keyTree]
      refine Rep.dict k h.length d items ks _ le_rfl (hk' _ _ le_rfl (by simpa using A.own)) ?_ hrep
      exact rep_mono (by omega) (fun i e hi he => hk' i e (by omega) he) A.rep
  | .str s, k, h, r, d0, stack, ts, f, _, hr, hk => run_leaf (.str s) (by intro _ hc; cases hc) rfl rfl k h r d0 stack ts f hr hk
  | .bin s, k, h, r, d0, stack, ts, f, _, hr, hk => run_leaf (.bin s) (by intro _ hc; cases hc) rfl rfl k h r d0 stack ts f hr hk
  | .other s, k, h, r, d0, stack, ts, f, _, hr, hk => run_leaf (.other s) (by intro _ hc; cases hc) rfl rfl k h r d0 stack ts f hr hk
  | .arr s, k, h, r, d0, stack, ts, f, _, hr, hk => run_leaf (.arr s) (by intro _ hc; cases hc) rfl rfl k h r d0 stack ts f hr hk

theorem run_kvs : ∀ (kvs : KVs) (h : List Obj) (r : ℕ) (d0 : Obj) (stack : List ℕ) (ts : List Tok) (f : ℕ),
    kvs.WF → h[r]? = some d0 → (∀ k ∈ kvs.keys, k ∉ PyDict.keys d0) →
    ∃ h' items, loop (steps kvs + f) (List.replicate kvs.len r ++ stack) (kvs.enc ++ ts) h = loop f stack ts h' ∧
      After h r d0 h' items kvs.keyItems
  | .nil, h, r, d0, stack, ts, f, _, hr, _ => by
    refine ⟨h, [], ?_, le_rfl, fun _ _ _ => rfl, by simpa using hr, Rep.nil⟩
    rw [steps, KVs.len, KVs.enc, Nat.zero_add]; rfl
  | .cons k v rest, h, r, d0, stack, ts, f, hwf, hr, hk => by
    rw [KVs.WF] at hwf
    have hrl : r < h.length := (List.getElem?_eq_some_iff.1 hr).1
    obtain ⟨h1, x, e1, g1, k1, o1, p1⟩ := run_val v k h r d0 (List.replicate rest.len r ++ stack) (rest.enc ++ ts) (steps rest + f)
      hwf.2.1 hr (hk k (by simp [KVs.keys]))
    obtain ⟨h2, items, e2, A⟩ := run_kvs rest h1 r (d0 ++ [(k, x)]) stack ts f hwf.2.2 o1 (by
      intro k' hk'
      have := hk k' (by simp [KVs.keys, hk'])
      have hne : k' ≠ k := by rintro rfl; exact hwf.1 hk'
      simp only [PyDict.keys, List.map_append, List.mem_append, List.map_cons, List.map_nil, List.mem_singleton, not_or] at this ⊢
      exact ⟨this, hne⟩)
    refine ⟨h2, (k, x) :: items, ?_, by have := A.grow; omega, ?_, ?_, ?_⟩
    · rw [steps, KVs.len, KVs.enc, List.replicate_succ, List.cons_append, List.cons_append, List.append_assoc,
        Nat.add_assoc, e1, e2]
    · intro i hi hir
      rw [A.keep i (by omega) hir, k1 i hi hir]
    · rw [A.own]; simp
    · rw [KVs.keyItems]
      apply p1 h2 items _ _ (rep_mono g1 (fun i e _ he => he) A.rep)
      intro i e hi he
      have hlt := (List.getElem?_eq_some_iff.1 he).1
      rw [A.keep i hlt (by omega)]; exact he

theorem run_leaf (v : Val) (hv : ∀ kvs, v ≠ .map kvs) (h0 : vsteps v = 0) (hn : v.keyTree = .none) (k : List Char) (h : List Obj)
    (r : ℕ) (d0 : Obj) (stack : List ℕ) (ts : List Tok) (f : ℕ) (hr : h[r]? = some d0) (hk : k ∉ PyDict.keys d0) :
    ∃ h' x, loop (1 + vsteps v + f) (r :: stack) (.str k :: (v.enc ++ ts)) h = loop f stack ts h' ∧
      h.length ≤ h'.length ∧ (∀ i, i < h.length → i ≠ r → h'[i]? = h[i]?) ∧ h'[r]? = some (d0 ++ [(k, x)]) ∧
      ∀ h'' d ks, (∀ i e, h.length ≤ i → h'[i]? = some e → h''[i]? = some e) → Rep h'' h.length d ks →
        Rep h'' h.length ((k, x) :: d) (.cons k v.keyTree ks) := by
  obtain ⟨a1, a2, a3⟩ := assign_get h r k none d0 hr hk
  refine ⟨_, none, ?_, a3.ge, fun i _ hi => a2 i hi, a1, ?_⟩
  · rw [h0, show 1 + 0 + f = f + 1 by omega, loop_leaf _ _ _ _ _ hv]
  · intro h'' d ks _ hrep
    rw [hn]; exact Rep.leaf k d ks hrep
end

mutual
theorem vsteps_le : ∀ v : Val, vsteps v ≤ v.enc.length
  | .map kvs => by rw [vsteps, Val.enc, List.length_cons]; have := steps_le kvs; omega
  | .str _ => by rw [vsteps]; omega; intro _ hc; cases hc
  | .bin _ => by rw [vsteps]; omega; intro _ hc; cases hc
  | .other _ => by rw [vsteps]; omega; intro _ hc; cases hc
  | .arr _ => by rw [vsteps]; omega; intro _ hc; cases hc
theorem steps_le : ∀ kvs : KVs, steps kvs ≤ kvs.enc.length
  | .nil => by rw [steps]; omega
  | .cons k v r => by
    rw [steps, KVs.enc, List.length_cons, List.length_append]
    have := vsteps_le v
    have := steps_le r
    omega
end

theorem loop_done (f : ℕ) (ts : List Tok) (h : List Obj) : loop f [] ts h = .ok h := by
  cases f <;> rw [loop]

/-- C28: on the encoding of any nested map with string keys, whatever its other values are and whatever follows it
in the file, the reader returns the dictionary with exactly the map's keys in order, nested maps as nested
dictionaries and None for every other value. -/
theorem C28_key_tree (kvs : KVs) (hwf : kvs.WF) (more : List Tok) :
    ∃ h root, readKeys ((Val.map kvs).enc ++ more) = .ok h ∧ h[0]? = some root ∧ Rep h 1 root kvs.keyItems := by
  obtain ⟨h, items, e, A⟩ := run_kvs kvs [[]] 0 [] [] more ((kvs.enc ++ more).length + 1 - steps kvs) hwf rfl (by intro k _; simp [PyDict.keys])
  refine ⟨h, items, ?_, by simpa using A.own, A.rep⟩
  rw [Val.enc, List.cons_append, readKeys]
  have := steps_le kvs
  rw [show steps kvs + ((kvs.enc ++ more).length + 1 - steps kvs) = (kvs.enc ++ more).length + 1 by
    rw [List.length_append]; omega, List.append_nil, loop_done] at e
  exact e

/-- C28: the representation determines the tree, so the returned object is that key tree and no other. -/
theorem C28_unique (h : List Obj) (lo : ℕ) (d : Obj) (ks ks' : KItems) (h1 : Rep h lo d ks) (h2 : Rep h lo d ks') : ks = ks' := by
  induction h1 generalizing ks' with
  | nil => cases h2; rfl
  | leaf k d ks _ ih => cases h2 with | leaf _ _ ks'' hr => rw [ih _ hr]
  | dict k i d d' ks1 ks2 _ hi _ _ ih1 ih2 =>
    cases h2 with
    | dict _ _ _ e ks3 ks4 _ hi' hr1 hr2 =>
      rw [hi] at hi'
      obtain rfl := Option.some.inj hi'
      rw [ih1 _ hr1, ih2 _ hr2]

/-- C28, where it fails: a key of type bytes is not decoded; the value is read in its place. -/
theorem C28_bytes_keys (a b : List Char) :
    readKeys [.mapHdr 1, .bin a, .bin b, .other 0] = .ok [[(b, none)]] ∧
    readKeys [.mapHdr 1, .bin a, .other 0] = .error .badKey := by
  refine ⟨?_, ?_⟩
  · simp only [readKeys, List.replicate, List.length, loop, readKey, skip, arity, Nat.add_zero]; rfl
  · simp only [readKeys, List.replicate, List.length, loop, readKey]

/-- A non-trivial case: {a: {b: 1, c: [{d: 2}]}, e: s}. -/
def exKVs : KVs :=
  .cons ['a'] (.map (.cons ['b'] (.other 1) (.cons ['c'] (.arr (.cons (.map (.cons ['d'] (.other 2) .nil)) .nil)) .nil)))
    (.cons ['e'] (.str ['s']) .nil)

example : exKVs.WF ∧ (match readKeys (Val.map exKVs).enc with
    | .ok h => decide (h = [[(['a'], some 1), (['e'], none)], [(['b'], none), (['c'], none)]])
    | .error _ => false) = true := by
  refine ⟨by simp [exKVs, KVs.WF, KVs.keys, Val.WF], by simp [exKVs, Val.enc, KVs.enc, Vals.enc, KVs.len, Vals.len, readKeys,
    loop, readKey, skip, arity, assign, PyDict.set]⟩

/-! `_contains_ts_spec` -/

theorem dicts_size (d : KItems) : (d.dicts.map (fun e => e.size + 1)).sum = d.size := by
  induction d using KItems.dicts.induct with
  | case1 => rfl
  | case2 k r ih => rw [KItems.dicts, KItems.size, KTree.size, ih]; omega
  | case3 k d r ih => rw [KItems.dicts, List.map_cons, List.sum_cons, KItems.size, KTree.size, ih]

theorem contains_spec (f : ℕ) (l : List KItems) (hf : (l.map (fun e => e.size + 1)).sum ≤ f) :
    containsLoop f l = true ↔ ∃ d ∈ l, HasSpec d := by
  induction f generalizing l with
  | zero =>
    cases l with
    | nil => rw [containsLoop]; simp
    | cons a l => simp at hf
  | succ f ih =>
    cases l with
    | nil => rw [containsLoop]; simp
    | cons cur rest =>
      rw [containsLoop]
      by_cases h : specKeys.all (fun k => k ∈ cur.keys) = true
      · rw [if_pos h]
        simp only [true_iff]
        exact ⟨cur, List.mem_cons_self .., HasSpec.here cur (by simpa using h)⟩
      · rw [if_neg h, ih]
        · constructor
          · rintro ⟨d, hd, hs⟩
            rcases List.mem_append.1 hd with hd | hd
            · exact ⟨cur, List.mem_cons_self .., HasSpec.inside cur d (List.mem_reverse.1 hd) hs⟩
            · exact ⟨d, List.mem_cons_of_mem _ hd, hs⟩
          · rintro ⟨d, hd, hs⟩
            rcases List.mem_cons.1 hd with rfl | hd
            · cases hs with
              | here _ hk => exact absurd (by simpa using hk) h
              | inside _ e he hs => exact ⟨e, List.mem_append_left _ (List.mem_reverse.2 he), hs⟩
            · exact ⟨d, List.mem_append_right _ hd, hs⟩
        · rw [List.map_append, List.sum_append, List.map_reverse, List.sum_reverse, dicts_size]
          simp only [List.map_cons, List.sum_cons] at hf
          omega

/-- C28: `_contains_ts_spec` finds a dictionary with the keys of a ts.Spec at any depth, and only then says yes. -/
theorem C28_contains_ts_spec (t : KItems) : containsTsSpec t = true ↔ HasSpec t := by
  unfold containsTsSpec
  rw [contains_spec _ _ (by simp)]
  simp

end Verif.Msgpack
