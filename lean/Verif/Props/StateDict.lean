import Verif.Lemmas.AssignMap
/-
Properties C17, C18 and C19: nested state dictionaries.
-/
namespace Verif.StateDict
open Verif Spec

variable {α : Type}

/-! ### C19 -/

/-- C19: flattening to 'a/b/c' names and unflattening gives back the same nested
dictionary, in the same order, with tensorstore specs kept whole; without empty
dictionaries, or with `keep_empty_nodes`. -/
theorem C19_round_trip (d : Dict α) (ke : Bool) (hd : Proper tensorstoreLeaf d)
    (hne : NoEmpty tensorstoreLeaf d ∨ ke = true) :
    unflatten (flattenStateDict d ke) = some d := by
  unfold unflatten
  rw [flattenStateDict_eq d ke hd, List.map_map]
  have h := unflattenPaths_relabel tensorstoreLeaf ke (fun _ v => v) d [] (.nil : Dict α)
    (by simpa [Dict.keys] using distinct_keys _ d hd.distinct) hd.distinct hne
  rw [relabel_id] at h
  have heq : (paths tensorstoreLeaf ke d).map
      ((fun e : Key × Val α => (split e.1, e.2)) ∘ fun e => (join e.1, e.2)) =
      (paths tensorstoreLeaf ke d).map fun e => (e.1, e.2) := by
    refine List.map_congr_left ?_
    intro e he
    simp only [Function.comp]
    rw [split_join _ (paths_ne_nil _ _ _ e he) (paths_no_sep _ _ _ hd e he)]
  rw [heq]
  exact h

/-- C19: the flat dictionary has exactly one entry for each leaf, named by its
path, and different leaves have different names. -/
theorem C19_names (d : Dict α) (hd : Proper tensorstoreLeaf d) :
    ((flattenStateDict d).map Prod.fst).Nodup ∧
    (∀ n v, (n, v) ∈ flattenStateDict d ↔ ∃ p, n = join p ∧ stateLeaf d p = some v) ∧
    ∀ p q v w, stateLeaf d p = some v → stateLeaf d q = some w → join p = join q → p = q := by
  refine ⟨flatten_wf d false hd, ?_, ?_⟩
  · intro n v
    constructor
    · intro h
      rw [flattenStateDict_eq d false hd] at h
      obtain ⟨x, hx, heq⟩ := List.mem_map.1 h
      cases heq
      exact ⟨x.1, rfl, (mem_paths tensorstoreLeaf d hd _ _).1 hx⟩
    · rintro ⟨p, rfl, h⟩
      have hn := stateLeaf_named d hd p v h
      exact PyDict.mem_of_get _ _ _ ((get_flatten d hd p hn).trans h)
  · intro p q v w hp hq h
    have h1 := stateLeaf_named d hd p v hp
    have h2 := stateLeaf_named d hd q w hq
    exact join_inj p q h1.1 h2.1 h1.2 h2.2 h

/-- C19: the name tree has the shape of the state, and each of its leaves is the
'a/b/c' name of its own position. -/
theorem C19_name_tree (d : Dict α) (hd : Proper (fun _ => false) d) (hne : NoEmpty (fun _ => false) d) :
    ∃ t, getNameTree d = some t ∧ t.keys = d.keys ∧
      ∀ p, leafAt (fun _ => false) t p =
        if (leafAt (fun _ => false) d p).isSome then some (.arr (join p)) else none := by
  have hflat : flattenGo (fun _ => false) false id [] [] d = paths (fun _ => false) false d := by
    rw [flattenGo_eq]
    · simp
    · simpa [PyDict.keys] using paths_nodup (fun _ => false) false d hd
  have h := unflattenPaths_relabel (fun _ => false) false (fun p (_ : Val α) => Val.arr (join p)) d []
    (.nil : Dict Key) (by simpa [Dict.keys] using distinct_keys _ d hd.distinct) hd.distinct (Or.inl hne)
  have hlist : (flattenGo (fun _ => false) false id [] [] d).map (fun e => (e.1, Val.arr (join e.1))) =
      (paths (fun _ => false) false d).map fun e => (e.1, Val.arr (join ([] ++ e.1))) := by
    rw [hflat]; simp
  refine ⟨relabel (fun _ => false) false (fun p (_ : Val α) => Val.arr (join p)) [] d, ?_,
    keys_relabel (fun _ => false) false _ d [], ?_⟩
  · unfold getNameTree
    rw [hlist]
    exact h
  · have hbad : ∀ d : Dict Key, (fun _ : Dict Key => false) d = true → ∃ k ∈ d.keys, False := by
      intro d h; cases h
    have hpf : PrefixFree ((paths (fun _ => false) false d).map fun e => (e.1, Val.arr (join ([] ++ e.1)))) := by
      unfold PrefixFree
      rw [List.pairwise_map]
      have hnd : (paths (fun _ => false) false d).Pairwise (fun a b => a.1 ≠ b.1) :=
        List.pairwise_map.1 (paths_nodup (fun _ => false) false d hd)
      refine hnd.imp_of_mem ?_
      intro a b ha hb hab
      have h1 := (mem_paths _ d hd a.1 a.2).1 ha
      have h2 := (mem_paths _ d hd b.1 b.2).1 hb
      exact ⟨fun h => hab (leafAt_prefix _ _ d _ _ _ h1 h2 h),
        fun h => hab (leafAt_prefix _ _ d _ _ _ h2 h1 h).symm⟩
    have hnil : ∀ q w, leafAt (fun _ => false) (Dict.nil : Dict Key) q = some w → False := by
      intro q w hq
      match q with
      | [] => cases hq
      | [_] => cases hq
      | _ :: _ :: _ => cases hq
    obtain ⟨t, g1, g2⟩ := unflattenPaths_spec (fun _ : Dict Key => false) (fun _ => False) hbad _ .nil
      (by
        intro e he
        obtain ⟨x, hx, rfl⟩ := List.mem_map.1 he
        exact paths_ne_nil _ _ _ x hx)
      (by intro e _ k _ h; exact h)
      (by
        intro e he
        obtain ⟨x, hx, rfl⟩ := List.mem_map.1 he
        trivial) hpf trivial (by intro q w hq; exact (hnil q w hq).elim)
    have ht : t = Dict.nil.append (relabel (fun _ => false) false (fun p (_ : Val α) => Val.arr (join p)) [] d) := by
      rw [h] at g1; exact (Option.some.inj g1).symm
    intro p
    have g3 : ∀ w, leafAt (fun _ => false) t p = some w ↔
        (leafAt (fun _ => false) d p).isSome ∧ w = .arr (join p) := by
      intro w
      rw [g2]
      constructor
      · rintro (h | h)
        · exact (hnil _ _ h).elim
        · obtain ⟨x, hx, heq⟩ := List.mem_map.1 h
          have := (mem_paths _ d hd x.1 x.2).1 hx
          cases heq
          exact ⟨by rw [this]; rfl, rfl⟩
      · rintro ⟨h1, rfl⟩
        right
        obtain ⟨v, hv⟩ := Option.isSome_iff_exists.1 h1
        exact List.mem_map.2 ⟨(p, v), (mem_paths _ d hd p v).2 hv, rfl⟩
    change leafAt (fun _ => false)
      (Dict.nil.append (relabel (fun _ => false) false (fun p (_ : Val α) => Val.arr (join p)) [] d)) p = _
    rw [← ht]
    by_cases hsome : (leafAt (fun _ => false) d p).isSome = true
    · rw [if_pos hsome]; exact (g3 _).2 ⟨hsome, rfl⟩
    · rw [if_neg hsome]
      cases hl : leafAt (fun _ => false) t p with
      | none => rfl
      | some w => exact absurd ((g3 w).1 hl).1 hsome

/-! ### C17 -/

/-- C17: intersecting keeps exactly the leaves present in both states, with the
first state's values. -/
theorem C17_intersect (s t : Dict α) (hs : Proper tensorstoreLeaf s) (ht : Proper tensorstoreLeaf t)
    (hp : Plain s) :
    ∃ r, intersectState s t = some r ∧ Proper tensorstoreLeaf r ∧ Plain r ∧
      ∀ p, stateLeaf r p = if (stateLeaf t p).isSome then stateLeaf s p else none := by
  unfold intersectState
  have hfold : ∀ (l : List Key) (f : List (Key × Val α)), PyDict.WF f →
      PyDict.WF (l.foldl (fun f k => if PyDict.has (flattenStateDict t) k then f else PyDict.pop f k) f) ∧
      ∀ k, PyDict.get (l.foldl (fun f k => if PyDict.has (flattenStateDict t) k then f else PyDict.pop f k) f) k =
        if k ∈ l ∧ PyDict.has (flattenStateDict t) k = false then none else PyDict.get f k := by
    intro l
    induction l with
    | nil => intro f hf; exact ⟨hf, by simp⟩
    | cons a l ih =>
      intro f hf
      rw [List.foldl_cons]
      by_cases ha : PyDict.has (flattenStateDict t) a = true
      · rw [if_pos ha]
        obtain ⟨h1, h2⟩ := ih f hf
        refine ⟨h1, fun k => ?_⟩
        rw [h2]
        by_cases hk : k = a
        · subst hk; simp [ha]
        · simp [hk]
      · rw [if_neg ha]
        obtain ⟨h1, h2⟩ := ih _ (PyDict.wf_pop f hf a)
        refine ⟨h1, fun k => ?_⟩
        rw [h2, PyDict.get_pop]
        by_cases hk : a = k
        · subst hk; simp [ha]
        · have : ¬ k = a := fun h => hk h.symm
          simp [hk, this]
  obtain ⟨hwf, hget⟩ := hfold (PyDict.keys (flattenStateDict s)) _ (flatten_wf s false hs)
  set L := (PyDict.keys (flattenStateDict s)).foldl
    (fun f k => if PyDict.has (flattenStateDict t) k then f else PyDict.pop f k) (flattenStateDict s) with hL
  have hsub : ∀ k v, PyDict.get L k = some v → PyDict.get (flattenStateDict s) k = some v := by
    intro k v h
    rw [hget] at h
    split_ifs at h
    exact h
  have hmemL : ∀ e ∈ L, ∃ p, Named p ∧ e.1 = join p ∧ stateLeaf s p = some e.2 := by
    intro e he
    have h1 := hsub _ _ (PyDict.get_of_mem L hwf e.1 e.2 he)
    have hk : e.1 ∈ PyDict.keys (flattenStateDict s) := by
      rw [← PyDict.get_isSome_iff, h1]; rfl
    obtain ⟨p, v, hn, hj, hv⟩ := flatten_key s hs e.1 hk
    rw [hj, get_flatten s hs p hn] at h1
    exact ⟨p, hn, hj, h1⟩
  have hA : ∀ e ∈ L, ∃ p, Named p ∧ e.1 = join p ∧ (∀ k ∈ p, k ≠ "driver".toList) := by
    intro e he
    obtain ⟨p, hn, hj, hv⟩ := hmemL e he
    exact ⟨p, hn, hj, stateLeaf_plain p s hp _ hv⟩
  have hB : ∀ e ∈ L, LeafLike tensorstoreLeaf e.2 := by
    intro e he
    obtain ⟨p, hn, hj, hv⟩ := hmemL e he
    exact leafAt_leafLike _ p s _ hv
  obtain ⟨r, h1, h2⟩ := flat_unflat_get L hwf hA hB
    (by
      intro p q hp hq hjp hjq hpre
      obtain ⟨v, hv⟩ := Option.isSome_iff_exists.1 ((PyDict.get_isSome_iff L _).2 hjp)
      obtain ⟨w, hw⟩ := Option.isSome_iff_exists.1 ((PyDict.get_isSome_iff L _).2 hjq)
      have e1 := hsub _ _ hv
      have e2 := hsub _ _ hw
      rw [get_flatten s hs p hp] at e1
      rw [get_flatten s hs q hq] at e2
      exact leafAt_prefix _ p s q _ _ e1 e2 hpre)
  refine ⟨r, h1, (unflatten_wf L r h1 hA hB).1, (unflatten_wf L r h1 hA hB).2, ?_⟩
  intro p
  rw [h2]
  by_cases hn : Named p
  · rw [if_pos hn, hget, get_flatten s hs p hn]
    unfold PyDict.has
    rw [get_flatten t ht p hn]
    by_cases htp : (stateLeaf t p).isSome = true
    · simp [htp]
    · have htp' : (stateLeaf t p).isSome = false := by simpa using htp
      simp only [htp', Bool.false_eq_true, if_false, and_true]
      by_cases hk : join p ∈ PyDict.keys (flattenStateDict s)
      · rw [if_pos hk]
      · rw [if_neg hk, ← get_flatten s hs p hn, PyDict.get_eq_none_iff]; exact hk
  · rw [if_neg hn]
    cases hsp : stateLeaf s p with
    | none => simp
    | some v => exact absurd (stateLeaf_named s hs p v hsp) hn

/-- C17: merging takes every leaf of the first state and fills the missing ones
from the second (or prefers the second when `overwrite` is set). -/
theorem C17_merge (s t : Dict α) (overwrite : Bool) (hs : Proper tensorstoreLeaf s)
    (ht : Proper tensorstoreLeaf t) (hps : Plain s) (hpt : Plain t) (hc : NoConflict s t) :
    ∃ r, mergeState s t overwrite = some r ∧ Proper tensorstoreLeaf r ∧ Plain r ∧
      ∀ p, stateLeaf r p = if overwrite then (stateLeaf t p).or (stateLeaf s p)
        else (stateLeaf s p).or (stateLeaf t p) := by
  unfold mergeState
  have hfold : ∀ (l : List (Key × Val α)), PyDict.WF l → ∀ (f : List (Key × Val α)), PyDict.WF f →
      PyDict.WF (l.foldl (fun f kv => if !PyDict.has f kv.1 || overwrite then PyDict.set f kv.1 kv.2 else f) f) ∧
      ∀ k, PyDict.get (l.foldl
        (fun f kv => if !PyDict.has f kv.1 || overwrite then PyDict.set f kv.1 kv.2 else f) f) k =
        if overwrite then (PyDict.get l k).or (PyDict.get f k) else (PyDict.get f k).or (PyDict.get l k) := by
    intro l
    induction l with
    | nil => intro _ f hf; exact ⟨hf, by simp [PyDict.get]⟩
    | cons e l ih =>
      obtain ⟨a, b⟩ := e
      intro hl f hf
      simp only [PyDict.WF, PyDict.keys, List.map_cons, List.nodup_cons] at hl
      have hnone : PyDict.get l a = none := by rw [PyDict.get_eq_none_iff]; exact hl.1
      rw [List.foldl_cons]
      by_cases hcond : (!PyDict.has f a || overwrite) = true
      · simp only [hcond, if_true]
        obtain ⟨h1, h2⟩ := ih hl.2 _ (PyDict.wf_set f hf a b)
        refine ⟨h1, fun k => ?_⟩
        rw [h2, PyDict.get_set]
        by_cases hk : a = k
        · subst hk
          simp only [PyDict.get, if_true, hnone, Option.none_or]
          cases overwrite with
          | true => simp
          | false =>
            have : PyDict.get f a = none := by simpa [PyDict.has] using hcond
            simp [this]
        · simp [PyDict.get, hk]
      · simp only [hcond, Bool.false_eq_true, if_false]
        obtain ⟨h1, h2⟩ := ih hl.2 f hf
        refine ⟨h1, fun k => ?_⟩
        rw [h2]
        simp only [Bool.or_eq_true, Bool.not_eq_true', not_or, Bool.not_eq_false, Bool.not_eq_true,
          PyDict.has] at hcond
        by_cases hk : a = k
        · subst hk
          obtain ⟨v, hv⟩ := Option.isSome_iff_exists.1 hcond.1
          simp [hcond.2, hv]
        · simp [PyDict.get, hk]
  obtain ⟨hwf, hget⟩ := hfold (flattenStateDict t) (flatten_wf t false ht) _ (flatten_wf s false hs)
  set L := (flattenStateDict t).foldl
    (fun f kv => if !PyDict.has f kv.1 || overwrite then PyDict.set f kv.1 kv.2 else f)
    (flattenStateDict s) with hL
  have hsub : ∀ k v, PyDict.get L k = some v →
      PyDict.get (flattenStateDict s) k = some v ∨ PyDict.get (flattenStateDict t) k = some v := by
    intro k v h
    rw [hget] at h
    split_ifs at h
    · cases hg : PyDict.get (flattenStateDict t) k with
      | none => rw [hg] at h; simp at h; exact Or.inl h
      | some w => rw [hg] at h; simp at h; subst h; exact Or.inr rfl
    · cases hg : PyDict.get (flattenStateDict s) k with
      | none => rw [hg] at h; simp at h; exact Or.inr h
      | some w => rw [hg] at h; simp at h; subst h; exact Or.inl rfl
  have hmemL : ∀ e ∈ L, ∃ p, Named p ∧ e.1 = join p ∧
      (stateLeaf s p = some e.2 ∨ stateLeaf t p = some e.2) := by
    intro e he
    rcases hsub _ _ (PyDict.get_of_mem L hwf e.1 e.2 he) with h1 | h1
    · have hk : e.1 ∈ PyDict.keys (flattenStateDict s) := by
        rw [← PyDict.get_isSome_iff, h1]; rfl
      obtain ⟨p, v, hn, hj, hv⟩ := flatten_key s hs e.1 hk
      rw [hj, get_flatten s hs p hn] at h1
      exact ⟨p, hn, hj, Or.inl h1⟩
    · have hk : e.1 ∈ PyDict.keys (flattenStateDict t) := by
        rw [← PyDict.get_isSome_iff, h1]; rfl
      obtain ⟨p, v, hn, hj, hv⟩ := flatten_key t ht e.1 hk
      rw [hj, get_flatten t ht p hn] at h1
      exact ⟨p, hn, hj, Or.inr h1⟩
  have hA : ∀ e ∈ L, ∃ p, Named p ∧ e.1 = join p ∧ (∀ k ∈ p, k ≠ "driver".toList) := by
    intro e he
    obtain ⟨p, hn, hj, hv | hv⟩ := hmemL e he
    · exact ⟨p, hn, hj, stateLeaf_plain p s hps _ hv⟩
    · exact ⟨p, hn, hj, stateLeaf_plain p t hpt _ hv⟩
  have hB : ∀ e ∈ L, LeafLike tensorstoreLeaf e.2 := by
    intro e he
    obtain ⟨p, hn, hj, hv | hv⟩ := hmemL e he
    · exact leafAt_leafLike _ p s _ hv
    · exact leafAt_leafLike _ p t _ hv
  obtain ⟨r, h1, h2⟩ := flat_unflat_get L hwf hA hB
    (by
      intro p q hp hq hjp hjq hpre
      obtain ⟨v, hv⟩ := Option.isSome_iff_exists.1 ((PyDict.get_isSome_iff L _).2 hjp)
      obtain ⟨w, hw⟩ := Option.isSome_iff_exists.1 ((PyDict.get_isSome_iff L _).2 hjq)
      have e1 := hsub _ _ hv
      have e2 := hsub _ _ hw
      rw [get_flatten s hs p hp, get_flatten t ht p hp] at e1
      rw [get_flatten s hs q hq, get_flatten t ht q hq] at e2
      rcases e1 with e1 | e1 <;> rcases e2 with e2 | e2
      · exact leafAt_prefix _ p s q _ _ e1 e2 hpre
      · exact hc p q _ _ e1 e2 (Or.inl hpre)
      · exact (hc q p _ _ e2 e1 (Or.inr hpre)).symm
      · exact leafAt_prefix _ p t q _ _ e1 e2 hpre)
  refine ⟨r, h1, (unflatten_wf L r h1 hA hB).1, (unflatten_wf L r h1 hA hB).2, ?_⟩
  intro p
  rw [h2]
  by_cases hn : Named p
  · rw [if_pos hn, hget, get_flatten s hs p hn, get_flatten t ht p hn]
  · rw [if_neg hn]
    have e1 : stateLeaf s p = none := by
      cases hsp : stateLeaf s p with
      | none => rfl
      | some v => exact absurd (stateLeaf_named s hs p v hsp) hn
    have e2 : stateLeaf t p = none := by
      cases htp : stateLeaf t p with
      | none => rfl
      | some v => exact absurd (stateLeaf_named t ht p v htp) hn
    simp [e1, e2]

/-- C17: restoring what the checkpoint has and filling the rest from the current
model's own state yields exactly the current model's set of leaves: a leaf
present in the checkpoint has the checkpoint's value, any other one the current
value. -/
theorem C17_merge_after_intersect (ckpt target : Dict α) (hc : Proper tensorstoreLeaf ckpt)
    (ht : Proper tensorstoreLeaf target) (hpc : Plain ckpt) (hpt : Plain target) :
    ∃ i r, intersectState ckpt target = some i ∧ mergeState i target = some r ∧
      (∀ p, (stateLeaf r p).isSome ↔ (stateLeaf target p).isSome) ∧
      ∀ p, stateLeaf r p =
        if (stateLeaf target p).isSome then (stateLeaf ckpt p).or (stateLeaf target p) else none := by
  obtain ⟨i, h1, hi, hpi, h2⟩ := C17_intersect ckpt target hc ht hpc
  have hnc : NoConflict i target := by
    intro p q v w hp hq hpre
    rw [h2] at hp
    split_ifs at hp with hsome
    obtain ⟨u, hu⟩ := Option.isSome_iff_exists.1 hsome
    rcases hpre with hpre | hpre
    · exact leafAt_prefix _ p target q _ _ hu hq hpre
    · exact (leafAt_prefix _ q target p _ _ hq hu hpre).symm
  obtain ⟨r, g1, _, _, g2⟩ := C17_merge i target false hi ht hpi hpt hnc
  have key : ∀ p, stateLeaf r p =
        if (stateLeaf target p).isSome then (stateLeaf ckpt p).or (stateLeaf target p) else none := by
    intro p
    rw [g2, h2]
    by_cases hs : (stateLeaf target p).isSome = true
    · simp [hs]
    · simp only [hs, Bool.false_eq_true, if_false, Option.none_or]
      simpa using hs
  refine ⟨i, r, h1, g1, ?_, key⟩
  intro p
  rw [key]
  by_cases hs : (stateLeaf target p).isSome = true
  · obtain ⟨u, hu⟩ := Option.isSome_iff_exists.1 hs
    simp [hu]
  · simp [hs]

/-! ### C18 -/

/-- C18: what `apply_assignment_map` (not resuming) does when it succeeds, on the
flattened names. For every name `k` of the current model:
* a skipping rule leaves it out;
* no matching rule: it has the checkpoint's value of the same name (if any);
* first matching rule naming checkpoint entry `old`: it has the checkpoint's value
  of `old`, provided that `k` itself is not an unused entry of the checkpoint.
Every other checkpoint entry is retained unless a rule has used it up.
The proviso is necessary, see `C18_shadowed`. -/
theorem C18_assignment_partial {β : Type} (ckpt opt : List (Key × β)) (rules : List Rule) (req : Bool)
    (hc : PyDict.WF ckpt) (ho : PyDict.WF opt) (r : List (Key × β))
    (h : assignFlat ckpt opt rules req = .ok r) :
    (∀ k, Skipped (PyDict.keys opt) rules k → PyDict.get r k = none) ∧
    (∀ k ∈ PyDict.keys opt, firstMatch rules k = none → PyDict.get r k = PyDict.get ckpt k) ∧
    (∀ k old, AssignedFrom (PyDict.keys opt) rules k old →
      (k ∉ PyDict.keys ckpt ∨ ∃ k', AssignedFrom (PyDict.keys opt) rules k' k) →
      old ∈ PyDict.keys ckpt ∧ PyDict.get r k = PyDict.get ckpt old) ∧
    (∀ k, k ∉ PyDict.keys opt → (∃ k', AssignedFrom (PyDict.keys opt) rules k' k) → PyDict.get r k = none) ∧
    (∀ k, k ∉ PyDict.keys opt → (¬ ∃ k', AssignedFrom (PyDict.keys opt) rules k' k) →
      PyDict.get r k = PyDict.get ckpt k) := by
  obtain ⟨h1, h2⟩ := assignFlat_spec ckpt opt rules hc ho req r h
  have hex : ∀ k, (∃ k', AssignedFrom (PyDict.keys opt) rules k' k) ↔
      ∃ k' ∈ PyDict.keys opt, src rules k' = some k := by
    intro k; simp only [assignedFrom_iff]
  refine ⟨?_, ?_, ?_, ?_, ?_⟩
  · rintro k ⟨hk, hs⟩
    rw [h2, if_pos ⟨hk, hs⟩]
  · intro k hk hm
    have hns : ¬ (k ∈ PyDict.keys opt ∧ skips rules k) := by
      rintro ⟨_, r, a, _⟩; rw [hm] at a; cases a
    have hsrc : src rules k = none := by simp [src, hm]
    rw [h2, if_neg hns]
    split_ifs
    · simp [hsrc]
    · simp [hsrc]
  · intro k old ha hor
    rw [assignedFrom_iff] at ha
    have hns : ¬ (k ∈ PyDict.keys opt ∧ skips rules k) := by
      rintro ⟨_, r, a, b⟩
      have := ha.2
      simp [src, a, b] at this
    refine ⟨?_, ?_⟩
    · have := h1 k old ha.1 ha.2
      rw [← PyDict.get_isSome_iff]; exact this
    · rw [h2, if_neg hns]
      by_cases hc1 : ∃ k' ∈ PyDict.keys opt, src rules k' = some k
      · rw [if_pos hc1, if_pos ha.1, ha.2]
      · rw [if_neg hc1, if_pos ha.1, ha.2]
        rcases hor with hor | hor
        · rw [(PyDict.get_eq_none_iff ckpt k).2 hor]; simp
        · exact absurd ((hex k).1 hor) hc1
  · intro k hk hx
    rw [h2, if_neg (fun h => hk h.1), if_pos ((hex k).1 hx), if_neg hk]
  · intro k hk hx
    rw [h2, if_neg (fun h => hk h.1), if_neg (fun h => hx ((hex k).2 h)), if_neg hk]
    simp

/-- C18 fails in general: a parameter that a rule maps to checkpoint entry `old`
keeps the checkpoint's *own* entry of that name whenever the checkpoint has one
that no rule uses up, so the rule has no effect on it. -/
theorem C18_shadowed {β : Type} (ckpt opt : List (Key × β)) (rules : List Rule) (req : Bool)
    (hc : PyDict.WF ckpt) (ho : PyDict.WF opt) (r : List (Key × β))
    (h : assignFlat ckpt opt rules req = .ok r) (k old : Key)
    (ha : AssignedFrom (PyDict.keys opt) rules k old) (hk : k ∈ PyDict.keys ckpt)
    (hu : ¬ ∃ k', AssignedFrom (PyDict.keys opt) rules k' k) :
    PyDict.get r k = PyDict.get ckpt k := by
  obtain ⟨h1, h2⟩ := assignFlat_spec ckpt opt rules hc ho req r h
  rw [assignedFrom_iff] at ha
  simp only [assignedFrom_iff] at hu
  have hns : ¬ (k ∈ PyDict.keys opt ∧ skips rules k) := by
    rintro ⟨_, r, a, b⟩
    have := ha.2
    simp [src, a, b] at this
  rw [h2, if_neg hns, if_neg hu]
  obtain ⟨v, hv⟩ := Option.isSome_iff_exists.1 ((PyDict.get_isSome_iff ckpt k).2 hk)
  simp [hv]

/-- C18: the "does not exist in restore checkpoint" error is raised exactly when
some rule names an entry the checkpoint does not have. -/
theorem C18_missing_error {β : Type} (ckpt opt : List (Key × β)) (rules : List Rule) (req : Bool)
    (hc : PyDict.WF ckpt) (ho : PyDict.WF opt) :
    assignFlat ckpt opt rules req = .error .missing ↔
      ∃ k old, AssignedFrom (PyDict.keys opt) rules k old ∧ old ∉ PyDict.keys ckpt := by
  rw [assignFlat_missing ckpt opt rules hc ho]
  simp only [assignedFrom_iff, ← PyDict.get_eq_none_iff]
  constructor
  · rintro ⟨k, hk, o, a, b⟩; exact ⟨k, o, ⟨hk, a⟩, b⟩
  · rintro ⟨k, o, ⟨hk, a⟩, b⟩; exact ⟨k, hk, o, a, b⟩

/-- C18: with `require_all_rules_match`, the call succeeds exactly when all named
checkpoint entries exist, the patterns are pairwise different and each of them is
the first match of some parameter.  (A repeated pattern always raises.) -/
theorem C18_require_all {β : Type} (ckpt opt : List (Key × β)) (rules : List Rule)
    (hc : PyDict.WF ckpt) (ho : PyDict.WF opt) :
    (∃ r, assignFlat ckpt opt rules true = .ok r) ↔
      (∀ k old, AssignedFrom (PyDict.keys opt) rules k old → old ∈ PyDict.keys ckpt) ∧
      (rules.map Rule.pattern).Nodup ∧
      ∀ r ∈ rules, ∃ k ∈ PyDict.keys opt, ∃ r', firstMatch rules k = some r' ∧ r'.pattern = r.pattern := by
  rw [assignFlat_unused ckpt opt rules hc ho]
  have : (∀ k ∈ PyDict.keys opt, ∀ o, src rules k = some o → PyDict.get ckpt o ≠ none) ↔
      (∀ k old, AssignedFrom (PyDict.keys opt) rules k old → old ∈ PyDict.keys ckpt) := by
    simp only [assignedFrom_iff, ne_eq, PyDict.get_eq_none_iff, not_not]
    constructor
    · intro h k o ⟨a, b⟩; exact h k a o b
    · intro h k a o b; exact h k o ⟨a, b⟩
  rw [this]

/-- C18: on resume the checkpoint state is returned unchanged. -/
theorem C18_resume_identity (ckpt opt : Dict α) (rules : List Rule) (req : Bool) :
    applyAssignmentMap ckpt opt rules req true = .ok (some ckpt) := rfl

/-- C18, nested form: if the leaves of the checkpoint and of the current model
do not sit above one another, the nested result exists, and its leaf at a path is
the flat result at the path's name. -/
theorem C18_nested (ckpt opt : Dict α) (rules : List Rule) (req : Bool)
    (hc : Proper tensorstoreLeaf ckpt) (ho : Proper tensorstoreLeaf opt) (hpc : Plain ckpt) (hpo : Plain opt)
    (hnc : NoConflict ckpt opt) (fl : List (Key × Val α))
    (h : assignFlat (flattenStateDict ckpt) (flattenStateDict opt) rules req = .ok fl) :
    ∃ r, applyAssignmentMap ckpt opt rules req false = .ok (some r) ∧
      ∀ p, stateLeaf r p = if Named p then PyDict.get fl (join p) else none := by
  have hwc := flatten_wf ckpt false hc
  have hwo := flatten_wf opt false ho
  have hwf := assignFlat_wf _ _ rules hwc hwo req fl h
  obtain ⟨_, h2⟩ := assignFlat_spec _ _ rules hwc hwo req fl h
  -- every value comes from the checkpoint, every name from one of the two
  have hval : ∀ k v, PyDict.get fl k = some v →
      (∃ o, PyDict.get (flattenStateDict ckpt) o = some v) ∧
      (k ∈ PyDict.keys (flattenStateDict ckpt) ∨ k ∈ PyDict.keys (flattenStateDict opt)) := by
    intro k v hg
    rw [h2] at hg
    by_cases h1 : k ∈ PyDict.keys (flattenStateDict opt) ∧ skips rules k
    · rw [if_pos h1] at hg; cases hg
    · rw [if_neg h1] at hg
      by_cases h3 : ∃ k' ∈ PyDict.keys (flattenStateDict opt), src rules k' = some k
      · rw [if_pos h3] at hg
        by_cases h4 : k ∈ PyDict.keys (flattenStateDict opt)
        · rw [if_pos h4] at hg
          refine ⟨?_, Or.inr h4⟩
          split at hg
          · exact ⟨_, hg⟩
          · exact ⟨_, hg⟩
        · rw [if_neg h4] at hg; cases hg
      · rw [if_neg h3] at hg
        cases hgc : PyDict.get (flattenStateDict ckpt) k with
        | some w =>
          rw [hgc] at hg
          simp at hg; subst hg
          exact ⟨⟨k, hgc⟩, Or.inl ((PyDict.get_isSome_iff _ _).1 (by rw [hgc]; rfl))⟩
        | none =>
          rw [hgc, Option.none_or] at hg
          by_cases h4 : k ∈ PyDict.keys (flattenStateDict opt)
          · rw [if_pos h4] at hg
            obtain ⟨o, _, g⟩ := Option.bind_eq_some_iff.1 hg
            exact ⟨⟨o, g⟩, Or.inr h4⟩
          · rw [if_neg h4] at hg; cases hg
  have hname : ∀ k v, PyDict.get fl k = some v → ∃ p, Named p ∧ k = join p ∧
      ((∃ w, stateLeaf ckpt p = some w) ∨ ∃ w, stateLeaf opt p = some w) := by
    intro k v hg
    rcases (hval k v hg).2 with hk | hk
    · obtain ⟨p, w, a, b, c⟩ := flatten_key ckpt hc k hk; exact ⟨p, a, b, Or.inl ⟨w, c⟩⟩
    · obtain ⟨p, w, a, b, c⟩ := flatten_key opt ho k hk; exact ⟨p, a, b, Or.inr ⟨w, c⟩⟩
  obtain ⟨r, g1, g2⟩ := flat_unflat_get fl hwf
    (by
      intro e he
      obtain ⟨p, a, b, c⟩ := hname e.1 e.2 (PyDict.get_of_mem fl hwf _ _ he)
      refine ⟨p, a, b, ?_⟩
      rcases c with ⟨w, c⟩ | ⟨w, c⟩
      · exact stateLeaf_plain p ckpt hpc w c
      · exact stateLeaf_plain p opt hpo w c)
    (by
      intro e he
      obtain ⟨⟨o, hv⟩, _⟩ := hval e.1 e.2 (PyDict.get_of_mem fl hwf _ _ he)
      have hk : o ∈ PyDict.keys (flattenStateDict ckpt) := by
        rw [← PyDict.get_isSome_iff, hv]; rfl
      obtain ⟨p, w, a, b, c⟩ := flatten_key ckpt hc o hk
      rw [b, get_flatten ckpt hc p a] at hv
      exact leafAt_leafLike _ p ckpt _ hv)
    (by
      intro p q hp hq hjp hjq hpre
      have leafOf : ∀ p, Named p → join p ∈ PyDict.keys fl →
          (∃ w, stateLeaf ckpt p = some w) ∨ ∃ w, stateLeaf opt p = some w := by
        intro p hp hj
        obtain ⟨v, hv⟩ := Option.isSome_iff_exists.1 ((PyDict.get_isSome_iff fl _).2 hj)
        obtain ⟨p', a, b, c⟩ := hname _ v hv
        have : p = p' := join_inj _ _ hp.1 a.1 hp.2 a.2 b
        subst this; exact c
      rcases leafOf p hp hjp with ⟨v, hv⟩ | ⟨v, hv⟩ <;> rcases leafOf q hq hjq with ⟨w, hw⟩ | ⟨w, hw⟩
      · exact leafAt_prefix _ p ckpt q _ _ hv hw hpre
      · exact hnc p q _ _ hv hw (Or.inl hpre)
      · exact (hnc q p _ _ hw hv (Or.inr hpre)).symm
      · exact leafAt_prefix _ p opt q _ _ hv hw hpre)
  refine ⟨r, ?_, g2⟩
  unfold applyAssignmentMap
  simp only [Bool.false_eq_true, if_false, h, g1]

/-! ### Concrete cases -/

section Examples

/-- {"params": {"a": 1, "b": {"driver": 7, "kvstore": 8, "metadata": 9}}, "step": 2} -/
def exState : Dict Nat :=
  .sub "params".toList (.leaf "a".toList 1 (.sub "b".toList
    (.leaf "driver".toList 7 (.leaf "kvstore".toList 8 (.leaf "metadata".toList 9 .nil))) .nil))
    (.leaf "step".toList 2 .nil)

/-- {"params": {"a": 10, "c": 11}, "step": 12} -/
def exTarget : Dict Nat :=
  .sub "params".toList (.leaf "a".toList 10 (.leaf "c".toList 11 .nil)) (.leaf "step".toList 12 .nil)

theorem exState_ok : Proper tensorstoreLeaf exState ∧ NoEmpty tensorstoreLeaf exState ∧ Plain exState := by
  refine ⟨?_, ?_, ?_⟩ <;> simp [exState, Proper, NoEmpty, Plain, tensorstoreLeaf, Dict.keys]
theorem exTarget_ok : Proper tensorstoreLeaf exTarget ∧ NoEmpty tensorstoreLeaf exTarget ∧ Plain exTarget := by
  refine ⟨?_, ?_, ?_⟩ <;> simp [exTarget, Proper, NoEmpty, Plain, tensorstoreLeaf, Dict.keys]

example : unflatten (flattenStateDict exState) = some exState :=
  C19_round_trip exState false exState_ok.1 (Or.inl exState_ok.2.1)

example : (flattenStateDict exState).map Prod.fst =
    ["params/a".toList, "params/b".toList, "step".toList] := by decide

example : ∃ t, getNameTree exTarget = some t :=
  (C19_name_tree exTarget (by simp [exTarget, Proper, Dict.keys]) (by simp [exTarget, NoEmpty])).imp
    fun _ h => h.1

example : ∃ r, intersectState exState exTarget = some r ∧
    stateLeaf r ["params".toList, "a".toList] = some (.arr 1) ∧
    stateLeaf r ["params".toList, "b".toList] = none := by
  obtain ⟨r, h, _, _, h2⟩ := C17_intersect exState exTarget exState_ok.1 exTarget_ok.1 exState_ok.2.2
  exact ⟨r, h, by rw [h2]; decide, by rw [h2]; decide⟩

example : ∃ i r, intersectState exState exTarget = some i ∧ mergeState i exTarget = some r ∧
    stateLeaf r ["params".toList, "a".toList] = some (.arr 1) ∧
    stateLeaf r ["params".toList, "c".toList] = some (.arr 11) := by
  obtain ⟨i, r, h1, h2, _, h3⟩ := C17_merge_after_intersect exState exTarget exState_ok.1 exTarget_ok.1
    exState_ok.2.2 exTarget_ok.2.2
  exact ⟨i, r, h1, h2, by rw [h3]; decide, by rw [h3]; decide⟩

/-- Rule ("x", "y"): parameter x is read from checkpoint entry y. -/
def exRule (a b : String) : Rule := ⟨a.toList, fun k => k == a.toList, some fun _ => b.toList⟩

/-- The hypotheses of `C18_assignment_partial` are met: x ↦ y, and the checkpoint
has no x of its own. -/
example : ∃ r, assignFlat [("y".toList, 5), ("z".toList, 6)] [("x".toList, 0), ("z".toList, 0)]
    [exRule "x" "y"] true = .ok r ∧ PyDict.get r "x".toList = some 5 ∧ PyDict.get r "z".toList = some 6 ∧
    PyDict.get r "y".toList = none := ⟨_, rfl, by decide, by decide, by decide⟩

/-- `C18_shadowed` is not vacuous: with rule x ↦ y and a checkpoint {x: 4, y: 5},
parameter x ends up with 4, the value of x. -/
theorem C18_first_rule_ignored : ∃ r, assignFlat [("x".toList, 4), ("y".toList, 5)] [("x".toList, 0)]
    [exRule "x" "y"] true = .ok r ∧ AssignedFrom ["x".toList] [exRule "x" "y"] "x".toList "y".toList ∧
    PyDict.get r "x".toList = some 4 :=
  ⟨_, rfl, ⟨by simp, exRule "x" "y", fun _ => "y".toList, rfl, rfl, rfl⟩, by decide⟩

end Examples

end Verif.StateDict
