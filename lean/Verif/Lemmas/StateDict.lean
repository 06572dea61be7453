import Verif.Spec.StateDict
/-
Helper lemmas for nested state dictionaries.
-/
namespace Verif.StateDict
open Verif Spec

variable {α : Type}

namespace Dict

theorem get_cons (k k' : Key) (v : Val α) (r : Dict α) :
    (cons k v r).get k' = if k = k' then some v else r.get k' := by
  cases v <;> rfl

theorem get_set (d : Dict α) (k k' : Key) (v : Val α) :
    (d.set k v).get k' = if k = k' then some v else d.get k' := by
  induction d with
  | nil => simp [set, get_cons, get]
  | leaf a x r ih =>
    unfold set
    by_cases h : a = k
    · subst h; simp only [if_true, get_cons, get]; split_ifs <;> rfl
    · simp only [h, if_false, get, ih]
      split_ifs with h1 h2 h2
      · exact absurd (h1.trans h2.symm) h
      · rfl
      · rfl
      · rfl
  | sub a x r _ ih =>
    unfold set
    by_cases h : a = k
    · subst h; simp only [if_true, get_cons, get]; split_ifs <;> rfl
    · simp only [h, if_false, get, ih]
      split_ifs with h1 h2 h2
      · exact absurd (h1.trans h2.symm) h
      · rfl
      · rfl
      · rfl

theorem get_eq_none_iff (d : Dict α) (k : Key) : d.get k = none ↔ k ∉ d.keys := by
  induction d with
  | nil => simp [get, keys]
  | leaf a x r ih =>
    simp only [get, keys, List.mem_cons, not_or, ← ih]
    split_ifs with h
    · simp [h]
    · simp [Ne.symm h]
  | sub a x r _ ih =>
    simp only [get, keys, List.mem_cons, not_or, ← ih]
    split_ifs with h
    · simp [h]
    · simp [Ne.symm h]

theorem mem_keys_set (d : Dict α) (k k' : Key) (v : Val α) :
    k' ∈ (d.set k v).keys ↔ k' = k ∨ k' ∈ d.keys := by
  have h1 := get_eq_none_iff (d.set k v) k'
  have h2 := get_eq_none_iff d k'
  rw [get_set] at h1
  by_cases h : k = k'
  · subst h; simp at h1; simp [h1]
  · simp only [h, if_false] at h1
    rw [← not_iff_not, ← h1, h2, not_or]
    simp [Ne.symm h]

end Dict

/-! ### Paths -/

/-- The list of (path, leaf) pairs, in order. -/
def paths (isLeaf : Dict α → Bool) (keepEmpty : Bool) : Dict α → List (List Key × Val α)
  | .nil => []
  | .leaf k a r => ([k], .arr a) :: paths isLeaf keepEmpty r
  | .sub k d r =>
    (if isLeaf d then [([k], .dict d)]
     else if keepEmpty && d.keys.isEmpty then [([k], .dict d)]
     else (paths isLeaf keepEmpty d).map fun e => (k :: e.1, e.2)) ++ paths isLeaf keepEmpty r

/-- All paths in `d` are headed by one of its keys. -/
theorem paths_head (isLeaf : Dict α → Bool) (ke : Bool) (d : Dict α) :
    ∀ e ∈ paths isLeaf ke d, ∃ k q, e.1 = k :: q ∧ k ∈ d.keys := by
  induction d with
  | nil => intro e h; cases h
  | leaf k a r ih =>
    intro e h
    rcases List.mem_cons.1 h with rfl | h
    · exact ⟨k, [], rfl, by simp [Dict.keys]⟩
    · obtain ⟨k', q, h1, h2⟩ := ih e h
      exact ⟨k', q, h1, by simp [Dict.keys, h2]⟩
  | sub k d r _ ih =>
    intro e h
    unfold paths at h
    rcases List.mem_append.1 h with h | h
    · refine ⟨k, e.1.tail, ?_, by simp [Dict.keys]⟩
      split_ifs at h
      · simp at h; rw [h]; rfl
      · simp at h; rw [h]; rfl
      · obtain ⟨x, _, rfl⟩ := List.mem_map.1 h; rfl
    · obtain ⟨k', q, h1, h2⟩ := ih e h
      exact ⟨k', q, h1, by simp [Dict.keys, h2]⟩

theorem paths_ne_nil (isLeaf : Dict α → Bool) (ke : Bool) (d : Dict α) :
    ∀ e ∈ paths isLeaf ke d, e.1 ≠ [] := by
  intro e he
  obtain ⟨k, q, h, _⟩ := paths_head isLeaf ke d e he
  rw [h]; simp

theorem paths_nodup (isLeaf : Dict α → Bool) (ke : Bool) (d : Dict α) (hd : Proper isLeaf d) :
    ((paths isLeaf ke d).map Prod.fst).Nodup := by
  induction d with
  | nil => simp [paths]
  | leaf k a r ih =>
    obtain ⟨_, h2, h3⟩ := hd
    simp only [paths, List.map_cons, List.nodup_cons]
    refine ⟨?_, ih h3⟩
    intro hm
    obtain ⟨e, he, heq⟩ := List.mem_map.1 hm
    obtain ⟨k', q, h, hk⟩ := paths_head isLeaf ke r e he
    rw [h] at heq
    simp at heq
    exact h2 (heq.1 ▸ hk)
  | sub k d r ih1 ih2 =>
    obtain ⟨_, h2, h3, h4⟩ := hd
    simp only [paths, List.map_append]
    rw [List.nodup_append]
    refine ⟨?_, ih2 h4, ?_⟩
    · split_ifs with h h'
      · simp
      · simp
      · rw [List.map_map]
        rcases h3 with h3 | h3
        · exact absurd h3 h
        · have := ih1 h3
          have h5 : ((fun e : List Key × Val α => e.1) ∘ fun e : List Key × Val α => (k :: e.1, e.2)) =
              (List.cons k) ∘ (Prod.fst : List Key × Val α → List Key) := rfl
          change (List.map ((fun e : List Key × Val α => e.1) ∘ fun e : List Key × Val α => (k :: e.1, e.2)) _).Nodup
          rw [h5, ← List.map_map]
          exact this.map (List.cons_injective)
    · intro a ha b hb hab
      subst hab
      obtain ⟨e, he, rfl⟩ := List.mem_map.1 hb
      obtain ⟨k', q, h, hk⟩ := paths_head isLeaf ke r e he
      obtain ⟨e', he', heq⟩ := List.mem_map.1 ha
      have : e'.1 = k :: e'.1.tail := by
        split_ifs at he'
        · simp at he'; rw [he']; rfl
        · simp at he'; rw [he']; rfl
        · obtain ⟨x, _, rfl⟩ := List.mem_map.1 he'; rfl
      rw [this, h] at heq
      simp at heq
      exact h2 (heq.1 ▸ hk)

theorem paths_no_sep (isLeaf : Dict α → Bool) (ke : Bool) (d : Dict α) (hd : Proper isLeaf d) :
    ∀ e ∈ paths isLeaf ke d, ∀ k ∈ e.1, '/' ∉ k := by
  induction d with
  | nil => intro e h; cases h
  | leaf k a r ih =>
    intro e h
    rcases List.mem_cons.1 h with rfl | h
    · intro k' hk'; simp at hk'; subst hk'; exact hd.1
    · exact ih hd.2.2 e h
  | sub k d r ih1 ih2 =>
    obtain ⟨h1, h2, h3, h4⟩ := hd
    intro e h
    unfold paths at h
    rcases List.mem_append.1 h with h | h
    · split_ifs at h with g g'
      · simp at h; subst h; intro k' hk'; simp at hk'; subst hk'; exact h1
      · simp at h; subst h; intro k' hk'; simp at hk'; subst hk'; exact h1
      · rcases h3 with h3 | h3
        · exact absurd h3 g
        · obtain ⟨x, hx, rfl⟩ := List.mem_map.1 h
          intro k' hk'
          rcases List.mem_cons.1 hk' with rfl | hk'
          · exact h1
          · exact ih1 h3 x hx k' hk'
    · exact ih2 h4 e h

theorem split_join (p : List Key) (hp : p ≠ []) (h : ∀ k ∈ p, '/' ∉ k) : split (join p) = p :=
  List.splitOn_intercalate '/' h hp

theorem join_inj (p q : List Key) (hp : p ≠ []) (hq : q ≠ []) (h1 : ∀ k ∈ p, '/' ∉ k)
    (h2 : ∀ k ∈ q, '/' ∉ k) (h : join p = join q) : p = q := by
  rw [← split_join p hp h1, ← split_join q hq h2, h]

/-- `flattenGo` is the list of all paths as long as the names do not collide. -/
theorem flattenGo_eq {κ : Type} [DecidableEq κ] (isLeaf : Dict α → Bool) (ke : Bool)
    (name : List Key → κ) (d : Dict α) : ∀ (pre : List Key) (acc : List (κ × Val α)),
    (PyDict.keys acc ++ (paths isLeaf ke d).map (fun e => name (pre ++ e.1))).Nodup →
    flattenGo isLeaf ke name pre acc d =
      acc ++ (paths isLeaf ke d).map (fun e => (name (pre ++ e.1), e.2)) := by
  have hupd : ∀ (l acc : List (κ × Val α)), (PyDict.keys acc ++ PyDict.keys l).Nodup →
      PyDict.update acc l = acc ++ l := by
    intro l
    induction l with
    | nil => intro acc _; simp [PyDict.update]
    | cons x l ih =>
      intro acc h
      obtain ⟨a, b⟩ := x
      have h1 : a ∉ PyDict.keys acc := by
        intro hm
        rw [List.nodup_append] at h
        exact h.2.2 a hm a (by simp [PyDict.keys]) rfl
      unfold PyDict.update at ih ⊢
      rw [List.foldl_cons, PyDict.set_append_of_not_mem _ _ _ h1, ih]
      · simp
      · simp only [PyDict.keys, List.map_append, List.map_cons, List.map_nil, List.append_assoc,
          List.singleton_append] at h ⊢
        exact h
  induction d with
  | nil => intro pre acc _; simp [flattenGo, paths]
  | leaf k a r ih =>
    intro pre acc h
    simp only [paths, List.map_cons] at h
    unfold flattenGo
    rw [hupd, ih]
    · simp [paths]
    · simpa [PyDict.keys] using h
    · rw [show PyDict.keys acc ++ name (pre ++ [k]) :: (paths isLeaf ke r).map (fun e => name (pre ++ e.1)) =
        (PyDict.keys acc ++ [name (pre ++ [k])]) ++ (paths isLeaf ke r).map (fun e => name (pre ++ e.1)) by simp] at h
      exact (List.nodup_append.1 h).1
  | sub k d r ih1 ih2 =>
    intro pre acc h
    simp only [paths, List.map_append] at h
    unfold flattenGo
    simp only
    set inner : List (List Key × Val α) := (if isLeaf d then [([k], .dict d)]
       else if ke && d.keys.isEmpty then [([k], .dict d)]
       else (paths isLeaf ke d).map fun e => (k :: e.1, e.2)) with hinner
    have hk : PyDict.keys (inner.map fun e => (name (pre ++ e.1), e.2)) =
        inner.map (fun e => name (pre ++ e.1)) := by
      simp [PyDict.keys, Function.comp_def]
    have h12 := h
    rw [← List.append_assoc] at h12
    have hacc := (List.nodup_append.1 h12).1
    have hin : (if isLeaf d = true then [(name (pre ++ [k]), Val.dict d)]
       else if (ke && d.keys.isEmpty) = true then [(name (pre ++ [k]), Val.dict d)]
       else flattenGo isLeaf ke name (pre ++ [k]) [] d) =
       inner.map fun e => (name (pre ++ e.1), e.2) := by
      by_cases h1 : isLeaf d = true
      · simp only [hinner, h1, if_true]; rfl
      · by_cases h2 : (ke && d.keys.isEmpty) = true
        · simp only [hinner, h1, h2, if_true]; rfl
        · have hI : inner = (paths isLeaf ke d).map fun e => (k :: e.1, e.2) := by
            rw [hinner, if_neg h1, if_neg h2]
          rw [if_neg h1, if_neg h2, ih1, hI]
          · simp [Function.comp_def]
          · have := (List.nodup_append.1 hacc).2.1
            rw [hI] at this
            simpa [PyDict.keys, Function.comp_def] using this
    rw [hin, hupd, ih2]
    · simp only [paths, ← hinner, List.map_append, List.append_assoc]
    · have : PyDict.keys (acc ++ inner.map fun e => (name (pre ++ e.1), e.2)) =
          PyDict.keys acc ++ inner.map (fun e => name (pre ++ e.1)) := by
        rw [← hk]; simp [PyDict.keys]
      rw [this]
      exact h12
    · rw [hk]; exact hacc

theorem flattenStateDict_eq (d : Dict α) (ke : Bool) (hd : Proper tensorstoreLeaf d) :
    flattenStateDict d ke = (paths tensorstoreLeaf ke d).map (fun e => (join e.1, e.2)) := by
  unfold flattenStateDict
  rw [flattenGo_eq]
  · simp
  · simp only [PyDict.keys, List.map_nil, List.nil_append]
    have h1 := paths_nodup tensorstoreLeaf ke d hd
    have h2 : (paths tensorstoreLeaf ke d).map (fun e => join e.1) =
        ((paths tensorstoreLeaf ke d).map Prod.fst).map join := by simp [Function.comp_def]
    rw [h2]
    refine List.Nodup.map_on ?_ h1
    intro x hx y hy hxy
    obtain ⟨e, he, rfl⟩ := List.mem_map.1 hx
    obtain ⟨e', he', rfl⟩ := List.mem_map.1 hy
    exact join_inj _ _ (paths_ne_nil _ _ _ e he) (paths_ne_nil _ _ _ e' he')
      (paths_no_sep _ _ _ hd e he) (paths_no_sep _ _ _ hd e' he') hxy

theorem flatten_wf (d : Dict α) (ke : Bool) (hd : Proper tensorstoreLeaf d) :
    PyDict.WF (flattenStateDict d ke) := by
  rw [flattenStateDict_eq d ke hd]
  unfold PyDict.WF PyDict.keys
  rw [List.map_map]
  have h2 : (paths tensorstoreLeaf ke d).map (Prod.fst ∘ fun e => (join e.1, e.2)) =
      ((paths tensorstoreLeaf ke d).map Prod.fst).map join := by simp [Function.comp_def]
  rw [h2]
  refine List.Nodup.map_on ?_ (paths_nodup tensorstoreLeaf ke d hd)
  intro x hx y hy hxy
  obtain ⟨e, he, rfl⟩ := List.mem_map.1 hx
  obtain ⟨e', he', rfl⟩ := List.mem_map.1 hy
  exact join_inj _ _ (paths_ne_nil _ _ _ e he) (paths_ne_nil _ _ _ e' he')
    (paths_no_sep _ _ _ hd e he) (paths_no_sep _ _ _ hd e' he') hxy

/-- Membership in `paths` is path lookup. -/
theorem mem_paths (isLeaf : Dict α → Bool) (d : Dict α) (hd : Proper isLeaf d) (p : List Key) (v : Val α) :
    (p, v) ∈ paths isLeaf false d ↔ leafAt isLeaf d p = some v := by
  induction d generalizing p with
  | nil =>
    match p with
    | [] => simp [paths, leafAt]
    | [k] => simp [paths, leafAt, Dict.get]
    | k :: k2 :: ks => simp [paths, leafAt, Dict.get]
  | leaf k a r ih =>
    obtain ⟨h1, h2, h3⟩ := hd
    have hn : r.get k = none := (Dict.get_eq_none_iff r k).2 h2
    have hr := ih h3
    simp only [paths, List.mem_cons, hr]
    match p with
    | [] => simp [leafAt]
    | [k'] =>
      by_cases hk : k = k'
      · subst hk
        simp [leafAt, Dict.get, hn, eq_comm]
      · simp [leafAt, Dict.get, hk, Ne.symm hk]
    | k' :: k2 :: ks =>
      by_cases hk : k = k'
      · subst hk
        simp [leafAt, Dict.get, hn]
      · simp [leafAt, Dict.get, hk]
  | sub k d r ih1 ih2 =>
    obtain ⟨h1, h2, h3, h4⟩ := hd
    have hn : r.get k = none := (Dict.get_eq_none_iff r k).2 h2
    have hr := ih2 h4
    simp only [paths, List.mem_append, hr, Bool.false_and, Bool.false_eq_true, if_false]
    match p with
    | [] =>
      by_cases hl : isLeaf d = true <;> simp [leafAt, hl]
    | [k'] =>
      by_cases hk : k = k'
      · subst hk
        by_cases hl : isLeaf d = true
        · simp [leafAt, Dict.get, hn, hl, eq_comm]
        · simp only [hl, if_false, leafAt, Dict.get, hn, if_true]
          constructor
          · rintro (h | h)
            · obtain ⟨x, hx, heq⟩ := List.mem_map.1 h
              simp at heq
              exact absurd heq.1 (paths_ne_nil _ _ _ x hx)
            · cases h
          · intro h; cases h
      · by_cases hl : isLeaf d = true
        · simp [leafAt, Dict.get, hk, hl, Ne.symm hk]
        · simp [leafAt, Dict.get, hk, hl]
    | k' :: k2 :: ks =>
      by_cases hk : k = k'
      · subst hk
        by_cases hl : isLeaf d = true
        · simp [leafAt, Dict.get, hn, hl]
        · rcases h3 with h3 | h3
          · exact absurd h3 hl
          · have := ih1 h3 (k2 :: ks)
            simp [leafAt, Dict.get, hn, hl, this]
      · by_cases hl : isLeaf d = true
        · simp [leafAt, Dict.get, hk, hl]
        · simp [leafAt, Dict.get, hk, hl]

/-! ### Insertion -/

/-- Interior dictionaries contain no "bad" key, hence are not leaves. -/
def Clean (isLeaf : Dict α → Bool) (bad : Key → Prop) : Dict α → Prop
  | .nil => True
  | .leaf k _ r => ¬ bad k ∧ Clean isLeaf bad r
  | .sub k d r => ¬ bad k ∧ (isLeaf d = true ∨ Clean isLeaf bad d) ∧ Clean isLeaf bad r

/-- The two ways a value can be a leaf. -/
def LeafLike (isLeaf : Dict α → Bool) : Val α → Prop
  | .arr _ => True
  | .dict d => isLeaf d = true

theorem Clean.keys {isLeaf : Dict α → Bool} {bad : Key → Prop} {d : Dict α} (h : Clean isLeaf bad d) :
    ∀ k ∈ d.keys, ¬ bad k := by
  induction d with
  | nil => intro k h; cases h
  | leaf k a r ih =>
    intro k' hk
    rcases List.mem_cons.1 hk with rfl | hk
    · exact h.1
    · exact ih h.2 k' hk
  | sub k d r _ ih =>
    intro k' hk
    rcases List.mem_cons.1 hk with rfl | hk
    · exact h.1
    · exact ih h.2.2 k' hk

theorem Clean.get {isLeaf : Dict α → Bool} {bad : Key → Prop} {d : Dict α} (h : Clean isLeaf bad d)
    {k : Key} {s : Dict α} (hg : d.get k = some (.dict s)) : isLeaf s = true ∨ Clean isLeaf bad s := by
  induction d with
  | nil => cases hg
  | leaf k' a r ih =>
    simp only [Dict.get] at hg
    split_ifs at hg
    · cases hg
    · exact ih h.2 hg
  | sub k' d r _ ih =>
    simp only [Dict.get] at hg
    split_ifs at hg
    · cases hg; exact h.2.1
    · exact ih h.2.2 hg

theorem Clean.set {isLeaf : Dict α → Bool} {bad : Key → Prop} {d : Dict α} (h : Clean isLeaf bad d)
    {k : Key} (hk : ¬ bad k) (v : Val α)
    (hv : ∀ s, v = .dict s → isLeaf s = true ∨ Clean isLeaf bad s) : Clean isLeaf bad (d.set k v) := by
  have hc : ∀ r, Clean isLeaf bad r → Clean isLeaf bad (Dict.cons k v r) := by
    intro r hr
    cases v with
    | arr a => exact ⟨hk, hr⟩
    | dict s => exact ⟨hk, hv s rfl, hr⟩
  induction d with
  | nil => exact hc _ trivial
  | leaf k' a r ih =>
    unfold Dict.set
    split_ifs
    · exact hc _ h.2
    · exact ⟨h.1, ih h.2⟩
  | sub k' d r _ ih =>
    unfold Dict.set
    split_ifs
    · exact hc _ h.2.2
    · exact ⟨h.1, h.2.1, ih h.2.2⟩

theorem ins_spec (isLeaf : Dict α → Bool) (bad : Key → Prop)
    (hbad : ∀ d, isLeaf d = true → ∃ k ∈ d.keys, bad k) (p : List Key) :
    ∀ (d : Dict α) (v : Val α), p ≠ [] → (∀ k ∈ p, ¬ bad k) → LeafLike isLeaf v → Clean isLeaf bad d →
      (∀ q w, leafAt isLeaf d q = some w → ¬ q <+: p ∧ ¬ p <+: q) →
      ∃ d', ins d p v = some d' ∧ Clean isLeaf bad d' ∧
        ∀ q, leafAt isLeaf d' q = if q = p then some v else leafAt isLeaf d q := by
  have hclean : ∀ s, Clean isLeaf bad s → isLeaf s = false := by
    intro s hs
    by_contra h
    obtain ⟨k, h1, h2⟩ := hbad s (by simpa using h)
    exact hs.keys k h1 h2
  have hnil : ∀ q, leafAt isLeaf (Dict.nil : Dict α) q = none := by
    intro q
    match q with
    | [] => rfl
    | [_] => rfl
    | _ :: _ :: _ => rfl
  induction p with
  | nil => intro d v h; exact absurd rfl h
  | cons k ks ih =>
    intro d v _ hb hv hd hfree
    match ks, ih with
    | [], _ =>
      refine ⟨d.set k v, rfl, ?_, ?_⟩
      · refine hd.set (hb k (by simp)) v ?_
        intro s hs; subst hs; exact Or.inl hv
      · intro q
        match q with
        | [] => simp [leafAt]
        | [k'] =>
          by_cases hk : k' = k
          · subst hk
            simp only [leafAt, Dict.get_set, if_true]
            cases v with
            | arr a => rfl
            | dict s => have : isLeaf s = true := hv; simp [this]
          · have hk' : ¬ k = k' := fun h => hk h.symm
            simp [leafAt, Dict.get_set, hk, hk']
        | k' :: k2 :: qs =>
          by_cases hk : k' = k
          · subst hk
            have h1 : leafAt isLeaf d (k' :: k2 :: qs) = none := by
              cases h : leafAt isLeaf d (k' :: k2 :: qs) with
              | none => rfl
              | some w => exact absurd (by simp) (hfree _ _ h).2
            rw [h1]
            simp only [leafAt, Dict.get_set, if_true]
            cases v with
            | arr a => simp
            | dict s => have : isLeaf s = true := hv; simp [this]
          · have hk' : ¬ k = k' := fun h => hk h.symm
            simp [leafAt, Dict.get_set, hk, hk']
    | k2 :: ks, ih =>
      -- the dictionary below `k`
      have key : ∀ s : Dict α, Clean isLeaf bad s →
          (∀ q w, leafAt isLeaf s q = some w → ¬ q <+: (k2 :: ks) ∧ ¬ (k2 :: ks) <+: q) →
          (∀ q2 qs, leafAt isLeaf d (k :: q2 :: qs) = leafAt isLeaf s (q2 :: qs)) →
          leafAt isLeaf d [k] = none →
          ∃ d', (ins s (k2 :: ks) v).map (fun s' => d.set k (.dict s')) = some d' ∧
            Clean isLeaf bad d' ∧
            ∀ q, leafAt isLeaf d' q = if q = k :: k2 :: ks then some v else leafAt isLeaf d q := by
        intro s hs hsf hsub hk0
        obtain ⟨s', h1, h2, h3⟩ := ih s v (by simp) (fun x hx => hb x (List.mem_cons_of_mem _ hx)) hv hs hsf
        refine ⟨d.set k (.dict s'), by rw [h1]; rfl, ?_, ?_⟩
        · refine hd.set (hb k (by simp)) _ ?_
          intro x hx; cases hx; exact Or.inr h2
        · intro q
          have hs'l := hclean s' h2
          match q with
          | [] => simp [leafAt]
          | [k'] =>
            by_cases hk : k' = k
            · subst hk
              rw [hk0]
              simp [leafAt, Dict.get_set, hs'l]
            · have hk' : ¬ k = k' := fun h => hk h.symm
              simp [leafAt, Dict.get_set, hk']
          | k' :: q2 :: qs =>
            by_cases hk : k' = k
            · subst hk
              rw [hsub]
              have := h3 (q2 :: qs)
              simp only [leafAt, Dict.get_set, if_true, hs'l, Bool.false_eq_true, if_false, this,
                List.cons.injEq, true_and]
            · have hk' : ¬ k = k' := fun h => hk h.symm
              simp [leafAt, Dict.get_set, hk, hk']
      unfold ins
      cases hg : d.get k with
      | none =>
        refine key .nil trivial (fun q w h => by rw [hnil] at h; cases h) ?_ ?_
        · intro q2 qs; rw [hnil]; simp [leafAt, hg]
        · simp [leafAt, hg]
      | some x =>
        cases x with
        | arr a =>
          exfalso
          have : leafAt isLeaf d [k] = some (.arr a) := by simp [leafAt, hg]
          exact (hfree _ _ this).1 (by simp)
        | dict s =>
          have hsl : isLeaf s = false := by
            by_contra h
            have h : isLeaf s = true := by simpa using h
            have : leafAt isLeaf d [k] = some (.dict s) := by simp [leafAt, hg, h]
            exact (hfree _ _ this).1 (by simp)
          have hsc : Clean isLeaf bad s := by
            rcases hd.get hg with h | h
            · rw [hsl] at h; cases h
            · exact h
          have hsub : ∀ q2 qs, leafAt isLeaf d (k :: q2 :: qs) = leafAt isLeaf s (q2 :: qs) := by
            intro q2 qs; simp [leafAt, hg, hsl]
          refine key s hsc ?_ hsub (by simp [leafAt, hg, hsl])
          intro q w hq
          match q with
          | [] => simp [leafAt] at hq
          | q2 :: qs =>
            rw [← hsub] at hq
            have := hfree _ _ hq
            simpa using this

/-- Paths none of which is a prefix of another one. -/
def PrefixFree (l : List (List Key × Val α)) : Prop :=
  l.Pairwise (fun e e' => ¬ e.1 <+: e'.1 ∧ ¬ e'.1 <+: e.1)

theorem unflattenPaths_spec (isLeaf : Dict α → Bool) (bad : Key → Prop)
    (hbad : ∀ d, isLeaf d = true → ∃ k ∈ d.keys, bad k) (l : List (List Key × Val α)) :
    ∀ (d : Dict α), (∀ e ∈ l, e.1 ≠ []) → (∀ e ∈ l, ∀ k ∈ e.1, ¬ bad k) → (∀ e ∈ l, LeafLike isLeaf e.2) →
      PrefixFree l → Clean isLeaf bad d →
      (∀ q w, leafAt isLeaf d q = some w → ∀ e ∈ l, ¬ q <+: e.1 ∧ ¬ e.1 <+: q) →
      ∃ d', unflattenPaths d l = some d' ∧
        ∀ q w, leafAt isLeaf d' q = some w ↔ leafAt isLeaf d q = some w ∨ (q, w) ∈ l := by
  induction l with
  | nil => intro d _ _ _ _ _ _; exact ⟨d, rfl, by simp⟩
  | cons e l ih =>
    obtain ⟨p, v⟩ := e
    intro d h1 h2 h3 h4 h5 h6
    obtain ⟨d1, g1, g2, g3⟩ := ins_spec isLeaf bad hbad p d v (h1 (p, v) (by simp)) (h2 (p, v) (by simp))
      (h3 (p, v) (by simp)) h5 (fun q w hq => h6 q w hq (p, v) (by simp))
    have h4' := List.pairwise_cons.1 h4
    obtain ⟨d2, k1, k2⟩ := ih d1 (fun e he => h1 e (by simp [he])) (fun e he => h2 e (by simp [he]))
      (fun e he => h3 e (by simp [he])) h4'.2 g2 (by
        intro q w hq e he
        rw [g3] at hq
        split_ifs at hq with hqp
        · subst hqp; exact h4'.1 e he
        · exact h6 q w hq e (by simp [he]))
    refine ⟨d2, by simp [unflattenPaths, g1, k1], ?_⟩
    intro q w
    rw [k2, g3]
    constructor
    · rintro (h | h)
      · split_ifs at h with hqp
        · cases h; subst hqp; right; simp
        · exact Or.inl h
      · right; simp [h]
    · rintro (h | h)
      · left
        rw [if_neg]
        · exact h
        · rintro rfl
          exact (h6 _ _ h (q, v) (by simp)).1 (List.prefix_rfl)
      · rcases List.mem_cons.1 h with h | h
        · cases h; left; simp
        · exact Or.inr h

/-! ### Flattened states -/

theorem flat_unflat_get (l : List (Key × Val α)) (hwf : PyDict.WF l)
    (hn : ∀ e ∈ l, ∃ p, Named p ∧ e.1 = join p ∧ (∀ k ∈ p, k ≠ "driver".toList))
    (hv : ∀ e ∈ l, LeafLike tensorstoreLeaf e.2)
    (hpf : ∀ p q, Named p → Named q → join p ∈ PyDict.keys l → join q ∈ PyDict.keys l → p <+: q → p = q) :
    ∃ r, unflatten l = some r ∧
      ∀ p, stateLeaf r p = if Named p then PyDict.get l (join p) else none := by
  have hbad : ∀ d : Dict α, tensorstoreLeaf d = true → ∃ k ∈ d.keys, k = "driver".toList := by
    intro d hd
    unfold tensorstoreLeaf at hd
    simp only [Bool.and_eq_true, List.contains_iff_mem] at hd
    exact ⟨_, hd.1.1, rfl⟩
  have hkeys : ∀ e ∈ l, e.1 ∈ PyDict.keys l := fun e he => List.mem_map.2 ⟨e, he, rfl⟩
  have hsplit : ∀ e ∈ l, Named (split e.1) ∧ e.1 = join (split e.1) := by
    intro e he
    obtain ⟨p, hp, hj, _⟩ := hn e he
    rw [hj, split_join p hp.1 hp.2]
    exact ⟨hp, rfl⟩
  obtain ⟨r, h1, h2⟩ := unflattenPaths_spec tensorstoreLeaf (fun k => k = "driver".toList) hbad
    (l.map fun e => (split e.1, e.2)) .nil
    (by
      intro e he
      obtain ⟨x, hx, rfl⟩ := List.mem_map.1 he
      exact (hsplit x hx).1.1)
    (by
      intro e he
      obtain ⟨x, hx, rfl⟩ := List.mem_map.1 he
      obtain ⟨p, hp, hj, hd⟩ := hn x hx
      simp only
      rw [hj, split_join p hp.1 hp.2]
      exact hd)
    (by
      intro e he
      obtain ⟨x, hx, rfl⟩ := List.mem_map.1 he
      exact hv x hx)
    (by
      unfold PrefixFree
      rw [List.pairwise_map]
      have hnd : l.Pairwise (fun a b => a.1 ≠ b.1) := by
        have := hwf
        unfold PyDict.WF PyDict.keys at this
        exact List.pairwise_map.1 this
      refine hnd.imp_of_mem ?_
      intro a b ha hb hab
      have key : ∀ a ∈ l, ∀ b ∈ l, a.1 ≠ b.1 → ¬ split a.1 <+: split b.1 := by
        intro a ha b hb hab hpre
        have h1 := hsplit a ha
        have h2 := hsplit b hb
        have := hpf _ _ h1.1 h2.1 (h1.2 ▸ hkeys a ha) (h2.2 ▸ hkeys b hb) hpre
        apply hab
        rw [h1.2, h2.2, this]
      exact ⟨key a ha b hb hab, key b hb a ha (Ne.symm hab)⟩)
    trivial
    (by
      intro q w hq
      match q with
      | [] => cases hq
      | [_] => cases hq
      | _ :: _ :: _ => cases hq)
  refine ⟨r, h1, ?_⟩
  have hnil : ∀ q w, leafAt tensorstoreLeaf (Dict.nil : Dict α) q = some w → False := by
    intro q w hq
    match q with
    | [] => cases hq
    | [_] => cases hq
    | _ :: _ :: _ => cases hq
  have h3 : ∀ q w, stateLeaf r q = some w ↔ Named q ∧ PyDict.get l (join q) = some w := by
    intro q w
    unfold stateLeaf
    rw [h2, PyDict.get_iff_mem l hwf]
    constructor
    · rintro (h | h)
      · exact (hnil _ _ h).elim
      · obtain ⟨x, hx, heq⟩ := List.mem_map.1 h
        cases heq
        have := hsplit x hx
        refine ⟨this.1, ?_⟩
        rw [← this.2]
        exact hx
    · rintro ⟨hq, h⟩
      right
      refine List.mem_map.2 ⟨_, h, ?_⟩
      simp only
      rw [split_join q hq.1 hq.2]
  intro p
  by_cases hp : Named p
  · rw [if_pos hp]
    cases hg : PyDict.get l (join p) with
    | some w => exact (h3 p w).2 ⟨hp, hg⟩
    | none =>
      cases hs : stateLeaf r p with
      | none => rfl
      | some w => rw [((h3 p w).1 hs).2] at hg; cases hg
  · rw [if_neg hp]
    cases hs : stateLeaf r p with
    | none => rfl
    | some w => exact absurd ((h3 p w).1 hs).1 hp

theorem stateLeaf_named (d : Dict α) (hd : Proper tensorstoreLeaf d) (p : List Key) (v : Val α)
    (h : stateLeaf d p = some v) : Named p := by
  have := (mem_paths tensorstoreLeaf d hd p v).2 h
  exact ⟨paths_ne_nil _ _ _ _ this, paths_no_sep _ _ _ hd _ this⟩

theorem get_flatten (d : Dict α) (hd : Proper tensorstoreLeaf d) (p : List Key) (hp : Named p) :
    PyDict.get (flattenStateDict d) (join p) = stateLeaf d p := by
  have key : ∀ v, PyDict.get (flattenStateDict d) (join p) = some v ↔ stateLeaf d p = some v := by
    intro v
    rw [PyDict.get_iff_mem _ (flatten_wf d false hd), flattenStateDict_eq d false hd]
    unfold stateLeaf
    rw [← mem_paths tensorstoreLeaf d hd]
    constructor
    · intro h
      obtain ⟨x, hx, heq⟩ := List.mem_map.1 h
      have h1 : x.1 = p := join_inj _ _ (paths_ne_nil _ _ _ x hx) hp.1 (paths_no_sep _ _ _ hd x hx) hp.2
        (congrArg Prod.fst heq)
      have h2 : x.2 = v := congrArg Prod.snd heq
      rw [← h1, ← h2]; exact hx
    · intro h; exact List.mem_map.2 ⟨_, h, rfl⟩
  cases h : PyDict.get (flattenStateDict d) (join p) with
  | some v => exact ((key v).1 h).symm
  | none =>
    cases hs : stateLeaf d p with
    | none => rfl
    | some v => rw [(key v).2 hs] at h; cases h

theorem flatten_key (d : Dict α) (hd : Proper tensorstoreLeaf d) (k : Key)
    (h : k ∈ PyDict.keys (flattenStateDict d)) :
    ∃ p v, Named p ∧ k = join p ∧ stateLeaf d p = some v := by
  rw [flattenStateDict_eq d false hd] at h
  obtain ⟨x, hx, rfl⟩ := List.mem_map.1 h
  obtain ⟨y, hy, rfl⟩ := List.mem_map.1 hx
  have h1 := (mem_paths tensorstoreLeaf d hd y.1 y.2).1 hy
  exact ⟨y.1, y.2, stateLeaf_named d hd _ _ h1, rfl, h1⟩

theorem leafAt_leafLike (isLeaf : Dict α → Bool) (p : List Key) :
    ∀ (d : Dict α) (v : Val α), leafAt isLeaf d p = some v → LeafLike isLeaf v := by
  induction p with
  | nil => intro d v h; cases h
  | cons k ks ih =>
    intro d v h
    match ks, ih with
    | [], _ =>
      simp only [leafAt] at h
      split at h
      · cases h; trivial
      · split_ifs at h with hl
        cases h; exact hl
      · cases h
    | k2 :: ks, ih =>
      simp only [leafAt] at h
      split at h
      · split_ifs at h with hl
        exact ih _ _ h
      · cases h

theorem leafAt_prefix (isLeaf : Dict α → Bool) (p : List Key) :
    ∀ (d : Dict α) (q : List Key) (v w : Val α), leafAt isLeaf d p = some v → leafAt isLeaf d q = some w →
      p <+: q → p = q := by
  induction p with
  | nil => intro d q v w h; cases h
  | cons k ks ih =>
    intro d q v w h1 h2 hpre
    match q with
    | [] => simp at hpre
    | k' :: qs =>
      rw [List.cons_prefix_cons] at hpre
      obtain ⟨rfl, hpre⟩ := hpre
      match ks, qs, ih with
      | [], [], _ => rfl
      | [], q2 :: qs, _ =>
        simp only [leafAt] at h1 h2
        split at h2
        · rename_i s hs
          rw [hs] at h1
          split_ifs at h2 with hl
          simp [hl] at h1
        · cases h2
      | k2 :: ks, [], _ => simp at hpre
      | k2 :: ks, q2 :: qs, ih =>
        simp only [leafAt] at h1 h2
        split at h1
        · rename_i s hs
          rw [hs] at h2
          split_ifs at h1 with hl
          simp only [hl, Bool.false_eq_true, if_false] at h2
          rw [ih s _ _ _ h1 h2 hpre]
        · cases h1

theorem get_plain {d : Dict α} (hd : Plain d) {k : Key} {v : Val α} (h : d.get k = some v) :
    k ≠ "driver".toList ∧ ∀ s, v = .dict s → tensorstoreLeaf s = true ∨ Plain s := by
  induction d with
  | nil => cases h
  | leaf k' a r ih =>
    simp only [Dict.get] at h
    split_ifs at h with hk
    · subst hk; cases h; exact ⟨hd.1, fun s hs => by cases hs⟩
    · exact ih hd.2 h
  | sub k' d r _ ih =>
    simp only [Dict.get] at h
    split_ifs at h with hk
    · subst hk; cases h; exact ⟨hd.1, fun s hs => by cases hs; exact hd.2.1⟩
    · exact ih hd.2.2 h

theorem stateLeaf_plain (p : List Key) : ∀ (d : Dict α), Plain d → ∀ v, stateLeaf d p = some v →
    ∀ k ∈ p, k ≠ "driver".toList := by
  induction p with
  | nil => intro d _ v _ k hk; cases hk
  | cons k ks ih =>
    intro d hd v h k' hk'
    match ks, ih with
    | [], _ =>
      simp only [stateLeaf, leafAt] at h
      cases hg : d.get k with
      | none => rw [hg] at h; cases h
      | some x => simp at hk'; subst hk'; exact (get_plain hd hg).1
    | k2 :: ks, ih =>
      simp only [stateLeaf, leafAt] at h
      cases hg : d.get k with
      | none => rw [hg] at h; cases h
      | some x =>
        rcases List.mem_cons.1 hk' with rfl | hk'
        · exact (get_plain hd hg).1
        · cases x with
          | arr a => rw [hg] at h; cases h
          | dict s =>
            rw [hg] at h
            simp only at h
            split_ifs at h with hl
            rcases (get_plain hd hg).2 s rfl with h' | h'
            · exact absurd h' hl
            · exact ih s h' v h k' hk'

/-! ### Exact round trip -/

def Dict.append : Dict α → Dict α → Dict α
  | .nil, e => e
  | .leaf k a r, e => .leaf k a (r.append e)
  | .sub k d r, e => .sub k d (r.append e)

theorem append_nil (d : Dict α) : d.append .nil = d := by
  induction d with
  | nil => rfl
  | leaf k a r ih => simp [Dict.append, ih]
  | sub k d r _ ih => simp [Dict.append, ih]

theorem append_assoc (a b c : Dict α) : (a.append b).append c = a.append (b.append c) := by
  induction a with
  | nil => rfl
  | leaf k x r ih => simp [Dict.append, ih]
  | sub k d r _ ih => simp [Dict.append, ih]

theorem keys_append (a b : Dict α) : (a.append b).keys = a.keys ++ b.keys := by
  induction a with
  | nil => rfl
  | leaf k x r ih => simp [Dict.append, Dict.keys, ih]
  | sub k d r _ ih => simp [Dict.append, Dict.keys, ih]

theorem set_new (d : Dict α) (k : Key) (v : Val α) (h : k ∉ d.keys) :
    d.set k v = d.append (Dict.cons k v .nil) := by
  induction d with
  | nil => rfl
  | leaf k' x r ih =>
    simp only [Dict.keys, List.mem_cons, not_or] at h
    simp only [Dict.set, if_neg (Ne.symm h.1), Dict.append, ih h.2]
  | sub k' d r _ ih =>
    simp only [Dict.keys, List.mem_cons, not_or] at h
    simp only [Dict.set, if_neg (Ne.symm h.1), Dict.append, ih h.2]

theorem set_set (d : Dict α) (k : Key) (v w : Val α) : (d.set k v).set k w = d.set k w := by
  have hc : ∀ r : Dict α, (Dict.cons k v r).set k w = Dict.cons k w r := by
    intro r; cases v <;> simp [Dict.cons, Dict.set]
  induction d with
  | nil => exact hc _
  | leaf k' x r ih =>
    by_cases h : k' = k
    · simp [Dict.set, h, hc]
    · simp [Dict.set, h, ih]
  | sub k' d r _ ih =>
    by_cases h : k' = k
    · simp [Dict.set, h, hc]
    · simp [Dict.set, h, ih]

theorem unflattenPaths_append (l m : List (List Key × Val α)) : ∀ d : Dict α,
    unflattenPaths d (l ++ m) = (unflattenPaths d l).bind fun d' => unflattenPaths d' m := by
  induction l with
  | nil => intro d; rfl
  | cons e l ih =>
    obtain ⟨p, v⟩ := e
    intro d
    simp only [List.cons_append, unflattenPaths]
    cases ins d p v with
    | none => rfl
    | some d' => simp [ih]

theorem unflattenPaths_sub (k : Key) (l : List (List Key × Val α)) : ∀ (acc s : Dict α),
    (∀ e ∈ l, e.1 ≠ []) →
    unflattenPaths (acc.set k (.dict s)) (l.map fun e => (k :: e.1, e.2)) =
      (unflattenPaths s l).map fun s' => acc.set k (.dict s') := by
  induction l with
  | nil => intro acc s _; rfl
  | cons e l ih =>
    obtain ⟨p, v⟩ := e
    intro acc s h
    have hp : p ≠ [] := h (p, v) (by simp)
    obtain ⟨k2, ks, rfl⟩ := List.exists_cons_of_ne_nil hp
    simp only [List.map_cons, unflattenPaths]
    have h1 : ins (acc.set k (.dict s)) (k :: k2 :: ks) v =
        (ins s (k2 :: ks) v).map fun s' => acc.set k (.dict s') := by
      simp only [ins, Dict.get_set, if_true, set_set]
    rw [h1]
    cases ins s (k2 :: ks) v with
    | none => rfl
    | some s' =>
      simp only [Option.map_some, Option.bind_some]
      exact ih acc s' (fun e he => h e (by simp [he]))

theorem unflattenPaths_new (k : Key) (l : List (List Key × Val α)) (acc : Dict α) (hk : k ∉ acc.keys)
    (hl : l ≠ []) (h : ∀ e ∈ l, e.1 ≠ []) :
    unflattenPaths acc (l.map fun e => (k :: e.1, e.2)) =
      (unflattenPaths .nil l).map fun s' => acc.append (.sub k s' .nil) := by
  have hset : ∀ s' : Dict α, acc.set k (.dict s') = acc.append (.sub k s' .nil) := fun s' => set_new acc k _ hk
  have hg : acc.get k = none := (Dict.get_eq_none_iff acc k).2 hk
  obtain ⟨⟨p, v⟩, l, rfl⟩ := List.exists_cons_of_ne_nil hl
  have hp : p ≠ [] := h (p, v) (by simp)
  obtain ⟨k2, ks, rfl⟩ := List.exists_cons_of_ne_nil hp
  simp only [List.map_cons, unflattenPaths]
  have h1 : ins acc (k :: k2 :: ks) v = (ins .nil (k2 :: ks) v).map fun s' => acc.set k (.dict s') := by
    simp only [ins, hg]
  rw [h1]
  cases ins .nil (k2 :: ks) v with
  | none => rfl
  | some s' =>
    simp only [Option.map_some, Option.bind_some]
    rw [unflattenPaths_sub k l acc s' (fun e he => h e (by simp [he]))]
    simp [hset]

/-- Rebuild a dictionary with every leaf `v` at path `p` replaced by `g p v`. -/
def relabel {β : Type} (isLeaf : Dict α → Bool) (ke : Bool) (g : List Key → Val α → Val β) :
    List Key → Dict α → Dict β
  | _, .nil => .nil
  | pre, .leaf k a r => Dict.cons k (g (pre ++ [k]) (.arr a)) (relabel isLeaf ke g pre r)
  | pre, .sub k d r =>
    Dict.cons k (if isLeaf d then g (pre ++ [k]) (.dict d)
      else if ke && d.keys.isEmpty then g (pre ++ [k]) (.dict d)
      else .dict (relabel isLeaf ke g (pre ++ [k]) d)) (relabel isLeaf ke g pre r)

theorem keys_relabel {β : Type} (isLeaf : Dict α → Bool) (ke : Bool) (g : List Key → Val α → Val β) (d : Dict α) :
    ∀ pre, (relabel isLeaf ke g pre d).keys = d.keys := by
  have hc : ∀ k (v : Val β) r, (Dict.cons k v r).keys = k :: r.keys := by
    intro k v r; cases v <;> rfl
  induction d with
  | nil => intro pre; rfl
  | leaf k a r ih => intro pre; simp [relabel, hc, Dict.keys, ih]
  | sub k d r _ ih => intro pre; simp [relabel, hc, Dict.keys, ih]

theorem paths_eq_nil (isLeaf : Dict α → Bool) (ke : Bool) (d : Dict α) (hne : NoEmpty isLeaf d ∨ ke = true)
    (h : paths isLeaf ke d = []) : d = .nil := by
  induction d with
  | nil => rfl
  | leaf k a r _ => simp [paths] at h
  | sub k d r ih1 _ =>
    exfalso
    simp only [paths, List.append_eq_nil_iff] at h
    have h := h.1
    split_ifs at h with h1 h2
    rw [List.map_eq_nil_iff] at h
    have hd : d = .nil := by
      refine ih1 ?_ h
      rcases hne with hne | hne
      · rcases hne.1 with h' | h'
        · exact absurd h' h1
        · exact Or.inl h'.2
      · exact Or.inr hne
    rcases hne with hne | hne
    · rcases hne.1 with h' | h'
      · exact absurd h' h1
      · exact h'.1 hd
    · apply h2; subst hd; simp [hne, Dict.keys]

theorem distinct_keys (isLeaf : Dict α → Bool) (d : Dict α) (h : Distinct isLeaf d) : d.keys.Nodup := by
  induction d with
  | nil => simp [Dict.keys]
  | leaf k a r ih => simp only [Dict.keys, List.nodup_cons]; exact ⟨h.1, ih h.2⟩
  | sub k d r _ ih => simp only [Dict.keys, List.nodup_cons]; exact ⟨h.1, ih h.2.2⟩

theorem _root_.Verif.StateDict.Spec.Proper.distinct {isLeaf : Dict α → Bool} {d : Dict α} (h : Proper isLeaf d) : Distinct isLeaf d := by
  induction d with
  | nil => trivial
  | leaf k a r ih => exact ⟨h.2.1, ih h.2.2⟩
  | sub k d r ih1 ih2 => exact ⟨h.2.1, h.2.2.1.imp id ih1, ih2 h.2.2.2⟩

theorem unflattenPaths_relabel {β : Type} (isLeaf : Dict α → Bool) (ke : Bool) (g : List Key → Val α → Val β)
    (d : Dict α) : ∀ (pre : List Key) (acc : Dict β), (acc.keys ++ d.keys).Nodup →
    Distinct isLeaf d → (NoEmpty isLeaf d ∨ ke = true) →
    unflattenPaths acc ((paths isLeaf ke d).map fun e => (e.1, g (pre ++ e.1) e.2)) =
      some (acc.append (relabel isLeaf ke g pre d)) := by
  induction d with
  | nil => intro pre acc _ _ _; simp [paths, unflattenPaths, relabel, append_nil]
  | leaf k a r ih =>
    intro pre acc hnd hp hne
    have hk : k ∉ acc.keys := by
      intro hm
      exact (List.nodup_append.1 hnd).2.2 k hm k (by simp [Dict.keys]) rfl
    simp only [paths, List.map_cons, unflattenPaths, ins, Option.bind_some]
    rw [set_new _ _ _ hk, ih]
    · rw [append_assoc]
      cases hv : g (pre ++ [k]) (.arr a) <;> simp [relabel, hv, Dict.cons, Dict.append]
    · rw [keys_append]
      have : (Dict.cons k (g (pre ++ [k]) (.arr a)) Dict.nil).keys = [k] := by
        cases g (pre ++ [k]) (.arr a) <;> rfl
      rw [this]
      simpa [Dict.keys] using hnd
    · exact hp.2
    · rcases hne with hne | hne
      · exact Or.inl hne
      · exact Or.inr hne
  | sub k d r ih1 ih2 =>
    intro pre acc hnd hp hne
    have hk : k ∉ acc.keys := by
      intro hm
      exact (List.nodup_append.1 hnd).2.2 k hm k (by simp [Dict.keys]) rfl
    have hner : NoEmpty isLeaf r ∨ ke = true := by
      rcases hne with hne | hne
      · exact Or.inl hne.2
      · exact Or.inr hne
    have hkc : ∀ v : Val β, (Dict.cons k v Dict.nil).keys = [k] := by
      intro v; cases v <;> rfl
    have hrest : ∀ v : Val β, unflattenPaths (acc.append (Dict.cons k v .nil))
        ((paths isLeaf ke r).map fun e => (e.1, g (pre ++ e.1) e.2)) =
        some (acc.append (Dict.cons k v (relabel isLeaf ke g pre r))) := by
      intro v
      rw [ih2]
      · rw [append_assoc]
        cases v <;> rfl
      · rw [keys_append, hkc]
        simpa [Dict.keys] using hnd
      · exact hp.2.2
      · exact hner
    simp only [paths, List.map_append]
    rw [unflattenPaths_append]
    by_cases h1 : isLeaf d = true
    · simp only [h1, if_true, List.map_cons, List.map_nil, unflattenPaths, ins, Option.bind_some, relabel]
      rw [set_new _ _ _ hk, hrest]
    · by_cases h2 : (ke && d.keys.isEmpty) = true
      · simp only [h1, h2, if_true, List.map_cons, List.map_nil, unflattenPaths, ins,
          Option.bind_some, relabel, Bool.false_eq_true, if_false]
        rw [set_new _ _ _ hk, hrest]
      · simp only [if_neg h1, if_neg h2, relabel]
        have hdd : Distinct isLeaf d := by
          rcases hp.2.1 with h | h
          · exact absurd h h1
          · exact h
        have hnd' : NoEmpty isLeaf d ∨ ke = true := by
          rcases hne with hne | hne
          · rcases hne.1 with h | h
            · exact absurd h h1
            · exact Or.inl h.2
          · exact Or.inr hne
        have hpne : paths isLeaf ke d ≠ [] := by
          intro h
          have hd := paths_eq_nil isLeaf ke d hnd' h
          rcases hne with hne | hne
          · rcases hne.1 with h | h
            · exact absurd h h1
            · exact h.1 hd
          · apply h2; subst hd; simp [hne, Dict.keys]
        have heq : List.map (fun e : List Key × Val α => (e.1, g (pre ++ e.1) e.2))
            (List.map (fun e => (k :: e.1, e.2)) (paths isLeaf ke d)) =
            ((paths isLeaf ke d).map fun e => (e.1, g ((pre ++ [k]) ++ e.1) e.2)).map fun e => (k :: e.1, e.2) := by
          simp [Function.comp_def]
        rw [heq, unflattenPaths_new _ _ _ hk]
        · rw [ih1 _ _ (by simpa [Dict.keys] using distinct_keys isLeaf d hdd) hdd hnd']
          simp only [Option.map_some, Option.bind_some]
          exact hrest (.dict _)
        · simpa using hpne
        · intro e he
          obtain ⟨x, hx, rfl⟩ := List.mem_map.1 he
          exact paths_ne_nil _ _ _ x hx

theorem relabel_id (isLeaf : Dict α → Bool) (ke : Bool) (d : Dict α) :
    ∀ pre, relabel isLeaf ke (fun _ v => v) pre d = d := by
  induction d with
  | nil => intro pre; rfl
  | leaf k a r ih => intro pre; simp [relabel, Dict.cons, ih]
  | sub k d r ih1 ih2 => intro pre; simp [relabel, ih1, ih2, Dict.cons]

/-! ### Well-formedness of rebuilt states -/

theorem ts_mono {d d' : Dict α} (h : ∀ k ∈ d.keys, k ∈ d'.keys) (hd : tensorstoreLeaf d = true) :
    tensorstoreLeaf d' = true := by
  unfold tensorstoreLeaf at *
  simp only [Bool.and_eq_true, List.contains_iff_mem] at *
  exact ⟨⟨h _ hd.1.1, h _ hd.1.2⟩, h _ hd.2⟩

theorem ins_keys (d d' : Dict α) (p : List Key) (v : Val α) (h : ins d p v = some d') :
    ∀ k ∈ d.keys, k ∈ d'.keys := by
  intro k hk
  match p with
  | [] => cases h
  | [k1] => simp only [ins, Option.some.injEq] at h; subst h; rw [Dict.mem_keys_set]; exact Or.inr hk
  | k1 :: k2 :: ks =>
    simp only [ins] at h
    split at h
    · obtain ⟨s, _, rfl⟩ := Option.map_eq_some_iff.1 h
      rw [Dict.mem_keys_set]; exact Or.inr hk
    · obtain ⟨s, _, rfl⟩ := Option.map_eq_some_iff.1 h
      rw [Dict.mem_keys_set]; exact Or.inr hk
    · cases h

theorem proper_get {d : Dict α} (hd : Proper tensorstoreLeaf d) {k : Key} {s : Dict α}
    (h : d.get k = some (.dict s)) : tensorstoreLeaf s = true ∨ Proper tensorstoreLeaf s := by
  induction d with
  | nil => cases h
  | leaf k' a r ih =>
    simp only [Dict.get] at h
    split_ifs at h
    · cases h
    · exact ih hd.2.2 h
  | sub k' d r _ ih =>
    simp only [Dict.get] at h
    split_ifs at h
    · cases h; exact hd.2.2.1
    · exact ih hd.2.2.2 h

theorem proper_set {d : Dict α} (hd : Proper tensorstoreLeaf d) {k : Key} (hk : '/' ∉ k) (v : Val α)
    (hv : ∀ s, v = .dict s → tensorstoreLeaf s = true ∨ Proper tensorstoreLeaf s) :
    Proper tensorstoreLeaf (d.set k v) := by
  have hc : ∀ r, k ∉ r.keys → Proper tensorstoreLeaf r → Proper tensorstoreLeaf (Dict.cons k v r) := by
    intro r h1 h2
    cases v with
    | arr a => exact ⟨hk, h1, h2⟩
    | dict s => exact ⟨hk, h1, hv s rfl, h2⟩
  induction d with
  | nil => exact hc _ (by simp [Dict.keys]) trivial
  | leaf k' a r ih =>
    unfold Dict.set
    split_ifs with h
    · subst h; exact hc _ hd.2.1 hd.2.2
    · refine ⟨hd.1, ?_, ih hd.2.2⟩
      rw [Dict.mem_keys_set, not_or]; exact ⟨h, hd.2.1⟩
  | sub k' d r _ ih =>
    unfold Dict.set
    split_ifs with h
    · subst h; exact hc _ hd.2.1 hd.2.2.2
    · refine ⟨hd.1, ?_, hd.2.2.1, ih hd.2.2.2⟩
      rw [Dict.mem_keys_set, not_or]; exact ⟨h, hd.2.1⟩

theorem plain_set {d : Dict α} (hd : Plain d) {k : Key} (hk : k ≠ "driver".toList) (v : Val α)
    (hv : ∀ s, v = .dict s → tensorstoreLeaf s = true ∨ Plain s) : Plain (d.set k v) := by
  have hc : ∀ r, Plain r → Plain (Dict.cons k v r) := by
    intro r h2
    cases v with
    | arr a => exact ⟨hk, h2⟩
    | dict s => exact ⟨hk, hv s rfl, h2⟩
  induction d with
  | nil => exact hc _ trivial
  | leaf k' a r ih =>
    unfold Dict.set
    split_ifs with h
    · exact hc _ hd.2
    · exact ⟨hd.1, ih hd.2⟩
  | sub k' d r _ ih =>
    unfold Dict.set
    split_ifs with h
    · exact hc _ hd.2.2
    · exact ⟨hd.1, hd.2.1, ih hd.2.2⟩

theorem ins_wf (p : List Key) : ∀ (d d' : Dict α) (v : Val α), ins d p v = some d' →
    (∀ k ∈ p, '/' ∉ k) → (∀ k ∈ p, k ≠ "driver".toList) → LeafLike tensorstoreLeaf v →
    Proper tensorstoreLeaf d → Plain d → Proper tensorstoreLeaf d' ∧ Plain d' := by
  induction p with
  | nil => intro d d' v h; cases h
  | cons k ks ih =>
    intro d d' v h h1 h2 h3 h4 h5
    match ks, ih with
    | [], _ =>
      simp only [ins, Option.some.injEq] at h
      subst h
      constructor
      · refine proper_set h4 (h1 k (by simp)) v ?_
        intro s hs; subst hs; exact Or.inl h3
      · refine plain_set h5 (h2 k (by simp)) v ?_
        intro s hs; subst hs; exact Or.inl h3
    | k2 :: ks, ih =>
      have hrec : ∀ s s', ins s (k2 :: ks) v = some s' → Proper tensorstoreLeaf s → Plain s →
          Proper tensorstoreLeaf s' ∧ Plain s' := fun s s' hs =>
        ih s s' v hs (fun x hx => h1 x (List.mem_cons_of_mem _ hx))
          (fun x hx => h2 x (List.mem_cons_of_mem _ hx)) h3
      simp only [ins] at h
      split at h
      · obtain ⟨s, hs, rfl⟩ := Option.map_eq_some_iff.1 h
        have := hrec _ _ hs trivial trivial
        constructor
        · refine proper_set h4 (h1 k (by simp)) _ ?_
          intro s' hs'; cases hs'; exact Or.inr this.1
        · refine plain_set h5 (h2 k (by simp)) _ ?_
          intro s' hs'; cases hs'; exact Or.inr this.2
      · rename_i s0 hg
        obtain ⟨s, hs, rfl⟩ := Option.map_eq_some_iff.1 h
        constructor
        · refine proper_set h4 (h1 k (by simp)) _ ?_
          intro s' hs'; cases hs'
          by_cases hts : tensorstoreLeaf s0 = true
          · exact Or.inl (ts_mono (ins_keys _ _ _ _ hs) hts)
          · rcases proper_get h4 hg with h' | h'
            · exact absurd h' hts
            · rcases (get_plain h5 hg).2 s0 rfl with h'' | h''
              · exact absurd h'' hts
              · exact Or.inr (hrec _ _ hs h' h'').1
        · refine plain_set h5 (h2 k (by simp)) _ ?_
          intro s' hs'; cases hs'
          by_cases hts : tensorstoreLeaf s0 = true
          · exact Or.inl (ts_mono (ins_keys _ _ _ _ hs) hts)
          · rcases proper_get h4 hg with h' | h'
            · exact absurd h' hts
            · rcases (get_plain h5 hg).2 s0 rfl with h'' | h''
              · exact absurd h'' hts
              · exact Or.inr (hrec _ _ hs h' h'').2
      · cases h

theorem unflattenPaths_wf (l : List (List Key × Val α)) : ∀ (d d' : Dict α),
    unflattenPaths d l = some d' →
    (∀ e ∈ l, ∀ k ∈ e.1, '/' ∉ k) → (∀ e ∈ l, ∀ k ∈ e.1, k ≠ "driver".toList) →
    (∀ e ∈ l, LeafLike tensorstoreLeaf e.2) → Proper tensorstoreLeaf d → Plain d →
    Proper tensorstoreLeaf d' ∧ Plain d' := by
  induction l with
  | nil => intro d d' h _ _ _ h1 h2; simp only [unflattenPaths, Option.some.injEq] at h; subst h; exact ⟨h1, h2⟩
  | cons e l ih =>
    obtain ⟨p, v⟩ := e
    intro d d' h h1 h2 h3 h4 h5
    simp only [unflattenPaths] at h
    obtain ⟨d1, g1, g2⟩ := Option.bind_eq_some_iff.1 h
    have := ins_wf p d d1 v g1 (h1 (p, v) (by simp)) (h2 (p, v) (by simp)) (h3 (p, v) (by simp)) h4 h5
    exact ih d1 d' g2 (fun e he => h1 e (by simp [he])) (fun e he => h2 e (by simp [he]))
      (fun e he => h3 e (by simp [he])) this.1 this.2

theorem unflatten_wf (l : List (Key × Val α)) (r : Dict α) (h : unflatten l = some r)
    (hn : ∀ e ∈ l, ∃ p, Named p ∧ e.1 = join p ∧ (∀ k ∈ p, k ≠ "driver".toList))
    (hv : ∀ e ∈ l, LeafLike tensorstoreLeaf e.2) : Proper tensorstoreLeaf r ∧ Plain r := by
  refine unflattenPaths_wf _ _ _ h ?_ ?_ ?_ trivial trivial
  · intro e he
    obtain ⟨x, hx, rfl⟩ := List.mem_map.1 he
    obtain ⟨p, hp, hj, _⟩ := hn x hx
    simp only
    rw [hj, split_join p hp.1 hp.2]; exact hp.2
  · intro e he
    obtain ⟨x, hx, rfl⟩ := List.mem_map.1 he
    obtain ⟨p, hp, hj, hd⟩ := hn x hx
    simp only
    rw [hj, split_join p hp.1 hp.2]; exact hd
  · intro e he
    obtain ⟨x, hx, rfl⟩ := List.mem_map.1 he
    exact hv x hx

end Verif.StateDict
