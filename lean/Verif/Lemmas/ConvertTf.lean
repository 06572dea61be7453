import Verif.Model.ConvertTf
import Verif.Props.SaveRestore
import Verif.Props.Importer
import Verif.Lemmas.StateDict
/-
Lemmas for C122.
-/
namespace Verif.ConvertTf
open Verif.StateDict Verif.StateDict.Spec Verif.SaveRestore

variable {A T α β : Type} [DecidableEq T]

/-- No dict is a leaf. -/
def nl : Dict α → Bool := fun _ => false

theorem paths_leaves (d : Dict α) (pre : List Key) :
    (paths nl false d).map (fun e => (pre ++ e.1, e.2)) = (leaves pre d).map fun e => (e.1, Val.arr e.2) := by
  induction d generalizing pre with
  | nil => rfl
  | leaf k a r ih => simp [paths, leaves, ih]
  | sub k d r ihd ih =>
    have := ihd (pre ++ [k])
    simp only [paths, leaves, nl, Bool.false_eq_true, if_false, Bool.false_and, List.map_append, List.map_map, ih] at this ⊢
    rw [← this]
    simp [Function.comp_def]

theorem proper_of_clean (d : Dict α) (h : SaveRestore.Spec.Clean d) : Proper nl d := by
  induction d with
  | nil => trivial
  | leaf k a r ih => exact ⟨h.1, h.2.2.1, ih h.2.2.2⟩
  | sub k d r ihd ih => exact ⟨h.1, h.2.2.1, Or.inr (ihd h.2.2.2.1), ih h.2.2.2.2⟩

theorem leafAt_arr (d : Dict α) (p : List Key) (v : Val α) (h : leafAt nl d p = some v) : ∃ a, v = .arr a := by
  have := leafAt_leafLike nl p d v h
  cases v with
  | arr a => exact ⟨a, rfl⟩
  | dict d => cases this

theorem mem_leaves (d : Dict α) (hd : SaveRestore.Spec.Clean d) (p : List Key) (a : α) : (p, a) ∈ leaves [] d ↔ leafAt nl d p = some (.arr a) := by
  rw [← mem_paths nl d (proper_of_clean d hd)]
  have := paths_leaves d []
  simp only [List.nil_append, Prod.mk.eta, List.map_id'] at this
  rw [this, List.mem_map]
  constructor
  · intro h; exact ⟨(p, a), h, rfl⟩
  · rintro ⟨⟨q, b⟩, h, he⟩
    simp only [Prod.mk.injEq, Val.arr.injEq] at he
    obtain ⟨rfl, rfl⟩ := he
    exact h

theorem get_of_leafAt_one (d : Dict α) (k : Key) (a : α) (h : leafAt nl d [k] = some (.arr a)) : d.get k = some (.arr a) := by
  unfold leafAt at h
  cases hg : d.get k with
  | none => rw [hg] at h; exact nomatch h
  | some v => cases v <;> rw [hg] at h <;> simp [nl] at h <;> simp [h]

theorem get_of_leafAt_more (d : Dict α) (k : Key) (q : List Key) (hq : q ≠ []) (v : Val α) (h : leafAt nl d (k :: q) = some v) :
    ∃ s, d.get k = some (.dict s) ∧ leafAt nl s q = some v := by
  cases q with
  | nil => exact absurd rfl hq
  | cons k2 ks =>
    unfold leafAt at h
    cases hg : d.get k with
    | none => rw [hg] at h; exact nomatch h
    | some w =>
      cases w with
      | arr a => rw [hg] at h; exact nomatch h
      | dict s => rw [hg] at h; exact ⟨s, rfl, by simpa [nl] using h⟩

theorem leafAt_more (d : Dict α) (k : Key) (q : List Key) (hq : q ≠ []) (s : Dict α) (h : d.get k = some (.dict s)) : leafAt nl d (k :: q) = leafAt nl s q := by
  cases q with
  | nil => exact absurd rfl hq
  | cons k2 ks => simp only [leafAt, h, nl, Bool.false_eq_true, if_false]

/-- A dict that is not empty has a leaf, if it has no empty dict inside. -/
theorem exists_leaf (d : Dict α) (hn : d ≠ .nil) (he : NoEmpty nl d) (hd : Distinct nl d) :
    ∀ k ∈ d.keys, ∃ q v, leafAt nl d (k :: q) = some v := by
  induction d with
  | nil => exact absurd rfl hn
  | leaf k a r ih =>
    intro k' hk'
    by_cases h : k = k'
    · subst h; exact ⟨[], .arr a, by simp [leafAt, Dict.get]⟩
    · have hk' : k' ∈ r.keys := by
        rcases List.mem_cons.mp hk' with h' | h'
        · exact absurd h'.symm h
        · exact h'
      have hr : r ≠ .nil := by rintro rfl; cases hk'
      obtain ⟨q, v, hv⟩ := ih hr he hd.2 k' hk'
      refine ⟨q, v, ?_⟩
      rw [← hv]
      cases q <;> simp only [leafAt, Dict.get, if_neg h]
  | sub k d r ihd ih =>
    intro k' hk'
    by_cases h : k = k'
    · subst h
      obtain ⟨he1, he2⟩ := he
      rcases he1 with he1 | ⟨he1, he3⟩
      · cases he1
      · have hdd : Distinct nl d := by
          rcases hd.2.1 with h | h
          · cases h
          · exact h
        cases hk : d.keys with
        | nil => cases d <;> simp [Dict.keys] at hk; exact absurd rfl he1
        | cons c l =>
          obtain ⟨q, v, hv⟩ := ihd he1 he3 hdd c (by rw [hk]; exact List.mem_cons_self)
          exact ⟨c :: q, v, by rw [leafAt_more _ k _ (by simp) d (by simp [Dict.get]), hv]⟩
    · have hk' : k' ∈ r.keys := by
        rcases List.mem_cons.mp hk' with h' | h'
        · exact absurd h'.symm h
        · exact h'
      have hr : r ≠ .nil := by rintro rfl; cases hk'
      obtain ⟨q, v, hv⟩ := ih hr he.2 hd.2.2 k' hk'
      refine ⟨q, v, ?_⟩
      rw [← hv]
      cases q <;> simp only [leafAt, Dict.get, if_neg h]

/-! ### `restoreDict` -/

theorem restoreDict_ok (s : Dict (Option A)) (he : NoEmpty nl s) (hd : Distinct nl s) (val : List Key → Option A) : ∀ (pre : List Key) (u : Dict (Option A)),
    (∀ k ∈ s.keys, ∀ q, (leafAt nl s (k :: q)).isSome = true → leafAt nl u (k :: q) = some (.arr (val (pre ++ k :: q)))) →
      restoreDict s u = some (mapL (fun p _ => val p) pre s) := by
  induction s with
  | nil => intro pre u _; rfl
  | leaf k a r ih =>
    intro pre u h
    have h1 := get_of_leafAt_one u k _ (h k List.mem_cons_self [] (by simp [leafAt, Dict.get]))
    have h2 := ih he hd.2 pre u (by
      intro k' hk' q hq
      refine h k' (List.mem_cons_of_mem _ hk') q ?_
      have hne : ¬ k = k' := by rintro rfl; exact hd.1 hk'
      rw [← hq]
      cases q <;> simp only [leafAt, Dict.get, if_neg hne])
    simp only [restoreDict, h1, h2, mapL]
  | sub k d r ihd ih =>
    intro pre u h
    have hdd : Distinct nl d := by
      rcases hd.2.1 with h | h
      · cases h
      · exact h
    obtain ⟨hdn, hde⟩ : d ≠ .nil ∧ NoEmpty nl d := by
      rcases he.1 with h | h
      · cases h
      · exact h
    have hgs : (Dict.sub k d r).get k = some (.dict d) := by simp [Dict.get]
    obtain ⟨c, hc⟩ : ∃ c, c ∈ d.keys := by cases d <;> simp [Dict.keys] at hdn ⊢ <;> exact ⟨_, Or.inl rfl⟩
    obtain ⟨q0, v0, hv0⟩ := exists_leaf d hdn hde hdd c hc
    have h0 := h k List.mem_cons_self (c :: q0) (by rw [leafAt_more _ k _ (by simp) d hgs, hv0]; rfl)
    obtain ⟨s', hs', _⟩ := get_of_leafAt_more u k (c :: q0) (by simp) _ h0
    have h1 := ihd hde hdd (pre ++ [k]) s' (by
      intro k' hk' q hq
      have := h k List.mem_cons_self (k' :: q) (by rw [leafAt_more _ k _ (by simp) d hgs]; exact hq)
      rw [leafAt_more u k _ (by simp) s' hs'] at this
      simpa using this)
    have h2 := ih he.2 hd.2.2 pre u (by
      intro k' hk' q hq
      refine h k' (List.mem_cons_of_mem _ hk') q ?_
      have hne : ¬ k = k' := by rintro rfl; exact hd.1 hk'
      rw [← hq]
      cases q <;> simp only [leafAt, Dict.get, if_neg hne])
    simp only [restoreDict, hs', h1, h2, mapL]

/-- What is restored was in the dict. -/
theorem restoreDict_has (s : Dict (Option A)) (hd : Distinct nl s) : ∀ (u d : Dict (Option A)), restoreDict s u = some d →
    ∀ p, (leafAt nl s p).isSome = true → (leafAt nl u p).isSome = true := by
  induction s with
  | nil =>
    intro u d _ p hp
    cases p with
    | nil => simp [leafAt] at hp
    | cons k q => cases q <;> simp [leafAt, Dict.get] at hp
  | leaf k a r ih =>
    intro u d h p hp
    cases p with
    | nil => simp [leafAt] at hp
    | cons k' q =>
      cases hu : u.get k with
      | none => simp [restoreDict, hu] at h
      | some v =>
        cases v with
        | dict x => simp [restoreDict, hu] at h
        | arr x =>
          cases hr : restoreDict r u with
          | none => simp [restoreDict, hu, hr] at h
          | some r' =>
            by_cases hk : k = k'
            · subst hk
              cases q with
              | nil => simp [leafAt, hu]
              | cons _ _ => simp [leafAt, Dict.get] at hp
            · refine ih hd.2 u r' hr (k' :: q) ?_
              rw [← hp]
              cases q <;> simp only [leafAt, Dict.get, if_neg hk]
  | sub k dd r ihd ih =>
    intro u d h p hp
    cases p with
    | nil => simp [leafAt] at hp
    | cons k' q =>
      cases hu : u.get k with
      | none => simp [restoreDict, hu] at h
      | some v =>
        cases v with
        | arr x => simp [restoreDict, hu] at h
        | dict x =>
          cases hx : restoreDict dd x with
          | none => simp [restoreDict, hu, hx] at h
          | some d' =>
            cases hr : restoreDict r u with
            | none => simp [restoreDict, hu, hx, hr] at h
            | some r' =>
              by_cases hk : k = k'
              · subst hk
                cases q with
                | nil => simp [leafAt, Dict.get, nl] at hp
                | cons c l =>
                  have hdd : Distinct nl dd := by
                    rcases hd.2.1 with h | h
                    · cases h
                    · exact h
                  rw [leafAt_more _ k _ (by simp) x hu]
                  rw [leafAt_more _ k _ (by simp) dd (by simp [Dict.get])] at hp
                  exact ihd hdd x d' hx _ hp
              · refine ih hd.2.2 u r' hr (k' :: q) ?_
                rw [← hp]
                cases q <;> simp only [leafAt, Dict.get, if_neg hk]

/-! ### `unflattenPaths` -/

theorem distinct_set (d : Dict α) (hd : Distinct nl d) (k : Key) (v : Val α) (hv : ∀ s, v = .dict s → Distinct nl s) : Distinct nl (d.set k v) := by
  have hc : ∀ r : Dict α, k ∉ r.keys → Distinct nl r → Distinct nl (Dict.cons k v r) := by
    intro r hk hr
    cases v with
    | arr a => exact ⟨hk, hr⟩
    | dict s => exact ⟨hk, Or.inr (hv s rfl), hr⟩
  induction d with
  | nil => exact hc _ (by simp [Dict.keys]) trivial
  | leaf k' a r ih =>
    unfold Dict.set
    split_ifs with h
    · subst h; exact hc _ hd.1 hd.2
    · refine ⟨?_, ih hd.2⟩
      rw [Dict.mem_keys_set]
      rintro (h' | h')
      · exact h h'
      · exact hd.1 h'
  | sub k' d r _ ih =>
    unfold Dict.set
    split_ifs with h
    · subst h; exact hc _ hd.1 hd.2.2
    · refine ⟨?_, hd.2.1, ih hd.2.2⟩
      rw [Dict.mem_keys_set]
      rintro (h' | h')
      · exact h h'
      · exact hd.1 h'

theorem noEmpty_set (d : Dict α) (hd : NoEmpty nl d) (k : Key) (v : Val α) (hv : ∀ s, v = .dict s → s ≠ .nil ∧ NoEmpty nl s) : NoEmpty nl (d.set k v) := by
  have hc : ∀ r : Dict α, NoEmpty nl r → NoEmpty nl (Dict.cons k v r) := by
    intro r hr
    cases v with
    | arr a => exact hr
    | dict s => exact ⟨Or.inr (hv s rfl), hr⟩
  induction d with
  | nil => exact hc _ trivial
  | leaf k' a r ih =>
    unfold Dict.set
    split_ifs with h
    · exact hc _ hd
    · exact ih hd
  | sub k' d r _ ih =>
    unfold Dict.set
    split_ifs with h
    · exact hc _ hd.2
    · exact ⟨hd.1, ih hd.2⟩

theorem set_ne_nil (d : Dict α) (k : Key) (v : Val α) : d.set k v ≠ .nil := by
  intro h
  have := (Dict.mem_keys_set d k k v).mpr (Or.inl rfl)
  rw [h] at this
  cases this

theorem get_parts (d : Dict α) (k : Key) (s : Dict α) (h : d.get k = some (.dict s)) :
    (Distinct nl d → Distinct nl s) ∧ (NoEmpty nl d → s ≠ .nil ∧ NoEmpty nl s) := by
  induction d with
  | nil => cases h
  | leaf k' a r ih =>
    simp only [Dict.get] at h
    split_ifs at h
    · cases h
    · exact ⟨fun hd => (ih h).1 hd.2, fun he => (ih h).2 he⟩
  | sub k' d r _ ih =>
    simp only [Dict.get] at h
    split_ifs at h
    · cases h
      refine ⟨fun hd => ?_, fun he => ?_⟩
      · rcases hd.2.1 with h | h
        · cases h
        · exact h
      · rcases he.1 with h | h
        · cases h
        · exact h
    · exact ⟨fun hd => (ih h).1 hd.2.2, fun he => (ih h).2 he.2⟩

theorem ins_good (p : List Key) : ∀ (d d' : Dict α) (a : α), Distinct nl d → NoEmpty nl d → ins d p (.arr a) = some d' →
    Distinct nl d' ∧ NoEmpty nl d' ∧ d' ≠ .nil := by
  induction p with
  | nil => intro d d' a _ _ h; simp [ins] at h
  | cons k q ih =>
    intro d d' a hd he h
    cases q with
    | nil =>
      simp only [ins, Option.some.injEq] at h
      subst h
      exact ⟨distinct_set d hd k _ (fun _ h => nomatch h), noEmpty_set d he k _ (fun _ h => nomatch h), set_ne_nil _ _ _⟩
    | cons k2 ks =>
      have key : ∀ s0 : Dict α, Distinct nl s0 → NoEmpty nl s0 → (ins s0 (k2 :: ks) (.arr a)).map (fun s => d.set k (.dict s)) = some d' →
          Distinct nl d' ∧ NoEmpty nl d' ∧ d' ≠ .nil := by
        intro s0 h1 h2 h3
        cases hs : ins s0 (k2 :: ks) (.arr a) with
        | none => rw [hs] at h3; exact nomatch h3
        | some s =>
          rw [hs] at h3
          simp only [Option.map_some, Option.some.injEq] at h3
          subst h3
          obtain ⟨g1, g2, g3⟩ := ih s0 s a h1 h2 hs
          refine ⟨distinct_set d hd k _ ?_, noEmpty_set d he k _ ?_, set_ne_nil _ _ _⟩
          · intro s' hs'; injection hs' with hs'; subst hs'; exact g1
          · intro s' hs'; injection hs' with hs'; subst hs'; exact ⟨g3, g2⟩
      cases hg : d.get k with
      | none =>
        simp only [ins, hg] at h
        exact key .nil trivial trivial h
      | some v =>
        cases v with
        | arr x => simp [ins, hg] at h
        | dict s =>
          simp only [ins, hg] at h
          obtain ⟨g1, g2⟩ := get_parts d k s hg
          exact key s (g1 hd) (g2 he).2 h

theorem unflatten_good (l : List (List Key × α)) : ∀ (d d' : Dict α), Distinct nl d → NoEmpty nl d →
    unflattenPaths d (l.map fun e => (e.1, Val.arr e.2)) = some d' → Distinct nl d' ∧ NoEmpty nl d' := by
  induction l with
  | nil =>
    intro d d' hd he h
    simp only [List.map_nil, unflattenPaths, Option.some.injEq] at h
    subst h
    exact ⟨hd, he⟩
  | cons e l ih =>
    intro d d' hd he h
    cases hi : ins d e.1 (.arr e.2) with
    | none => simp [unflattenPaths, hi] at h
    | some d1 =>
      obtain ⟨g1, g2, _⟩ := ins_good e.1 d d1 e.2 hd he hi
      refine ih d1 d' g1 g2 ?_
      simpa [unflattenPaths, hi] using h

/-! ### `zipT` with the identity -/

theorem leafAt_tail_leaf (k : Key) (a : α) (r : Dict α) (k' : Key) (q : List Key) (h : ¬ k = k') : leafAt nl (.leaf k a r) (k' :: q) = leafAt nl r (k' :: q) := by
  cases q <;> simp only [leafAt, Dict.get, if_neg h]

theorem leafAt_tail_sub (k : Key) (d r : Dict α) (k' : Key) (q : List Key) (h : ¬ k = k') : leafAt nl (.sub k d r) (k' :: q) = leafAt nl r (k' :: q) := by
  cases q <;> simp only [leafAt, Dict.get, if_neg h]

theorem mem_keys_of_leafAt (d : Dict α) (k : Key) (q : List Key) (h : (leafAt nl d (k :: q)).isSome = true) : k ∈ d.keys := by
  by_contra hc
  have hg := (Dict.get_eq_none_iff d k).mpr hc
  cases q <;> simp [leafAt, hg] at h

/-- `tree_map` of the identity over two trees with the same leaves. -/
theorem zipT_id (u : Dict (Option A)) (hu : Distinct nl u) (hue : NoEmpty nl u) (hsome : ∀ p v, leafAt nl u p = some v → ∃ a, v = .arr (some a)) :
    ∀ (pre : List Key) (t : Dict (Option β)), Distinct nl t → NoEmpty nl t →
    (∀ k ∈ u.keys, ∀ q, (leafAt nl u (k :: q)).isSome = (leafAt nl t (k :: q)).isSome) →
      zipT (fun _ a (_ : Option β) => .ok a) pre u t = .ok u := by
  induction u with
  | nil => intro pre t _ _ _; rfl
  | leaf k x r ih =>
    intro pre t ht hte h
    obtain ⟨a, ha⟩ := hsome [k] (.arr x) (by simp [leafAt, Dict.get])
    injection ha with ha
    subst ha
    have h1 : (leafAt nl t [k]).isSome = true := by rw [← h k List.mem_cons_self []]; simp [leafAt, Dict.get]
    obtain ⟨v, hv⟩ := Option.isSome_iff_exists.mp h1
    obtain ⟨b, rfl⟩ := leafAt_arr t [k] v hv
    have hg := get_of_leafAt_one t k b hv
    have h2 := ih hu.2 hue (fun p v hp => by
      cases p with
      | nil => simp [leafAt] at hp
      | cons k' q =>
        have hne : ¬ k = k' := by
          rintro rfl
          exact hu.1 (mem_keys_of_leafAt r k q (by rw [hp]; rfl))
        exact hsome (k' :: q) v (by rw [leafAt_tail_leaf k _ r k' q hne, hp])) pre t ht hte (by
      intro k' hk' q
      have hne : ¬ k = k' := by rintro rfl; exact hu.1 hk'
      rw [← h k' (List.mem_cons_of_mem _ hk') q, leafAt_tail_leaf k _ r k' q hne])
    simp only [zipT, hg, h2]
  | sub k d r ihd ih =>
    intro pre t ht hte h
    have hgs : (Dict.sub k d r).get k = some (.dict d) := by simp [Dict.get]
    have hdd := (get_parts (Dict.sub k d r) k d hgs).1 hu
    obtain ⟨hdn, hde⟩ := (get_parts (Dict.sub k d r) k d hgs).2 hue
    obtain ⟨c, hc⟩ : ∃ c, c ∈ d.keys := by cases d <;> simp [Dict.keys] at hdn ⊢ <;> exact ⟨_, Or.inl rfl⟩
    obtain ⟨q0, v0, hv0⟩ := exists_leaf d hdn hde hdd c hc
    have h0 : (leafAt nl t (k :: c :: q0)).isSome = true := by
      rw [← h k List.mem_cons_self, leafAt_more _ k _ (by simp) d hgs, hv0]; rfl
    obtain ⟨v, hv⟩ := Option.isSome_iff_exists.mp h0
    obtain ⟨d', hd', _⟩ := get_of_leafAt_more t k (c :: q0) (by simp) v hv
    have hsub : ∀ q, q ≠ [] → (leafAt nl d q).isSome = (leafAt nl d' q).isSome := by
      intro q hq
      have := h k List.mem_cons_self q
      rwa [leafAt_more _ k q hq d hgs, leafAt_more t k q hq d' hd'] at this
    have hd't := (get_parts t k d' hd').1 ht
    have hd'e := (get_parts t k d' hd').2 hte
    have hkeys : d'.keys.all d.keys.contains = true := by
      rw [List.all_eq_true]
      intro c' hc'
      obtain ⟨q1, v1, hv1⟩ := exists_leaf d' hd'e.1 hd'e.2 hd't c' hc'
      have : c' ∈ d.keys := mem_keys_of_leafAt d c' q1 (by rw [hsub _ (by simp), hv1]; rfl)
      simpa using this
    have h1 := ihd hdd hde (fun p v hp => by
      cases p with
      | nil => simp [leafAt] at hp
      | cons k' q => exact hsome (k :: k' :: q) v (by rw [leafAt_more _ k _ (by simp) d hgs, hp])) (pre ++ [k]) d' hd't hd'e.2
      (fun k' _ q => hsub (k' :: q) (by simp))
    have h2 := ih hu.2.2 hue.2 (fun p v hp => by
      cases p with
      | nil => simp [leafAt] at hp
      | cons k' q =>
        have hne : ¬ k = k' := by
          rintro rfl
          exact hu.1 (mem_keys_of_leafAt r k q (by rw [hp]; rfl))
        exact hsome (k' :: q) v (by rw [leafAt_tail_sub k _ r k' q hne, hp])) pre t ht hte (by
      intro k' hk' q
      have hne : ¬ k = k' := by rintro rfl; exact hu.1 hk'
      rw [← h k' (List.mem_cons_of_mem _ hk') q, leafAt_tail_sub k _ r k' q hne])
    simp only [zipT, hd', hkeys, if_true, h1, h2]

/-- `tree_map` of the identity changes nothing. -/
theorem zipT_id_eq (u : Dict (Option A)) : ∀ (pre : List Key) (t : Dict (Option β)) (v : Dict (Option A)),
    zipT (fun _ a (_ : Option β) => .ok a) pre u t = .ok v → v = u := by
  induction u with
  | nil => intro pre t v h; simp only [zipT] at h; cases h; rfl
  | leaf k x r ih =>
    intro pre t v h
    cases x with
    | none =>
      cases hg : t.get k with
      | none => simp [zipT, hg] at h
      | some w =>
        cases w with
        | dict _ => simp [zipT, hg] at h
        | arr b =>
          cases b with
          | some _ => simp [zipT, hg] at h
          | none =>
            cases hr : zipT (fun _ a (_ : Option β) => .ok a) pre r t with
            | error e => simp [zipT, hg, hr] at h
            | ok r' => simp only [zipT, hg, hr] at h; cases h; rw [ih _ _ _ hr]
    | some a =>
      cases hg : t.get k with
      | none => simp [zipT, hg] at h
      | some w =>
        cases w with
        | dict _ => simp [zipT, hg] at h
        | arr b =>
          cases hr : zipT (fun _ a (_ : Option β) => .ok a) pre r t with
          | error e => simp [zipT, hg, hr] at h
          | ok r' => simp only [zipT, hg, hr] at h; cases h; rw [ih _ _ _ hr]
  | sub k d r ihd ih =>
    intro pre t v h
    cases hg : t.get k with
    | none => simp [zipT, hg] at h
    | some w =>
      cases w with
      | arr _ => simp [zipT, hg] at h
      | dict d' =>
        simp only [zipT, hg] at h
        split_ifs at h
        cases hd : zipT (fun _ a (_ : Option β) => .ok a) (pre ++ [k]) d d' with
        | error e => simp [hd] at h
        | ok x =>
          cases hr : zipT (fun _ a (_ : Option β) => .ok a) pre r t with
          | error e => simp [hd, hr] at h
          | ok r' => simp only [hd, hr] at h; cases h; rw [ih _ _ _ hr, ihd _ _ _ hd]

/-! ### `mapL` and leaves -/

theorem leafAt_mapL (g : List Key → α → β) (d : Dict α) : ∀ (pre p : List Key), leafAt nl (mapL g pre d) p =
    match leafAt nl d p with
    | some (.arr a) => some (.arr (g (pre ++ p) a))
    | _ => none := by
  induction d with
  | nil =>
    intro pre p
    cases p with
    | nil => rfl
    | cons k q => cases q <;> rfl
  | leaf k a r ih =>
    intro pre p
    cases p with
    | nil => rfl
    | cons k' q =>
      by_cases h : k = k'
      · subst h
        cases q <;> simp [mapL, leafAt, Dict.get]
      · rw [mapL, leafAt_tail_leaf _ _ _ _ _ h, leafAt_tail_leaf _ _ _ _ _ h, ih]
  | sub k d r ihd ih =>
    intro pre p
    cases p with
    | nil => rfl
    | cons k' q =>
      by_cases h : k = k'
      · subst h
        cases q with
        | nil => simp [mapL, leafAt, Dict.get, nl]
        | cons c l =>
          rw [mapL, leafAt_more _ k _ (by simp) (mapL g (pre ++ [k]) d) (by simp [Dict.get]), leafAt_more (.sub k d r) k _ (by simp) d (by simp [Dict.get]), ihd]
          simp
      · rw [mapL, leafAt_tail_sub _ _ _ _ _ h, leafAt_tail_sub _ _ _ _ _ h, ih]

theorem distinct_mapL (g : List Key → α → β) (d : Dict α) (pre : List Key) : Distinct nl d → Distinct nl (mapL g pre d) := by
  induction d generalizing pre with
  | nil => exact fun _ => trivial
  | leaf k a r ih => exact fun h => ⟨by rw [keys_mapL]; exact h.1, ih pre h.2⟩
  | sub k d r ihd ih =>
    intro h
    refine ⟨by rw [keys_mapL]; exact h.1, Or.inr (ihd _ ?_), ih pre h.2.2⟩
    rcases h.2.1 with h | h
    · cases h
    · exact h

theorem noEmpty_mapL (g : List Key → α → β) (d : Dict α) (pre : List Key) : NoEmpty nl d → NoEmpty nl (mapL g pre d) := by
  induction d generalizing pre with
  | nil => exact fun _ => trivial
  | leaf k a r ih => exact fun h => ih pre h
  | sub k d r ihd ih =>
    intro h
    rcases h.1 with h1 | ⟨h1, h2⟩
    · cases h1
    · refine ⟨Or.inr ⟨?_, ihd _ h2⟩, ih pre h.2⟩
      cases d with
      | nil => exact absurd rfl h1
      | leaf => simp [mapL]
      | sub => simp [mapL]

theorem distinct_of_clean (d : Dict α) (h : SaveRestore.Spec.Clean d) : Distinct nl d := by
  induction d with
  | nil => trivial
  | leaf k a r ih => exact ⟨h.2.2.1, ih h.2.2.2⟩
  | sub k d r ihd ih => exact ⟨h.2.2.1, Or.inr (ihd h.2.2.2.1), ih h.2.2.2.2⟩

/-! ### Shapes of the template -/

theorem mem_flatShapes (O : Ops A T) (d : Dict (Option A)) (pre p : List Key) (sh : List Nat) :
    (p, sh) ∈ flatShapes O pre d ↔ ∃ a, (p, some a) ∈ leaves pre d ∧ O.shape a = sh := by
  induction d generalizing pre with
  | nil => simp [flatShapes, leaves]
  | leaf k x r ih =>
    cases x with
    | none => simp [flatShapes, leaves, ih]
    | some a =>
      simp only [flatShapes, leaves, List.mem_cons, ih, Prod.mk.injEq, Option.some.injEq]
      constructor
      · rintro (⟨h1, h2⟩ | ⟨b, h1, h2⟩)
        · exact ⟨a, Or.inl ⟨h1, rfl⟩, h2.symm⟩
        · exact ⟨b, Or.inr h1, h2⟩
      · rintro ⟨b, ⟨h1, h2⟩ | h1, h3⟩
        · exact Or.inl ⟨h1, by rw [← h3, h2]⟩
        · exact Or.inr ⟨b, h1, h3⟩
  | sub k d r ihd ih =>
    simp only [flatShapes, leaves, List.mem_append, ihd, ih]
    constructor
    · rintro (⟨a, h1, h2⟩ | ⟨a, h1, h2⟩)
      · exact ⟨a, Or.inl h1, h2⟩
      · exact ⟨a, Or.inr h1, h2⟩
    · rintro ⟨a, h1 | h1, h2⟩
      · exact Or.inl ⟨a, h1, h2⟩
      · exact Or.inr ⟨a, h1, h2⟩

end Verif.ConvertTf
