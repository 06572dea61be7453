import Verif.Model.Orbax
import Verif.Lemmas.Fallback
/- Helper lemmas about the tree functions used with Orbax. -/
namespace Verif.Orbax
open Verif.StateDict Verif.StateDict.Spec Verif.SaveRestore
open Verif.OptaxState.Spec (arrayAt)
open Verif.Fallback Verif.Fallback.Spec
open Verif.TsPath (Str)

variable {A T α β γ : Type} [DecidableEq T]

theorem zip_keys (st e : Bool) (f : α → β → γ) (s : Dict α) (t : Dict β) (r : Dict γ) (h : zip st e f s t = some r) : r.keys = s.keys := by
  induction s generalizing r with
  | nil => cases h; rfl
  | leaf k a q ih =>
    simp only [zip] at h
    split at h
    · rename_i b q' h1 h2
      cases h
      simp only [Dict.keys, ih _ h2]
    · cases h
  | sub k d q _ ih =>
    simp only [zip] at h
    split at h
    · rename_i d' q' h1 h2
      split_ifs at h
      split at h
      · cases h
        simp only [Dict.keys, ih _ h2]
      · cases h
    · rename_i b q' h1 h2
      split_ifs at h
      cases h
      simp only [Dict.keys, ih _ h2]
    · cases h

theorem zip_at (st e : Bool) (f : α → β → γ) (s : Dict α) : ∀ (t : Dict β) (r : Dict γ), zip st e f s t = some r → Ordinary s →
    Ordinary r ∧ ∀ p, (∀ a, arrayAt s p = some a → ∃ b, arrayAt t p = some b ∧ arrayAt r p = some (f a b)) ∧
      (arrayAt s p = none → arrayAt r p = none) := by
  induction s with
  | nil =>
    intro t r h hs
    cases h
    refine ⟨trivial, fun p => ?_⟩
    cases p with
    | nil => rw [arrayAt_nil, arrayAt_nil]; exact ⟨fun a ha => (by cases ha), fun _ => rfl⟩
    | cons k ks =>
      simp only [arrayAt_cons, Dict.get, sel_none]
      exact ⟨fun a ha => (by cases ha), fun _ => trivial⟩
  | leaf k a q ih =>
    intro t r h hs
    simp only [zip] at h
    split at h
    · rename_i b q' h1 h2
      cases h
      obtain ⟨i1, i2⟩ := ih t q' h2 hs.2.2.2
      refine ⟨⟨hs.1, hs.2.1, by rw [zip_keys _ _ _ _ _ _ h2]; exact hs.2.2.1, i1⟩, fun p => ?_⟩
      cases p with
      | nil => rw [arrayAt_nil, arrayAt_nil]; exact ⟨fun a ha => (by cases ha), fun _ => rfl⟩
      | cons k' ks =>
        rw [arrayAt_leaf, arrayAt_leaf]
        by_cases hk : k = k'
        · subst hk
          rw [if_pos rfl, if_pos rfl, arrayAt_cons, h1, sel_arr]
          split_ifs
          · exact ⟨fun x hx => ⟨b, rfl, by cases hx; rfl⟩, fun h => by cases h⟩
          · exact ⟨fun x hx => (by cases hx), fun _ => rfl⟩
        · rw [if_neg hk, if_neg hk]
          exact i2 (k' :: ks)
    · cases h
  | sub k d q ihd ih =>
    intro t r h hs
    simp only [zip] at h
    split at h
    · rename_i d' q' h1 h2
      split_ifs at h
      split at h
      · rename_i x hx
        cases h
        obtain ⟨i1, i2⟩ := ih t q' h2 hs.2.2.2.2
        obtain ⟨j1, j2⟩ := ihd d' x hx hs.2.2.2.1
        refine ⟨⟨hs.1, hs.2.1, by rw [zip_keys _ _ _ _ _ _ h2]; exact hs.2.2.1, j1, i1⟩, fun p => ?_⟩
        cases p with
        | nil => rw [arrayAt_nil, arrayAt_nil]; exact ⟨fun a ha => (by cases ha), fun _ => rfl⟩
        | cons k' ks =>
          rw [arrayAt_sub, arrayAt_sub]
          by_cases hk : k = k'
          · subst hk
            rw [if_pos rfl, if_pos rfl, arrayAt_cons, h1, sel_dict]
            exact j2 ks
          · rw [if_neg hk, if_neg hk]
            exact i2 (k' :: ks)
      · cases h
    · rename_i b q' h1 h2
      split_ifs at h with he
      cases h
      obtain ⟨i1, i2⟩ := ih t q' h2 hs.2.2.2.2
      have hd : d = .nil := by
        have : d.keys.isEmpty = true := (Bool.and_eq_true_iff.1 he).2
        cases d with
        | nil => rfl
        | leaf => simp [Dict.keys] at this
        | sub => simp [Dict.keys] at this
      subst hd
      refine ⟨⟨hs.1, hs.2.1, by rw [zip_keys _ _ _ _ _ _ h2]; exact hs.2.2.1, trivial, i1⟩, fun p => ?_⟩
      cases p with
      | nil => rw [arrayAt_nil, arrayAt_nil]; exact ⟨fun a ha => (by cases ha), fun _ => rfl⟩
      | cons k' ks =>
        rw [arrayAt_sub, arrayAt_sub]
        by_cases hk : k = k'
        · subst hk
          rw [if_pos rfl, if_pos rfl]
          cases ks with
          | nil => rw [arrayAt_nil, arrayAt_nil]; exact ⟨fun a ha => (by cases ha), fun _ => rfl⟩
          | cons k2 ks =>
            simp only [arrayAt_cons, Dict.get, sel_none]
            exact ⟨fun a ha => (by cases ha), fun _ => trivial⟩
        · rw [if_neg hk, if_neg hk]
          exact i2 (k' :: ks)
    · cases h

/-- A strict map leaves no entry of the second tree out. -/
theorem zip_strict (f : α → β → γ) (s : Dict α) : ∀ (t : Dict β) (r : Dict γ), zip true false f s t = some r → Ordinary s →
    ∀ k ∈ s.keys, ∀ ks, (arrayAt t (k :: ks)).isSome → (arrayAt s (k :: ks)).isSome := by
  induction s with
  | nil => intro t r h hs k hk; cases hk
  | leaf k a q ih =>
    intro t r h hs k' hk' ks hp
    simp only [zip] at h
    split at h
    · rename_i b q' h1 h2
      rw [arrayAt_leaf]
      by_cases hk : k = k'
      · subst hk
        rw [arrayAt_cons, h1, sel_arr] at hp
        rw [if_pos rfl]
        split_ifs at hp ⊢
        · rfl
        · cases hp
      · rw [if_neg hk]
        refine ih t q' h2 hs.2.2.2 k' ?_ ks hp
        rcases List.mem_cons.1 hk' with h' | h'
        · exact absurd h'.symm hk
        · exact h'
    · cases h
  | sub k d q ihd ih =>
    intro t r h hs k' hk' ks hp
    simp only [zip] at h
    split at h
    · rename_i d' q' h1 h2
      split_ifs at h with hall
      split at h
      · rename_i x hx
        rw [arrayAt_sub]
        by_cases hk : k = k'
        · subst hk
          rw [arrayAt_cons, h1, sel_dict] at hp
          rw [if_pos rfl]
          cases ks with
          | nil => rw [arrayAt_nil] at hp; cases hp
          | cons k2 ks =>
            refine ihd d' x hx hs.2.2.2.1 k2 ?_ ks hp
            have := arrayAt_head d' k2 ks hp
            simp only [Bool.not_true, Bool.false_or, List.all_eq_true] at hall
            simpa using hall k2 this
        · rw [if_neg hk]
          refine ih t q' h2 hs.2.2.2.2 k' ?_ ks hp
          rcases List.mem_cons.1 hk' with h' | h'
          · exact absurd h'.symm hk
          · exact h'
      · cases h
    · rename_i b q' h1 h2
      split_ifs at h with he
      simp at he
    · cases h

theorem treeMap_strict (f : α → β → γ) (s : Dict α) (t : Dict β) (r : Dict γ) (h : treeMap true false f s t = some r) (hs : Ordinary s)
    (p : List Key) (hp : (arrayAt t p).isSome) : (arrayAt s p).isSome := by
  unfold treeMap at h
  split_ifs at h with hall
  cases p with
  | nil => rw [arrayAt_nil] at hp; cases hp
  | cons k ks =>
    refine zip_strict f s t r h hs k ?_ ks hp
    simp only [Bool.not_true, Bool.false_or, List.all_eq_true] at hall
    simpa using hall k (arrayAt_head t k ks hp)

theorem treeMap_at (st e : Bool) (f : α → β → γ) (s : Dict α) (t : Dict β) (r : Dict γ) (h : treeMap st e f s t = some r) (hs : Ordinary s) :
    Ordinary r ∧ ∀ p, (∀ a, arrayAt s p = some a → ∃ b, arrayAt t p = some b ∧ arrayAt r p = some (f a b)) ∧
      (arrayAt s p = none → arrayAt r p = none) := by
  unfold treeMap at h
  split_ifs at h
  exact zip_at st e f s t r h hs

theorem full_key {d : Dict α} (h : Full d) (k : Key) (hk : k ∈ d.keys) : ∃ ks, (arrayAt d (k :: ks)).isSome := by
  induction d with
  | nil => cases hk
  | leaf k' a r ih =>
    by_cases he : k' = k
    · exact ⟨[], by rw [arrayAt_leaf, if_pos he, if_pos rfl]; rfl⟩
    · obtain ⟨ks, h1⟩ := ih h ((List.mem_cons.1 hk).resolve_left (Ne.symm he))
      exact ⟨ks, by rw [arrayAt_leaf, if_neg he]; exact h1⟩
  | sub k' d r _ ih =>
    by_cases he : k' = k
    · obtain ⟨p, hp⟩ := full_leaf h.2.1 h.1
      exact ⟨p, by rw [arrayAt_sub, if_pos he]; exact hp⟩
    · obtain ⟨ks, h1⟩ := ih h.2.2 ((List.mem_cons.1 hk).resolve_left (Ne.symm he))
      exact ⟨ks, by rw [arrayAt_sub, if_neg he]; exact h1⟩

/-- A map succeeds if the second tree has all the entries (and no other, if strict). -/
theorem zip_ok (st e : Bool) (f : α → β → γ) (s : Dict α) : ∀ (t : Dict β), Ordinary s → Full s → (st = true → Full t) →
    (∀ k ∈ s.keys, ∀ ks, (arrayAt s (k :: ks)).isSome → (arrayAt t (k :: ks)).isSome) →
    (st = true → ∀ k ∈ s.keys, ∀ ks, (arrayAt t (k :: ks)).isSome → (arrayAt s (k :: ks)).isSome) → ∃ r, zip st e f s t = some r := by
  induction s with
  | nil => intro t _ _ _ _ _; exact ⟨_, rfl⟩
  | leaf k a q ih =>
    intro t hs hf hft h1 h2
    have hne : ∀ k' ∈ q.keys, k ≠ k' := fun k' hk' he => hs.2.2.1 (he ▸ hk')
    obtain ⟨q', hq⟩ := ih t hs.2.2.2 hf hft
      (fun k' hk' ks hp => h1 k' (List.mem_cons_of_mem _ hk') ks (by rw [arrayAt_leaf, if_neg (hne k' hk')]; exact hp))
      (fun hst k' hk' ks hp => by
        have := h2 hst k' (List.mem_cons_of_mem _ hk') ks hp
        rw [arrayAt_leaf, if_neg (hne k' hk')] at this
        exact this)
    have hk := h1 k (List.mem_cons_self ..) [] (by rw [arrayAt_leaf, if_pos rfl, if_pos rfl]; rfl)
    rw [arrayAt_cons] at hk
    cases hg : t.get k with
    | none => rw [hg] at hk; cases hk
    | some v =>
      cases v with
      | dict d => rw [hg] at hk; cases hk
      | arr b => exact ⟨.leaf k (f a b) q', by simp only [zip, hg, hq]⟩
  | sub k d q ihd ih =>
    intro t hs hf hft h1 h2
    have hne : ∀ k' ∈ q.keys, k ≠ k' := fun k' hk' he => hs.2.2.1 (he ▸ hk')
    obtain ⟨q', hq⟩ := ih t hs.2.2.2.2 hf.2.2 hft
      (fun k' hk' ks hp => h1 k' (List.mem_cons_of_mem _ hk') ks (by rw [arrayAt_sub, if_neg (hne k' hk')]; exact hp))
      (fun hst k' hk' ks hp => by
        have := h2 hst k' (List.mem_cons_of_mem _ hk') ks hp
        rw [arrayAt_sub, if_neg (hne k' hk')] at this
        exact this)
    have hdown : ∀ ks, (arrayAt d ks).isSome → (sel (t.get k) ks).isSome := by
      intro ks hp
      have := h1 k (List.mem_cons_self ..) ks (by rw [arrayAt_sub, if_pos rfl]; exact hp)
      rw [arrayAt_cons] at this
      exact this
    obtain ⟨p, hp⟩ := full_leaf hf.2.1 hf.1
    have hpn : p ≠ [] := by rintro rfl; rw [arrayAt_nil] at hp; cases hp
    cases hg : t.get k with
    | none => have := hdown p hp; rw [hg, sel_none] at this; cases this
    | some v =>
      cases v with
      | arr b => have := hdown p hp; rw [hg, sel_arr, if_neg hpn] at this; cases this
      | dict d' =>
        rw [hg] at hdown
        simp only [sel_dict] at hdown
        have hup : st = true → ∀ ks, (arrayAt d' ks).isSome → (arrayAt d ks).isSome := by
          intro hst ks hp
          have := h2 hst k (List.mem_cons_self ..) ks (by rw [arrayAt_cons, hg, sel_dict]; exact hp)
          rw [arrayAt_sub, if_pos rfl] at this
          exact this
        obtain ⟨x, hx⟩ := ihd d' hs.2.2.2.1 hf.2.1 (fun hst => full_get (hft hst) hg) (fun k' _ ks hp => hdown _ hp)
          (fun hst k' _ ks hp => hup hst _ hp)
        have hall : (!st || d'.keys.all d.keys.contains) = true := by
          cases st with
          | false => rfl
          | true =>
            simp only [Bool.not_true, Bool.false_or, List.all_eq_true]
            intro k' hk'
            obtain ⟨ks, hks⟩ := full_key (full_get (hft rfl) hg) k' hk'
            simpa using arrayAt_head d k' ks (hup rfl _ hks)
        exact ⟨.sub k x q', by simp only [zip, hg, hq, hall, if_true, hx]⟩

theorem treeMap_ok (st e : Bool) (f : α → β → γ) (s : Dict α) (t : Dict β) (hs : Ordinary s) (hf : Full s) (hft : st = true → Full t)
    (h1 : ∀ p, (arrayAt s p).isSome → (arrayAt t p).isSome) (h2 : st = true → ∀ p, (arrayAt t p).isSome → (arrayAt s p).isSome) :
    ∃ r, treeMap st e f s t = some r := by
  obtain ⟨r, hr⟩ := zip_ok st e f s t hs hf hft (fun k _ ks => h1 (k :: ks)) (fun hst k _ ks => h2 hst (k :: ks))
  refine ⟨r, ?_⟩
  unfold treeMap
  rw [if_pos, hr]
  cases st with
  | false => rfl
  | true =>
    simp only [Bool.not_true, Bool.false_or, List.all_eq_true]
    intro k' hk'
    obtain ⟨ks, hks⟩ := full_key (hft rfl) k' hk'
    simpa using arrayAt_head s k' ks (h2 rfl _ hks)

/-! ### Infos -/

def infoOf (axes : List Key → Bool) (p : List Key) (x : Option A) : OInfo := ⟨TsPath.join p, x.isSome && axes p⟩

theorem isEmpty_nil (d : Dict α) : d.keys.isEmpty = true ↔ d = .nil := by
  cases d <;> simp [Dict.keys]

theorem paramInfos_full (axes : List Key → Bool) (s : Dict (Option A)) : ∀ pre, Full s → paramInfos axes pre s = mapL (infoOf axes) pre s := by
  induction s with
  | nil => intro pre _; rfl
  | leaf k a r ih => intro pre h; simp only [paramInfos, mapL, ih pre h, infoOf]
  | sub k d r ihd ih =>
    intro pre h
    have : ¬ d.keys.isEmpty = true := by rw [isEmpty_nil]; exact h.1
    simp only [paramInfos, mapL, this, if_false, ih pre h.2.2, ihd _ h.2.1, Bool.false_eq_true]

theorem paramInfos_keys (axes : List Key → Bool) (s : Dict (Option A)) (pre : List Key) : (paramInfos axes pre s).keys = s.keys := by
  induction s with
  | nil => rfl
  | leaf k a r ih => simp only [paramInfos, Dict.keys, ih]
  | sub k d r _ ih =>
    simp only [paramInfos]
    split_ifs <;> simp only [Dict.keys, ih]

theorem paramInfos_some (axes : List Key → Bool) (s : Dict (Option A)) : ∀ (pre p : List Key) (x : Option A), arrayAt s p = some x →
    arrayAt (paramInfos axes pre s) p = some (infoOf axes (pre ++ p) x) := by
  induction s with
  | nil =>
    intro pre p x h
    cases p with
    | nil => rw [arrayAt_nil] at h; cases h
    | cons k ks => rw [arrayAt_cons, Dict.get, sel_none] at h; cases h
  | leaf k a r ih =>
    intro pre p x h
    cases p with
    | nil => rw [arrayAt_nil] at h; cases h
    | cons k' ks =>
      rw [arrayAt_leaf] at h
      rw [paramInfos, arrayAt_leaf]
      by_cases hk : k = k'
      · subst hk
        rw [if_pos rfl] at h ⊢
        split_ifs at h ⊢ with hks
        subst hks
        cases h
        rfl
      · rw [if_neg hk] at h ⊢
        exact ih pre _ x h
  | sub k d r ihd ih =>
    intro pre p x h
    cases p with
    | nil => rw [arrayAt_nil] at h; cases h
    | cons k' ks =>
      rw [arrayAt_sub] at h
      rw [paramInfos]
      by_cases hk : k = k'
      · subst hk
        rw [if_pos rfl] at h
        have hd : ¬ d.keys.isEmpty = true := by
          rw [isEmpty_nil]
          rintro rfl
          cases ks with
          | nil => rw [arrayAt_nil] at h; cases h
          | cons k2 ks => rw [arrayAt_cons, Dict.get, sel_none] at h; cases h
        rw [if_neg hd, arrayAt_sub, if_pos rfl, ihd _ ks x h, List.append_assoc]
        rfl
      · rw [if_neg hk] at h
        split_ifs
        · rw [arrayAt_leaf, if_neg hk]
          exact ih pre _ x h
        · rw [arrayAt_sub, if_neg hk]
          exact ih pre _ x h

/-- An empty dict has an info although it holds no array. -/
theorem paramInfos_empty (axes : List Key → Bool) (s : Dict (Option A)) : ∀ (pre : List Key), Ordinary s → ¬ Full s →
    ∃ k ∈ s.keys, ∃ ks, (arrayAt (paramInfos axes pre s) (k :: ks)).isSome ∧ arrayAt s (k :: ks) = none := by
  induction s with
  | nil => intro pre _ h; exact absurd trivial h
  | leaf k a r ih =>
    intro pre hs h
    obtain ⟨k', hk', ks, h1, h2⟩ := ih pre hs.2.2.2 h
    have hne : k ≠ k' := fun he => hs.2.2.1 (he ▸ hk')
    exact ⟨k', List.mem_cons_of_mem _ hk', ks, by rw [paramInfos, arrayAt_leaf, if_neg hne]; exact h1, by rw [arrayAt_leaf, if_neg hne]; exact h2⟩
  | sub k d r ihd ih =>
    intro pre hs h
    by_cases hd : d = .nil
    · subst hd
      refine ⟨k, List.mem_cons_self .., [], ?_, ?_⟩
      · rw [paramInfos, if_pos (by rfl), arrayAt_leaf, if_pos rfl, if_pos rfl]; rfl
      · rw [arrayAt_sub, if_pos rfl, arrayAt_nil]
    · have hde : ¬ d.keys.isEmpty = true := by rw [isEmpty_nil]; exact hd
      by_cases hfd : Full d
      · obtain ⟨k', hk', ks, h1, h2⟩ := ih pre hs.2.2.2.2 (fun hr => h ⟨hd, hfd, hr⟩)
        have hne : k ≠ k' := fun he => hs.2.2.1 (he ▸ hk')
        exact ⟨k', List.mem_cons_of_mem _ hk', ks, by rw [paramInfos, if_neg hde, arrayAt_sub, if_neg hne]; exact h1,
          by rw [arrayAt_sub, if_neg hne]; exact h2⟩
      · obtain ⟨k', _, ks, h1, h2⟩ := ihd (pre ++ [k]) hs.2.2.2.1 hfd
        exact ⟨k, List.mem_cons_self .., k' :: ks, by rw [paramInfos, if_neg hde, arrayAt_sub, if_pos rfl]; exact h1,
          by rw [arrayAt_sub, if_pos rfl]; exact h2⟩

/-! ### Intersection -/

theorem intersect_at (s t : Dict α) (hs : Ordinary s) (ht : Ordinary t) :
    ∃ r, intersectState s t = some r ∧ Ordinary r ∧ Full r ∧ ∀ p, arrayAt r p = if (arrayAt t p).isSome then arrayAt s p else none := by
  obtain ⟨r, h1, h2, h3, h4⟩ := C17_intersect s t (ordinary_proper hs) (ordinary_proper ht) (ordinary_plain hs)
  have hor : Ordinary r := by
    refine ordinary_of r h2 h3 fun p v h => ?_
    rw [h4] at h
    split_ifs at h
    rw [stateLeaf_ordinary p s hs] at h
    cases ha : arrayAt s p with
    | none => rw [ha] at h; cases h
    | some a => rw [ha] at h; exact ⟨a, (Option.some.inj h).symm⟩
  refine ⟨r, h1, hor, full_intersect s _ r hs h1, fun p => ?_⟩
  have := h4 p
  rw [stateLeaf_ordinary p r hor, stateLeaf_ordinary p s hs, stateLeaf_ordinary p t ht] at this
  simp only [Option.isSome_map] at this
  split_ifs at this ⊢ with hif
  · cases h5 : arrayAt r p with
    | none => rw [h5] at this; cases h6 : arrayAt s p with
      | none => rfl
      | some y => rw [h6] at this; cases this
    | some x => rw [h5] at this; cases h6 : arrayAt s p with
      | none => rw [h6] at this; cases this
      | some y => rw [h6] at this; cases this; rfl
  · cases h5 : arrayAt r p with
    | none => rfl
    | some x => rw [h5] at this; cases this

/-- Merging keeps dicts free of empty ones. -/
theorem full_merge (s t r : Dict α) (hs : Ordinary s) (ht : Ordinary t) (h : mergeState s t = some r) : Full r := by
  unfold mergeState unflatten at h
  refine full_unflattenPaths _ ?_ .nil r h trivial
  have key : ∀ u : Dict α, Ordinary u → ∀ e ∈ flattenStateDict u, ∃ a, e.2 = .arr a := by
    intro u hu e he
    have hprop := ordinary_proper hu
    rw [flattenStateDict_eq u false hprop] at he
    obtain ⟨x, hx, rfl⟩ := List.mem_map.1 he
    have := (mem_paths tensorstoreLeaf u hprop x.1 x.2).1 hx
    have h2 := stateLeaf_ordinary x.1 u hu
    unfold stateLeaf at h2
    rw [h2] at this
    cases h3 : arrayAt u x.1 with
    | none => rw [h3] at this; cases this
    | some a => rw [h3] at this; exact ⟨a, (Option.some.inj this).symm⟩
  have hfold : ∀ (l f : List (Key × Val α)), (∀ e ∈ l, ∃ a, e.2 = .arr a) → (∀ e ∈ f, ∃ a, e.2 = .arr a) →
      ∀ e ∈ l.foldl (fun f kv => if !PyDict.has f kv.1 || false then PyDict.set f kv.1 kv.2 else f) f, ∃ a, e.2 = .arr a := by
    intro l
    induction l with
    | nil => intro f _ hf; exact hf
    | cons x l ih =>
      intro f hl hf
      rw [List.foldl_cons]
      refine ih _ (fun e he => hl e (List.mem_cons_of_mem _ he)) ?_
      split_ifs
      · intro e he
        have hset : ∀ (f : List (Key × Val α)) (k : Key) (v : Val α), ∀ e ∈ PyDict.set f k v, e ∈ f ∨ e = (k, v) := by
          intro f
          induction f with
          | nil => intro k v e he; right; simpa [PyDict.set] using he
          | cons y f ih =>
            intro k v e he
            simp only [PyDict.set] at he
            split_ifs at he with hk
            · rcases List.mem_cons.1 he with h' | h'
              · right; rw [h', hk]
              · left; exact List.mem_cons_of_mem _ h'
            · rcases List.mem_cons.1 he with h' | h'
              · left; rw [h']; exact List.mem_cons_self ..
              · rcases ih k v e h' with h' | h'
                · left; exact List.mem_cons_of_mem _ h'
                · right; exact h'
        rcases hset f _ _ e he with h' | h'
        · exact hf e h'
        · rw [h']; exact hl x (List.mem_cons_self ..)
      · exact hf
  intro e he
  obtain ⟨e', he', rfl⟩ := List.mem_map.1 he
  exact hfold _ _ (key t ht) (key s hs) e' he'

end Verif.Orbax
