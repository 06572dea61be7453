import Verif.Spec.Fallback
import Verif.Props.SaveRestore
import Verif.Props.StateDict
/- Helper lemmas for restoring with a fallback state. -/
namespace Verif.Fallback
open Verif.StateDict Verif.StateDict.Spec Verif.SaveRestore
open Verif.OptaxState.Spec (arrayAt)
open Verif.Fallback.Spec
open Verif.TsPath (Str)

variable {A T α β χ : Type} [DecidableEq T]

/-- The rest of a walk, from what was found for the first key. -/
def sel : Option (Val α) → List Key → Option α
  | some (.arr a), [] => some a
  | some (.dict s), k :: ks => arrayAt s (k :: ks)
  | _, _ => none

theorem arrayAt_cons (d : Dict α) (k : Key) (ks : List Key) : arrayAt d (k :: ks) = sel (d.get k) ks := by
  cases ks with
  | nil =>
    simp only [arrayAt]
    cases d.get k with
    | none => rfl
    | some v => cases v <;> rfl
  | cons k2 ks =>
    simp only [arrayAt]
    cases d.get k with
    | none => rfl
    | some v => cases v <;> rfl

theorem arrayAt_nil (d : Dict α) : arrayAt d [] = none := by cases d <;> rfl

theorem sel_none (ks : List Key) : sel (none : Option (Val α)) ks = none := by cases ks <;> rfl

theorem sel_arr (a : α) (ks : List Key) : sel (some (.arr a)) ks = if ks = [] then some a else none := by cases ks <;> rfl

theorem sel_dict (d : Dict α) (ks : List Key) : sel (some (.dict d)) ks = arrayAt d ks := by
  cases ks with
  | nil => rw [arrayAt_nil]; rfl
  | cons k ks => rfl

theorem arrayAt_leaf (k : Key) (a : α) (r : Dict α) (k' : Key) (ks : List Key) :
    arrayAt (.leaf k a r) (k' :: ks) = if k = k' then (if ks = [] then some a else none) else arrayAt r (k' :: ks) := by
  rw [arrayAt_cons, arrayAt_cons, Dict.get]
  split_ifs with h1 h2
  · rw [sel_arr, if_pos h2]
  · rw [sel_arr, if_neg h2]
  · rfl

theorem arrayAt_sub (k : Key) (d r : Dict α) (k' : Key) (ks : List Key) :
    arrayAt (.sub k d r) (k' :: ks) = if k = k' then arrayAt d ks else arrayAt r (k' :: ks) := by
  rw [arrayAt_cons, arrayAt_cons, Dict.get]
  split_ifs with h1
  · rw [sel_dict]
  · rfl

theorem arrayAt_head (d : Dict α) (k : Key) (ks : List Key) (h : (arrayAt d (k :: ks)).isSome) : k ∈ d.keys := by
  by_contra hk
  rw [arrayAt_cons, get_none_of_not_mem d k hk, sel_none] at h
  cases h

/-! ### Ordinary dicts -/

theorem ordinary_keys {d : Dict α} (h : Ordinary d) : ∀ k ∈ d.keys, '/' ∉ k ∧ k ≠ "driver".toList := by
  induction d with
  | nil => intro k hk; cases hk
  | leaf k a r ih =>
    intro k' hk'
    rcases List.mem_cons.1 hk' with rfl | hk'
    · exact ⟨h.1, h.2.1⟩
    · exact ih h.2.2.2 k' hk'
  | sub k d r _ ih =>
    intro k' hk'
    rcases List.mem_cons.1 hk' with rfl | hk'
    · exact ⟨h.1, h.2.1⟩
    · exact ih h.2.2.2.2 k' hk'

theorem ordinary_ts {d : Dict α} (h : Ordinary d) : tensorstoreLeaf d = false := by
  unfold tensorstoreLeaf
  have : d.keys.contains "driver".toList = false := by
    rw [Bool.eq_false_iff]
    intro hc
    exact (ordinary_keys h _ (List.contains_iff_mem.1 hc)).2 rfl
  rw [this]
  rfl

theorem ordinary_proper {d : Dict α} (h : Ordinary d) : Proper tensorstoreLeaf d := by
  induction d with
  | nil => trivial
  | leaf k a r ih => exact ⟨h.1, h.2.2.1, ih h.2.2.2⟩
  | sub k d r ihd ih => exact ⟨h.1, h.2.2.1, Or.inr (ihd h.2.2.2.1), ih h.2.2.2.2⟩

theorem ordinary_plain {d : Dict α} (h : Ordinary d) : Plain d := by
  induction d with
  | nil => trivial
  | leaf k a r ih => exact ⟨h.2.1, ih h.2.2.2⟩
  | sub k d r ihd ih => exact ⟨h.2.1, Or.inr (ihd h.2.2.2.1), ih h.2.2.2.2⟩

theorem ordinary_mapL (g : List Key → α → β) (pre : List Key) (d : Dict α) : Ordinary (mapL g pre d) ↔ Ordinary d := by
  induction d generalizing pre with
  | nil => rfl
  | leaf k a r ih => simp only [mapL, Ordinary, ih, keys_mapL]
  | sub k d r ihd ih => simp only [mapL, Ordinary, ih, ihd, keys_mapL]

theorem ordinary_get {d : Dict α} (h : Ordinary d) {k : Key} {s : Dict α} (hg : d.get k = some (.dict s)) : Ordinary s := by
  induction d with
  | nil => cases hg
  | leaf k' a r ih =>
    rw [Dict.get] at hg
    split_ifs at hg
    · cases hg
    · exact ih h.2.2.2 hg
  | sub k' d r _ ih =>
    rw [Dict.get] at hg
    split_ifs at hg
    · cases hg; exact h.2.2.2.1
    · exact ih h.2.2.2.2 hg

theorem arrayAt_mapL (g : List Key → α → β) (p : List Key) : ∀ (pre : List Key) (d : Dict α),
    arrayAt (mapL g pre d) p = (arrayAt d p).map (g (pre ++ p)) := by
  induction p with
  | nil => intro pre d; rw [arrayAt_nil, arrayAt_nil]; rfl
  | cons k ks ih =>
    intro pre d
    rw [arrayAt_cons, arrayAt_cons, get_mapL]
    cases d.get k with
    | none => simp only [sel_none, Option.map_none]
    | some v =>
      cases v with
      | arr a =>
        simp only [sel_arr]
        split_ifs with h
        · rw [h]; rfl
        · rfl
      | dict s =>
        simp only [sel_dict]
        rw [ih, List.append_assoc]
        rfl

theorem stateLeaf_ordinary (p : List Key) : ∀ (d : Dict α), Ordinary d → stateLeaf d p = (arrayAt d p).map .arr := by
  induction p with
  | nil => intro d _; cases d <;> rfl
  | cons k ks ih =>
    intro d hd
    unfold stateLeaf
    cases ks with
    | nil =>
      simp only [leafAt, arrayAt]
      cases hg : d.get k with
      | none => rfl
      | some v =>
        cases v with
        | arr a => rfl
        | dict s => simp only [ordinary_ts (ordinary_get hd hg), Bool.false_eq_true, if_false, Option.map_none]
    | cons k2 ks =>
      simp only [leafAt, arrayAt]
      cases hg : d.get k with
      | none => rfl
      | some v =>
        cases v with
        | arr a => rfl
        | dict s =>
          simp only [ordinary_ts (ordinary_get hd hg), Bool.false_eq_true, if_false]
          exact ih s (ordinary_get hd hg)

theorem stateLeaf_skip_leaf (k : Key) (a : α) (r : Dict α) (hk : k ∉ r.keys) (p : List Key) (v : Val α) (h : stateLeaf r p = some v) :
    stateLeaf (.leaf k a r) p = some v := by
  cases p with
  | nil => cases r <;> cases h
  | cons k' ks =>
    by_cases he : k = k'
    · subst he
      unfold stateLeaf at h
      cases ks <;> simp only [leafAt, get_none_of_not_mem r k hk] at h <;> cases h
    · unfold stateLeaf at h ⊢
      cases ks <;> simp only [leafAt, Dict.get, if_neg he] at h ⊢ <;> exact h

theorem stateLeaf_skip_sub (k : Key) (d r : Dict α) (hk : k ∉ r.keys) (p : List Key) (v : Val α) (h : stateLeaf r p = some v) :
    stateLeaf (.sub k d r) p = some v := by
  cases p with
  | nil => cases r <;> cases h
  | cons k' ks =>
    by_cases he : k = k'
    · subst he
      unfold stateLeaf at h
      cases ks <;> simp only [leafAt, get_none_of_not_mem r k hk] at h <;> cases h
    · unfold stateLeaf at h ⊢
      cases ks <;> simp only [leafAt, Dict.get, if_neg he] at h ⊢ <;> exact h

/-- A plain dict all of whose leaves are arrays is ordinary. -/
theorem ordinary_of (d : Dict α) (hp : Proper tensorstoreLeaf d) (hl : Plain d)
    (ha : ∀ p v, stateLeaf d p = some v → ∃ a, v = .arr a) : Ordinary d := by
  induction d with
  | nil => trivial
  | leaf k a r ih =>
    exact ⟨hp.1, hl.1, hp.2.1, ih hp.2.2 hl.2 fun p v h => ha p v (stateLeaf_skip_leaf k a r hp.2.1 p v h)⟩
  | sub k d r ihd ih =>
    obtain ⟨p1, p2, p3, p4⟩ := hp
    obtain ⟨l1, l2, l3⟩ := hl
    have hts : tensorstoreLeaf d = false := by
      rw [Bool.eq_false_iff]
      intro ht
      obtain ⟨a, h⟩ := ha [k] (.dict d) (by unfold stateLeaf; simp only [leafAt, Dict.get, if_true, ht])
      cases h
    rw [hts] at p3 l2
    refine ⟨p1, l1, p2, ihd (p3.resolve_left (by simp)) (l2.resolve_left (by simp)) fun p v h => ?_, ih p4 l3 fun p v h => ha p v (stateLeaf_skip_sub k d r p2 p v h)⟩
    cases p with
    | nil => cases d <;> cases h
    | cons k2 ks =>
      refine ha (k :: k2 :: ks) v ?_
      unfold stateLeaf at h ⊢
      simp only [leafAt, Dict.get, if_true, hts, Bool.false_eq_true, if_false]
      exact h

/-! ### Dicts without empty dicts -/

/-- No empty dict inside. -/
def Full : Dict α → Prop
  | .nil => True
  | .leaf _ _ r => Full r
  | .sub _ d r => d ≠ .nil ∧ Full d ∧ Full r

theorem full_leaf {d : Dict α} (h : Full d) (hn : d ≠ .nil) : ∃ p, (arrayAt d p).isSome := by
  induction d with
  | nil => exact absurd rfl hn
  | leaf k a r _ => exact ⟨[k], by rw [arrayAt_leaf, if_pos rfl, if_pos rfl]; rfl⟩
  | sub k d r ihd _ =>
    obtain ⟨p, hp⟩ := ihd h.2.1 h.1
    exact ⟨k :: p, by rw [arrayAt_sub, if_pos rfl]; exact hp⟩

theorem full_set_arr {d : Dict α} (h : Full d) (k : Key) (a : α) : Full (d.set k (.arr a)) := by
  induction d with
  | nil => exact h
  | leaf k' x r ih =>
    rw [Dict.set]
    split_ifs
    · exact h
    · exact ih h
  | sub k' x r _ ih =>
    rw [Dict.set]
    split_ifs
    · exact h.2.2
    · exact ⟨h.1, h.2.1, ih h.2.2⟩

theorem full_set_dict {d : Dict α} (h : Full d) (k : Key) (s : Dict α) (hs : Full s) (hn : s ≠ .nil) : Full (d.set k (.dict s)) := by
  induction d with
  | nil => exact ⟨hn, hs, h⟩
  | leaf k' x r ih =>
    rw [Dict.set]
    split_ifs
    · exact ⟨hn, hs, h⟩
    · exact ih h
  | sub k' x r _ ih =>
    rw [Dict.set]
    split_ifs
    · exact ⟨hn, hs, h.2.2⟩
    · exact ⟨h.1, h.2.1, ih h.2.2⟩

theorem set_ne_nil (d : Dict α) (k : Key) (v : Val α) : d.set k v ≠ .nil := by
  cases d with
  | nil => cases v <;> simp [Dict.set, Dict.cons]
  | leaf k' x r => rw [Dict.set]; split_ifs <;> cases v <;> simp [Dict.cons]
  | sub k' x r => rw [Dict.set]; split_ifs <;> cases v <;> simp [Dict.cons]

theorem full_get {d : Dict α} (h : Full d) {k : Key} {s : Dict α} (hg : d.get k = some (.dict s)) : Full s := by
  induction d with
  | nil => cases hg
  | leaf k' a r ih =>
    rw [Dict.get] at hg
    split_ifs at hg
    · cases hg
    · exact ih h hg
  | sub k' d r _ ih =>
    rw [Dict.get] at hg
    split_ifs at hg
    · cases hg; exact h.2.1
    · exact ih h.2.2 hg

theorem full_ins (p : List Key) : ∀ (d d' : Dict α) (a : α), ins d p (.arr a) = some d' → Full d → Full d' ∧ d' ≠ .nil := by
  induction p with
  | nil => intro d d' a h; cases d <;> cases h
  | cons k ks ih =>
    intro d d' a h hd
    cases ks with
    | nil =>
      simp only [ins, Option.some.injEq] at h
      subst h
      exact ⟨full_set_arr hd k a, set_ne_nil _ _ _⟩
    | cons k2 ks =>
      simp only [ins] at h
      cases hg : d.get k with
      | none =>
        rw [hg] at h
        simp only [Option.map_eq_some_iff] at h
        obtain ⟨s, h1, rfl⟩ := h
        obtain ⟨h2, h3⟩ := ih .nil s a h1 trivial
        exact ⟨full_set_dict hd k s h2 h3, set_ne_nil _ _ _⟩
      | some v =>
        rw [hg] at h
        cases v with
        | arr x => cases h
        | dict s =>
          simp only [Option.map_eq_some_iff] at h
          obtain ⟨s', h1, rfl⟩ := h
          obtain ⟨h2, h3⟩ := ih s s' a h1 (full_get hd hg)
          exact ⟨full_set_dict hd k s' h2 h3, set_ne_nil _ _ _⟩

theorem full_unflattenPaths (l : List (List Key × Val α)) (hl : ∀ e ∈ l, ∃ a, e.2 = .arr a) : ∀ (d d' : Dict α),
    unflattenPaths d l = some d' → Full d → Full d' := by
  induction l with
  | nil => intro d d' h hd; cases h; exact hd
  | cons e l ih =>
    intro d d' h hd
    obtain ⟨p, v⟩ := e
    obtain ⟨a, rfl⟩ := hl (p, v) (List.mem_cons_self ..)
    simp only [unflattenPaths, Option.bind_eq_some_iff] at h
    obtain ⟨d1, h1, h2⟩ := h
    exact ih (fun e he => hl e (List.mem_cons_of_mem _ he)) d1 d' h2 (full_ins p d d1 a h1 hd).1

theorem full_intersect (s t r : Dict α) (hs : Ordinary s) (h : intersectState s t = some r) : Full r := by
  unfold intersectState unflatten at h
  refine full_unflattenPaths _ ?_ .nil r h trivial
  intro e he
  obtain ⟨e', he', rfl⟩ := List.mem_map.1 he
  have hsub : ∀ (ks : List Key) (f : List (Key × Val α)), ∀ x ∈ ks.foldl
      (fun f k => if PyDict.has (flattenStateDict t) k then f else PyDict.pop f k) f, x ∈ f := by
    intro ks
    induction ks with
    | nil => intro f x hx; exact hx
    | cons k ks ih =>
      intro f x hx
      rw [List.foldl_cons] at hx
      have := ih _ x hx
      by_cases hk : PyDict.has (flattenStateDict t) k = true
      · rw [if_pos hk] at this; exact this
      · rw [if_neg hk] at this
        unfold PyDict.pop at this
        exact (List.mem_filter.1 this).1
  have hmem := hsub _ _ e' he'
  have hprop := ordinary_proper hs
  rw [flattenStateDict_eq s false hprop] at hmem
  obtain ⟨x, hx, rfl⟩ := List.mem_map.1 hmem
  have := (mem_paths tensorstoreLeaf s hprop x.1 x.2).1 hx
  have h2 := stateLeaf_ordinary x.1 s hs
  unfold stateLeaf at h2
  rw [h2] at this
  cases h3 : arrayAt s x.1 with
  | none => rw [h3] at this; cases this
  | some a => rw [h3] at this; exact ⟨a, (Option.some.inj this).symm⟩

/-! ### The infos of the parameters the checkpoint has -/

theorem intersect_spec (infos : Dict (Option (Info T))) (c : Dict (Option (FLeaf A T))) (hi : Ordinary infos) (hc : Ordinary c) :
    ∃ i', intersectInfos infos c = some i' ∧ Ordinary i' ∧ Full i' ∧
      ∀ p, arrayAt i' p = if (arrayAt c p).isSome then arrayAt infos p else none := by
  have hc' : Ordinary (mapL (fun _ (_ : Option (FLeaf A T)) => (none : Option (Info T))) [] c) := (ordinary_mapL _ _ _).2 hc
  obtain ⟨r, h1, h2, h3, h4⟩ := C17_intersect infos _ (ordinary_proper hi) (ordinary_proper hc') (ordinary_plain hi)
  have hor : Ordinary r := by
    refine ordinary_of r h2 h3 fun p v h => ?_
    rw [h4] at h
    split_ifs at h
    rw [stateLeaf_ordinary p infos hi] at h
    cases ha : arrayAt infos p with
    | none => rw [ha] at h; cases h
    | some a => rw [ha] at h; exact ⟨a, (Option.some.inj h).symm⟩
  refine ⟨r, h1, hor, full_intersect infos _ r hi h1, fun p => ?_⟩
  have := h4 p
  rw [stateLeaf_ordinary p r hor, stateLeaf_ordinary p infos hi, stateLeaf_ordinary p _ hc', arrayAt_mapL] at this
  simp only [Option.isSome_map] at this
  split_ifs at this ⊢ with hif
  · cases h5 : arrayAt r p with
    | none => rw [h5] at this; cases h6 : arrayAt infos p with
      | none => rfl
      | some y => rw [h6] at this; cases this
    | some x => rw [h5] at this; cases h6 : arrayAt infos p with
      | none => rw [h6] at this; cases this
      | some y => rw [h6] at this; cases this; rfl
  · cases h5 : arrayAt r p with
    | none => rfl
    | some x => rw [h5] at this; cases this

/-- The infos and the entries of the checkpoint side by side. -/
theorem fill_base (s : Dict (Option (Info T))) (hs : Ordinary s) (hf : Full s) : ∀ (pre : List Key) (t : Dict (Option (FLeaf A T))),
    (∀ p, (arrayAt s p).isSome → (arrayAt t p).isSome) →
    ∃ b : Dict (Option (Info T) × Option (FLeaf A T)), s = mapL (fun _ x => x.1) pre b ∧
      fill s t = .ok (mapL (fun _ x => if x.1.isSome then x.2 else none) pre b) ∧
      ∀ p x, arrayAt b p = some x → arrayAt t p = some x.2 := by
  induction s with
  | nil => intro pre t _; exact ⟨.nil, rfl, rfl, fun p x h => by cases p with
    | nil => cases h
    | cons k ks => rw [arrayAt_cons, Dict.get, sel_none] at h; cases h⟩
  | leaf k i r ih =>
    intro pre t h
    have htail : ∀ p, (arrayAt r p).isSome → (arrayAt t p).isSome := by
      intro p hp
      refine h p ?_
      cases p with
      | nil => rw [arrayAt_nil] at hp; cases hp
      | cons k' ks =>
        have hk' := arrayAt_head r k' ks hp
        rw [arrayAt_leaf, if_neg (fun he => hs.2.2.1 (by rw [he]; exact hk'))]
        exact hp
    obtain ⟨b, e1, e2, e3⟩ := ih hs.2.2.2 hf pre t htail
    have hk := h [k] (by rw [arrayAt_leaf, if_pos rfl, if_pos rfl]; rfl)
    rw [arrayAt_cons] at hk
    cases hg : t.get k with
    | none => rw [hg] at hk; cases hk
    | some v =>
      cases v with
      | dict d => rw [hg] at hk; cases hk
      | arr x =>
        refine ⟨.leaf k (i, x) b, by rw [mapL, ← e1], ?_, ?_⟩
        · cases i with
          | none => simp only [fill, hg, e2, mapL]; rfl
          | some i => simp only [fill, hg, e2, mapL]; rfl
        · intro p y hy
          cases p with
          | nil => rw [arrayAt_nil] at hy; cases hy
          | cons k' ks =>
            rw [arrayAt_leaf] at hy
            split_ifs at hy with g1 g2
            · subst g1 g2
              cases hy
              rw [arrayAt_cons, hg]
              rfl
            · exact e3 _ _ hy
  | sub k d r ihd ih =>
    intro pre t h
    have htail : ∀ p, (arrayAt r p).isSome → (arrayAt t p).isSome := by
      intro p hp
      refine h p ?_
      cases p with
      | nil => rw [arrayAt_nil] at hp; cases hp
      | cons k' ks =>
        have hk' := arrayAt_head r k' ks hp
        rw [arrayAt_sub, if_neg (fun he => hs.2.2.1 (by rw [he]; exact hk'))]
        exact hp
    obtain ⟨b, e1, e2, e3⟩ := ih hs.2.2.2.2 hf.2.2 pre t htail
    obtain ⟨q, hq⟩ := full_leaf hf.2.1 hf.1
    have hqn : q ≠ [] := by rintro rfl; rw [arrayAt_nil] at hq; cases hq
    have hk := h (k :: q) (by rw [arrayAt_sub, if_pos rfl]; exact hq)
    rw [arrayAt_cons] at hk
    cases hg : t.get k with
    | none => rw [hg, sel_none] at hk; cases hk
    | some v =>
      cases v with
      | arr x => rw [hg, sel_arr, if_neg hqn] at hk; cases hk
      | dict d' =>
        obtain ⟨bd, f1, f2, f3⟩ := ihd hs.2.2.2.1 hf.2.1 (pre ++ [k]) d' (fun p hp => by
          have := h (k :: p) (by rw [arrayAt_sub, if_pos rfl]; exact hp)
          rw [arrayAt_cons, hg, sel_dict] at this
          exact this)
        refine ⟨.sub k bd b, by rw [mapL, ← e1, ← f1], by simp only [fill, hg, e2, f2, mapL], ?_⟩
        intro p y hy
        cases p with
        | nil => rw [arrayAt_nil] at hy; cases hy
        | cons k' ks =>
          rw [arrayAt_sub] at hy
          split_ifs at hy with g1
          · subst g1
            rw [arrayAt_cons, hg, sel_dict]
            exact f3 _ _ hy
          · exact e3 _ _ hy

theorem mem_leaves (b : Dict χ) (hb : Ordinary b) : ∀ (pre : List Key) (e : List Key × χ), e ∈ leaves pre b →
    ∃ q, e.1 = pre ++ q ∧ arrayAt b q = some e.2 := by
  induction b with
  | nil => intro pre e he; cases he
  | leaf k x r ih =>
    intro pre e he
    rcases List.mem_cons.1 he with rfl | he
    · exact ⟨[k], rfl, by rw [arrayAt_leaf, if_pos rfl, if_pos rfl]⟩
    · obtain ⟨q, h1, h2⟩ := ih hb.2.2.2 pre e he
      cases q with
      | nil => rw [arrayAt_nil] at h2; cases h2
      | cons k' ks =>
        refine ⟨k' :: ks, h1, ?_⟩
        have hk' := arrayAt_head r k' ks (by rw [h2]; rfl)
        rw [arrayAt_leaf, if_neg (fun he => hb.2.2.1 (by rw [he]; exact hk')), h2]
  | sub k d r ihd ih =>
    intro pre e he
    rcases List.mem_append.1 he with he | he
    · obtain ⟨q, h1, h2⟩ := ihd hb.2.2.2.1 (pre ++ [k]) e he
      exact ⟨k :: q, by rw [h1, List.append_assoc]; rfl, by rw [arrayAt_sub, if_pos rfl, h2]⟩
    · obtain ⟨q, h1, h2⟩ := ih hb.2.2.2.2 pre e he
      cases q with
      | nil => rw [arrayAt_nil] at h2; cases h2
      | cons k' ks =>
        refine ⟨k' :: ks, h1, ?_⟩
        have hk' := arrayAt_head r k' ks (by rw [h2]; rfl)
        rw [arrayAt_sub, if_neg (fun he => hb.2.2.1 (by rw [he]; exact hk')), h2]

/-- `zipT_mapL` for ordinary dicts. -/
theorem zipT_ordinary {γ : Type} (f : List Key → α → Option β → Except Err γ) (g1 : List Key → χ → Option α) (g2 : List Key → χ → Option β)
    (g3 : List Key → χ → Option γ) (b w : Dict χ) (pre : List Key) (hb : Ordinary b)
    (hw : ∀ k ∈ b.keys, (mapL g2 pre w).get k = (mapL g2 pre b).get k)
    (h : ∀ e ∈ leaves pre b, stepF f e.1 (g1 e.1 e.2) (g2 e.1 e.2) = .ok (g3 e.1 e.2)) :
    zipT f pre (mapL g1 pre b) (mapL g2 pre w) = .ok (mapL g3 pre b) := by
  induction b generalizing pre w with
  | nil => rfl
  | leaf k x r ih =>
    have hr := ih w pre hb.2.2.2 (tail_leaf g2 pre k x r w hb.2.2.1 hw) fun e he => h e (List.mem_cons_of_mem _ he)
    have hg := hw k (List.mem_cons_self ..)
    rw [get_mapL_leaf] at hg
    have hx := h (pre ++ [k], x) (List.mem_cons_self ..)
    simp only [mapL] at hx ⊢
    cases h1 : g1 (pre ++ [k]) x with
    | none =>
      rw [h1] at hx
      simp only [stepF] at hx
      split_ifs at hx with h2
      have h2' : g2 (pre ++ [k]) x = none := by simpa using h2
      rw [h2'] at hg
      simp only [zipT, hg, hr, ← Except.ok.inj hx]
    | some a =>
      rw [h1] at hx
      simp only [stepF] at hx
      cases h3 : f (pre ++ [k]) a (g2 (pre ++ [k]) x) with
      | error e => rw [h3] at hx; cases hx
      | ok c =>
        rw [h3] at hx
        simp only [zipT, hg, hr, h3, ← Except.ok.inj hx]
  | sub k d r ihd ih =>
    have hr := ih w pre hb.2.2.2.2 (tail_sub g2 pre k d r w hb.2.2.1 hw) fun e he => h e (List.mem_append_right _ he)
    have hdd := ihd d (pre ++ [k]) hb.2.2.2.1 (fun _ _ => rfl) fun e he => h e (List.mem_append_left _ he)
    have hg := hw k (List.mem_cons_self ..)
    rw [get_mapL_sub] at hg
    simp only [mapL, zipT, hg, hr, hdd, keys_all, if_true]

theorem zipT_at {γ : Type} (f : List Key → α → Option β → Except Err γ) (q : List Key) : ∀ (pre : List Key) (s : Dict (Option α))
    (t : Dict (Option β)) (u : Dict (Option γ)), zipT f pre s t = .ok u →
    (∀ a, arrayAt s q = some (some a) → ∃ b c, arrayAt t q = some b ∧ f (pre ++ q) a b = .ok c ∧ arrayAt u q = some (some c)) ∧
    (arrayAt s q = some none → arrayAt u q = some none) ∧ (arrayAt s q = none → arrayAt u q = none) := by
  induction q with
  | nil =>
    intro pre s t u _
    simp only [arrayAt_nil]
    exact ⟨fun a h => (by cases h), fun h => (by cases h), fun _ => trivial⟩
  | cons k q ih =>
    intro pre s t u h
    obtain ⟨z1, z2, z3, z4⟩ := zipT_get _ _ _ _ _ h k
    simp only [arrayAt_cons]
    cases hg : s.get k with
    | none => simp only [z4 hg, sel_none]; exact ⟨fun a h => (by cases h), fun h => (by cases h), fun _ => trivial⟩
    | some v =>
      cases v with
      | arr x =>
        cases x with
        | none =>
          simp only [z2 hg, sel_arr]
          by_cases hq : q = []
          · simp only [hq, if_true, Option.some.injEq]
            exact ⟨fun a h => (by cases h), fun _ => trivial, fun h => (by cases h)⟩
          · simp only [hq, if_false]
            exact ⟨fun a h => (by cases h), fun h => (by cases h), fun _ => trivial⟩
        | some a =>
          obtain ⟨b, c, e1, e2, e3⟩ := z1 a hg
          simp only [e1, e3, sel_arr]
          by_cases hq : q = []
          · simp only [hq, if_true, Option.some.injEq]
            exact ⟨fun a' ha => ⟨b, c, rfl, by rw [← ha]; exact e2, rfl⟩, fun h => (by cases h), fun h => (by cases h)⟩
          · simp only [hq, if_false]
            exact ⟨fun a h => (by cases h), fun h => (by cases h), fun _ => trivial⟩
      | dict d =>
        obtain ⟨d', x, e1, e2, e3⟩ := z3 d hg
        simp only [e1, e3, sel_dict]
        have := ih (pre ++ [k]) d d' x e2
        simp only [List.append_assoc, List.singleton_append] at this
        exact this

theorem zipT_shape {γ : Type} (f : List Key → α → Option β → Except Err γ) (s : Dict (Option α)) : ∀ (pre : List Key) (t : Dict (Option β))
    (u : Dict (Option γ)), zipT f pre s t = .ok u → u.keys = s.keys ∧ (Ordinary s → Ordinary u) := by
  induction s with
  | nil => intro pre t u h; cases h; exact ⟨rfl, fun _ => trivial⟩
  | leaf k i r ih =>
    intro pre t u h
    have key : ∃ y u', zipT f pre r t = .ok u' ∧ u = .leaf k y u' := by
      cases i with
      | none =>
        simp only [zipT] at h
        split at h
        · cases h; exact ⟨_, _, ‹_›, rfl⟩
        · cases h
        · cases h
      | some a =>
        simp only [zipT] at h
        split at h
        · split at h
          · cases h; exact ⟨_, _, ‹_›, rfl⟩
          · cases h
          · cases h
        · cases h
    obtain ⟨y, u', h1, rfl⟩ := key
    obtain ⟨h2, h3⟩ := ih pre t u' h1
    refine ⟨by simp only [Dict.keys, h2], fun ho => ⟨ho.1, ho.2.1, by rw [h2]; exact ho.2.2.1, h3 ho.2.2.2⟩⟩
  | sub k d r ihd ih =>
    intro pre t u h
    simp only [zipT] at h
    split at h
    · split_ifs at h
      split at h
      · cases h
        rename_i x u' g1 g2
        obtain ⟨h2, h3⟩ := ih pre t u' g2
        obtain ⟨_, h5⟩ := ihd _ _ x g1
        exact ⟨by simp only [Dict.keys, h2], fun ho => ⟨ho.1, ho.2.1, by rw [h2]; exact ho.2.2.1, h5 ho.2.2.2.1, h3 ho.2.2.2.2⟩⟩
      · cases h
      · cases h
    · cases h

/-- What follows the reading. -/
def finish (rest : Option T) (fb : Dict (Option A)) : Except Err (Dict (Option A)) → Except Err (Dict (Option A))
  | .error e => .error e
  | .ok r =>
    if rest.isSome && !r.keys.contains "target".toList then .error .noTarget
    else match mergeState r fb with
      | none => .error .structure
      | some m => .ok m

/-- Restoring reads the entries that both the model and the checkpoint have. -/
theorem restoreFallback_eq (O : Ops A T) (rest : Option T) (dev : Bool) (D : Str) (dsk : TsPath.Spec → Option A)
    (tr : Dict (Option (FLeaf A T)) → Except Err (Dict (Option (FLeaf A T)))) (infos : Dict (Option (Info T)))
    (f f' c : Dict (Option (FLeaf A T))) (fb : Dict (Option A)) (h1 : convert D f = .ok f') (h2 : tr f' = .ok c) (hi : Ordinary infos)
    (hc : Ordinary c) :
    ∃ b : Dict (Option (Info T) × Option (FLeaf A T)), Ordinary b ∧
      (∀ p i x, arrayAt b p = some (i, x) ↔ arrayAt infos p = some i ∧ arrayAt c p = some x) ∧
      restoreFallback O rest dev D dsk tr infos f fb = finish rest fb (zipT (readLeaf O rest dev D dsk) []
        (mapL (fun _ x => x.1) [] b) (mapL (fun _ x => if x.1.isSome then x.2 else none) [] b)) := by
  obtain ⟨i', e1, e2, e3, e4⟩ := intersect_spec infos c hi hc
  obtain ⟨b, e5, e6, e7⟩ := fill_base i' e2 e3 [] c (fun p hp => by
    by_contra h
    rw [e4, if_neg h] at hp
    cases hp)
  refine ⟨b, by rw [e5, ordinary_mapL] at e2; exact e2, fun p i x => ⟨fun h => ?_, fun h => ?_⟩, ?_⟩
  · have hx := e7 p _ h
    refine ⟨?_, hx⟩
    have := e4 p
    rw [hx, e5, arrayAt_mapL, h] at this
    exact this.symm
  · have := e4 p
    rw [h.2, h.1, e5, arrayAt_mapL] at this
    simp only [Option.isSome_some, if_true, Option.map_eq_some_iff] at this
    obtain ⟨y, hy, hy2⟩ := this
    have h8 := e7 p y hy
    rw [h.2] at h8
    rw [hy, ← hy2, Option.some.inj h8]
  · unfold restoreFallback finish
    rw [h1]
    simp only
    rw [h2]
    simp only [e1]
    rw [e6]
    simp only
    rw [e5]
    cases zipT (readLeaf O rest dev D dsk) [] (mapL (fun _ x => x.1) [] b)
      (mapL (fun _ (x : Option (Info T) × Option (FLeaf A T)) => if x.1.isSome = true then x.2 else none) [] b) with
    | error e => rfl
    | ok r => rfl

/-- Merging with a fallback state that has all the entries. -/
theorem merge_spec (r fb : Dict (Option A)) (hr : Ordinary r) (hf : Ordinary fb) (h : ∀ p, (arrayAt r p).isSome → (arrayAt fb p).isSome) :
    ∃ m, mergeState r fb = some m ∧ Ordinary m ∧ ∀ p, arrayAt m p = (arrayAt r p).or (arrayAt fb p) := by
  have hnc : NoConflict r fb := by
    intro p q v w hp hq hpre
    rw [stateLeaf_ordinary p r hr] at hp
    have hsome : (arrayAt r p).isSome := by
      cases ha : arrayAt r p with
      | none => rw [ha] at hp; cases hp
      | some a => rfl
    obtain ⟨a, ha⟩ := Option.isSome_iff_exists.1 (h p hsome)
    have hp2 : stateLeaf fb p = some (.arr a) := by rw [stateLeaf_ordinary p fb hf, ha]; rfl
    rcases hpre with hpre | hpre
    · exact leafAt_prefix _ p fb q _ _ hp2 hq hpre
    · exact (leafAt_prefix _ q fb p _ _ hq hp2 hpre).symm
  obtain ⟨m, h1, h2, h3, h4⟩ := C17_merge r fb false (ordinary_proper hr) (ordinary_proper hf) (ordinary_plain hr) (ordinary_plain hf) hnc
  have hform : ∀ p, stateLeaf m p = ((arrayAt r p).or (arrayAt fb p)).map .arr := by
    intro p
    rw [h4, stateLeaf_ordinary p r hr, stateLeaf_ordinary p fb hf]
    simp only [Bool.false_eq_true, if_false]
    cases arrayAt r p <;> rfl
  have hm : Ordinary m := by
    refine ordinary_of m h2 h3 fun p v hv => ?_
    rw [hform] at hv
    cases ha : (arrayAt r p).or (arrayAt fb p) with
    | none => rw [ha] at hv; cases hv
    | some a => rw [ha] at hv; exact ⟨a, (Option.some.inj hv).symm⟩
  refine ⟨m, h1, hm, fun p => ?_⟩
  have := hform p
  rw [stateLeaf_ordinary p m hm] at this
  cases h5 : arrayAt m p with
  | none =>
    rw [h5] at this
    cases h6 : (arrayAt r p).or (arrayAt fb p) with
    | none => rfl
    | some y => rw [h6] at this; cases this
  | some x =>
    rw [h5] at this
    cases h6 : (arrayAt r p).or (arrayAt fb p) with
    | none => rw [h6] at this; cases this
    | some y => rw [h6] at this; cases this; rfl

/-! ### Saved states -/

theorem like_at (R : List Key → α → β → Prop) (s : Dict α) : ∀ (pre : List Key) (t : Dict β), SaveRestore.Spec.Like R pre s t →
    ∀ p, (∀ x, arrayAt s p = some x → ∃ y, arrayAt t p = some y ∧ R (pre ++ p) x y) ∧ (arrayAt s p = none → arrayAt t p = none) := by
  induction s with
  | nil =>
    intro pre t h p
    cases t with
    | nil => cases p with
      | nil => exact ⟨fun x hx => (by cases hx), fun _ => rfl⟩
      | cons k ks => exact ⟨fun x hx => (by rw [arrayAt_cons, Dict.get, sel_none] at hx; cases hx), fun _ => by rw [arrayAt_cons, Dict.get, sel_none]⟩
    | leaf => exact h.elim
    | sub => exact h.elim
  | leaf k a r ih =>
    intro pre t h p
    cases t with
    | nil => exact h.elim
    | sub => exact h.elim
    | leaf k' c r' =>
      obtain ⟨rfl, h1, h2⟩ := h
      cases p with
      | nil => rw [arrayAt_nil, arrayAt_nil]; exact ⟨fun x hx => (by cases hx), fun _ => rfl⟩
      | cons k' ks =>
        rw [arrayAt_leaf, arrayAt_leaf]
        by_cases he : k = k'
        · subst he
          rw [if_pos rfl, if_pos rfl]
          by_cases hk : ks = []
          · subst hk
            simp only [if_true]
            exact ⟨fun x hx => ⟨c, rfl, by cases hx; exact h1⟩, fun h => by cases h⟩
          · simp only [hk, if_false]
            exact ⟨fun x hx => (by cases hx), fun _ => trivial⟩
        · rw [if_neg he, if_neg he]
          exact ih pre r' h2 _
  | sub k d r ihd ih =>
    intro pre t h p
    cases t with
    | nil => exact h.elim
    | leaf => exact h.elim
    | sub k' d' r' =>
      obtain ⟨rfl, h1, h2⟩ := h
      cases p with
      | nil => rw [arrayAt_nil, arrayAt_nil]; exact ⟨fun x hx => (by cases hx), fun _ => rfl⟩
      | cons k' ks =>
        rw [arrayAt_sub, arrayAt_sub]
        by_cases he : k = k'
        · subst he
          rw [if_pos rfl, if_pos rfl]
          have := ihd _ d' h1 ks
          simp only [List.append_assoc, List.singleton_append] at this
          exact this
        · rw [if_neg he, if_neg he]
          exact ih pre r' h2 _

theorem like_self (O : Ops A T) (s : Dict (Option A)) : ∀ pre, SaveRestore.Spec.Like (fun _ => SaveRestore.Spec.SameKind O) pre s s := by
  induction s with
  | nil => intro _; trivial
  | leaf k a r ih => intro pre; exact ⟨rfl, rfl, ih pre⟩
  | sub k d r ihd ih => intro pre; exact ⟨rfl, ihd _, ih pre⟩

theorem convert_shape (D : Str) (t : Dict (Option (FLeaf A T))) : ∀ u, convert D t = .ok u → u.keys = t.keys ∧ (Ordinary t → Ordinary u) ∧
    ∀ p x, arrayAt t p = some x → ∃ y, convF D x = .ok y ∧ arrayAt u p = some y := by
  induction t with
  | nil =>
    intro u h
    cases h
    refine ⟨rfl, fun _ => trivial, fun p x hx => ?_⟩
    cases p with
    | nil => cases hx
    | cons k ks => rw [arrayAt_cons, Dict.get, sel_none] at hx; cases hx
  | leaf k x r ih =>
    intro u h
    have key : ∃ y r', convF D x = .ok y ∧ convert D r = .ok r' ∧ u = .leaf k y r' := by
      match x with
      | none =>
        simp only [convert] at h
        cases hr : convert D r with
        | error e => rw [hr] at h; cases h
        | ok r' => rw [hr] at h; cases h; exact ⟨none, r', rfl, rfl, rfl⟩
      | some (.val a) =>
        simp only [convert] at h
        cases hr : convert D r with
        | error e => rw [hr] at h; cases h
        | ok r' => rw [hr] at h; cases h; exact ⟨_, r', rfl, rfl, rfl⟩
      | some (.spec sp) =>
        simp only [convert] at h
        cases hl : convertLoc D sp.loc with
        | error e => rw [hl] at h; cases h
        | ok l =>
          rw [hl] at h
          cases hr : convert D r with
          | error e => rw [hr] at h; cases h
          | ok r' => rw [hr] at h; cases h; exact ⟨_, r', by simp only [convF, hl], rfl, rfl⟩
    obtain ⟨y, r', h1, h2, rfl⟩ := key
    obtain ⟨g1, g2, g3⟩ := ih r' h2
    refine ⟨by simp only [Dict.keys, g1], fun ho => ⟨ho.1, ho.2.1, by rw [g1]; exact ho.2.2.1, g2 ho.2.2.2⟩, fun p z hz => ?_⟩
    cases p with
    | nil => rw [arrayAt_nil] at hz; cases hz
    | cons k' ks =>
      rw [arrayAt_leaf] at hz ⊢
      by_cases he : k = k'
      · rw [if_pos he] at hz ⊢
        by_cases hk : ks = []
        · rw [if_pos hk] at hz ⊢
          cases hz
          exact ⟨y, h1, rfl⟩
        · rw [if_neg hk] at hz; cases hz
      · rw [if_neg he] at hz ⊢
        exact g3 _ _ hz
  | sub k d r ihd ih =>
    intro u h
    simp only [convert] at h
    cases hd : convert D d with
    | error e => rw [hd] at h; cases h
    | ok d' =>
      rw [hd] at h
      cases hr : convert D r with
      | error e => rw [hr] at h; cases h
      | ok r' =>
        rw [hr] at h
        cases h
        obtain ⟨g1, g2, g3⟩ := ih r' hr
        obtain ⟨_, f2, f3⟩ := ihd d' hd
        refine ⟨by simp only [Dict.keys, g1], fun ho => ⟨ho.1, ho.2.1, by rw [g1]; exact ho.2.2.1, f2 ho.2.2.2.1, g2 ho.2.2.2.2⟩, fun p z hz => ?_⟩
        cases p with
        | nil => rw [arrayAt_nil] at hz; cases hz
        | cons k' ks =>
          rw [arrayAt_sub] at hz ⊢
          by_cases he : k = k'
          · rw [if_pos he] at hz ⊢; exact f3 _ _ hz
          · rw [if_neg he] at hz ⊢; exact g3 _ _ hz

theorem convert_none (D : Str) (p : List Key) : ∀ (t u : Dict (Option (FLeaf A T))), convert D t = .ok u → arrayAt t p = none → arrayAt u p = none := by
  induction p with
  | nil => intro t u _ _; exact arrayAt_nil u
  | cons k ks ih =>
    intro t u h hn
    obtain ⟨c1, c2⟩ := convert_get D t u h k
    rw [arrayAt_cons] at hn ⊢
    cases hg : u.get k with
    | none => exact sel_none _
    | some v =>
      cases v with
      | arr y =>
        obtain ⟨x, hx, _⟩ := c1 y hg
        rw [hx, sel_arr] at hn
        rw [sel_arr]
        split_ifs at hn ⊢
        rfl
      | dict d =>
        obtain ⟨d', hd', hc⟩ := c2 d hg
        rw [hd', sel_dict] at hn
        rw [sel_dict]
        exact ih d' d hc hn

end Verif.Fallback
