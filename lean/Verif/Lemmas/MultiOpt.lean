import Verif.Spec.MultiOpt
import Verif.Lemmas.OptaxState
namespace Verif.MultiOpt
open Verif Verif.StateDict Verif.StateDict.Spec Verif.OptaxState Verif.OptaxState.Spec Spec

section Trees
variable {β : Type}

theorem paths_arr (d : Dict β) (hd : Proper F d) : ∀ e ∈ paths F false d, ∃ a, e.2 = .arr a :=
  fun e he => leafAt_arr d e.1 e.2 ((mem_paths F d hd e.1 e.2).1 he)

theorem flattenGo_id (d : Dict β) (hd : Proper F d) : flattenGo (fun _ => false) false id [] [] d = paths F false d := by
  rw [flattenGo_eq]
  · simp
  · simpa [PyDict.keys] using paths_nodup (fun _ => false) false d hd

theorem paths_items (d : Dict β) (hd : Proper F d) : (items d).map (fun e => (e.1, Val.arr e.2)) = paths F false d := by
  unfold items
  rw [flattenGo_id d hd]
  have key : ∀ l : List (List Key × Val β), (∀ e ∈ l, ∃ a, e.2 = .arr a) →
      (l.filterMap fun e => match e.2 with | .arr a => some (e.1, a) | .dict _ => none).map (fun e => (e.1, Val.arr e.2)) = l := by
    intro l h
    induction l with
    | nil => rfl
    | cons x l ih =>
      obtain ⟨p, v⟩ := x
      obtain ⟨a, ha⟩ := h _ List.mem_cons_self
      dsimp only at ha
      subst ha
      simp only [List.filterMap_cons, List.map_cons, ih (fun e he => h e (List.mem_cons_of_mem _ he))]
  exact key _ (paths_arr d hd)

theorem mem_items (d : Dict β) (hd : Proper F d) (p : List Key) (a : β) : (p, a) ∈ items d ↔ arrayAt d p = some a := by
  rw [arrayAt_leafAt, ← mem_paths F d hd, ← paths_items d hd, List.mem_map]
  constructor
  · intro h; exact ⟨_, h, rfl⟩
  · rintro ⟨e, he, h⟩
    have h1 : e.1 = p := congrArg Prod.fst h
    have h2 : Val.arr e.2 = Val.arr a := congrArg Prod.snd h
    cases h2
    rw [← h1]; exact he

theorem items_keys (d : Dict β) (hd : Proper F d) : (items d).map Prod.fst = (paths F false d).map Prod.fst := by
  rw [← paths_items d hd, List.map_map]; rfl

theorem items_nodup (d : Dict β) (hd : Proper F d) : ((items d).map Prod.fst).Nodup := by
  rw [items_keys d hd]; exact paths_nodup F false d hd

theorem items_named (d : Dict β) (hd : Proper F d) : ∀ e ∈ items d, Named e.1 := by
  intro e he
  have : e.1 ∈ (paths F false d).map Prod.fst := by rw [← items_keys d hd]; exact List.mem_map_of_mem he
  obtain ⟨x, hx, h⟩ := List.mem_map.mp this
  rw [← h]
  exact ⟨paths_ne_nil _ _ _ x hx, paths_no_sep _ _ _ hd x hx⟩

theorem arrayAt_prefix (d : Dict β) (p q : List Key) (a b : β) (h1 : arrayAt d p = some a) (h2 : arrayAt d q = some b)
    (h : p <+: q) : p = q :=
  leafAt_prefix F p d q _ _ ((arrayAt_leafAt p a d).1 h1) ((arrayAt_leafAt q b d).1 h2) h

theorem clean_all (d : Dict β) : Clean F (fun _ => False) d := by
  induction d with
  | nil => trivial
  | leaf k a r ih => exact ⟨not_false, ih⟩
  | sub k d r ih1 ih2 => exact ⟨not_false, Or.inr ih1, ih2⟩

theorem proper_set_F {d : Dict β} (hd : Proper F d) {k : Key} (hk : '/' ∉ k) (v : Val β)
    (hv : ∀ s, v = .dict s → Proper F s) : Proper F (d.set k v) := by
  have hc : ∀ r, k ∉ r.keys → Proper F r → Proper F (Dict.cons k v r) := by
    intro r h1 h2
    cases v with
    | arr a => exact ⟨hk, h1, h2⟩
    | dict s => exact ⟨hk, h1, Or.inr (hv s rfl), h2⟩
  induction d with
  | nil => exact hc .nil (by simp [Dict.keys]) trivial
  | leaf k' a r ih =>
    simp only [Dict.set]
    split_ifs with h
    · subst h; exact hc r hd.2.1 hd.2.2
    · refine ⟨hd.1, ?_, ih hd.2.2⟩
      rw [Dict.mem_keys_set]
      rintro (h' | h')
      · exact h h'
      · exact hd.2.1 h'
  | sub k' s r _ ih =>
    simp only [Dict.set]
    split_ifs with h
    · subst h; exact hc r hd.2.1 hd.2.2.2
    · refine ⟨hd.1, ?_, hd.2.2.1, ih hd.2.2.2⟩
      rw [Dict.mem_keys_set]
      rintro (h' | h')
      · exact h h'
      · exact hd.2.1 h'

theorem proper_get_F {d : Dict β} (hd : Proper F d) {k : Key} {s : Dict β} (h : d.get k = some (.dict s)) : Proper F s := by
  induction d with
  | nil => cases h
  | leaf k' a r ih =>
    simp only [Dict.get] at h
    split_ifs at h
    · cases h
    · exact ih hd.2.2 h
  | sub k' s' r _ ih =>
    simp only [Dict.get] at h
    split_ifs at h
    · cases h; exact hd.2.2.1.resolve_left (by simp)
    · exact ih hd.2.2.2 h

theorem ins_proper (p : List Key) : ∀ (d d' : Dict β) (a : β), ins d p (.arr a) = some d' →
    (∀ k ∈ p, '/' ∉ k) → Proper F d → Proper F d' := by
  induction p with
  | nil => intro d d' a h; cases h
  | cons k ks ih =>
    intro d d' a h hk hd
    have hk0 := hk k List.mem_cons_self
    match ks, ih with
    | [], _ =>
      simp only [ins, Option.some.injEq] at h
      subst h
      exact proper_set_F hd hk0 _ (by intro s h; cases h)
    | k2 :: ks, ih =>
      simp only [ins] at h
      have hks : ∀ k' ∈ k2 :: ks, '/' ∉ k' := fun k' h' => hk k' (List.mem_cons_of_mem _ h')
      cases hg : d.get k with
      | none =>
        rw [hg] at h
        obtain ⟨s, hs, rfl⟩ := Option.map_eq_some_iff.mp h
        refine proper_set_F hd hk0 _ ?_
        intro s' e; cases e
        exact ih _ _ _ hs hks trivial
      | some v =>
        rw [hg] at h
        cases v with
        | arr b => cases h
        | dict s0 =>
          obtain ⟨s, hs, rfl⟩ := Option.map_eq_some_iff.mp h
          refine proper_set_F hd hk0 _ ?_
          intro s' e; cases e
          exact ih _ _ _ hs hks (proper_get_F hd hg)

theorem unflattenPaths_proper (l : List (List Key × β)) : ∀ (d d' : Dict β),
    unflattenPaths d (l.map fun e => (e.1, Val.arr e.2)) = some d' → (∀ e ∈ l, ∀ k ∈ e.1, '/' ∉ k) → Proper F d → Proper F d' := by
  induction l with
  | nil => intro d d' h _ hd; simp only [List.map_nil, unflattenPaths, Option.some.injEq] at h; subst h; exact hd
  | cons x l ih =>
    intro d d' h hk hd
    simp only [List.map_cons, unflattenPaths] at h
    obtain ⟨d1, h1, h2⟩ := Option.bind_eq_some_iff.mp h
    exact ih d1 d' h2 (fun e he => hk e (List.mem_cons_of_mem _ he)) (ins_proper _ _ _ _ h1 (hk x List.mem_cons_self) hd)

/-- Unflattening a flat dict whose paths do not run through each other. -/
theorem unflat_spec (l : List (List Key × β)) (hn : (l.map Prod.fst).Nodup) (hk : ∀ e ∈ l, Named e.1)
    (hp : ∀ e ∈ l, ∀ e' ∈ l, e.1 <+: e'.1 → e.1 = e'.1) :
    ∃ r, unflat l = some r ∧ Proper F r ∧ ∀ p a, arrayAt r p = some a ↔ (p, a) ∈ l := by
  obtain ⟨r, h1, h2⟩ := unflattenPaths_spec F (fun _ => False) (by intro d h; cases h)
    (l.map fun e => (e.1, Val.arr e.2)) .nil
    (by
      intro e he
      obtain ⟨x, hx, rfl⟩ := List.mem_map.1 he
      exact (hk x hx).1)
    (by intro e he k _ h; exact h)
    (by
      intro e he
      obtain ⟨x, hx, rfl⟩ := List.mem_map.1 he
      trivial)
    (by
      unfold PrefixFree
      rw [List.pairwise_map]
      have hnd : l.Pairwise (fun a b => a.1 ≠ b.1) := List.pairwise_map.1 hn
      refine hnd.imp_of_mem ?_
      intro a b ha hb hab
      exact ⟨fun h => hab (hp a ha b hb h), fun h => hab (hp b hb a ha h).symm⟩)
    trivial
    (by
      intro q w hq
      match q with
      | [] => cases hq
      | [_] => cases hq
      | _ :: _ :: _ => cases hq)
  refine ⟨r, h1, unflattenPaths_proper l .nil r h1 (fun e he => (hk e he).2) trivial, ?_⟩
  intro p a
  rw [arrayAt_leafAt, h2]
  constructor
  · rintro (hq | h)
    · match p with
      | [] => cases hq
      | [_] => cases hq
      | _ :: _ :: _ => cases hq
    · obtain ⟨x, hx, e⟩ := List.mem_map.mp h
      have e1 : x.1 = p := congrArg Prod.fst e
      have e2 : Val.arr x.2 = Val.arr a := congrArg Prod.snd e
      cases e2
      rw [← e1]; exact hx
  · intro h
    exact Or.inr (List.mem_map.mpr ⟨_, h, rfl⟩)

theorem paths_relabel {γ : Type} (g : List Key → Val β → γ) (d : Dict β) : ∀ pre,
    paths F false (relabel F false (fun p v => Val.arr (g p v)) pre d) =
      (paths F false d).map (fun e => (e.1, Val.arr (g (pre ++ e.1) e.2))) := by
  induction d with
  | nil => intro pre; rfl
  | leaf k a r ih => intro pre; simp [relabel, Dict.cons, paths, ih]
  | sub k d r ih1 ih2 => intro pre; simp [relabel, Dict.cons, paths, ih1, ih2]

theorem proper_relabel {γ : Type} (g : List Key → Val β → γ) (d : Dict β) (hd : Proper F d) : ∀ pre,
    Proper F (relabel F false (fun p v => Val.arr (g p v)) pre d) := by
  induction d with
  | nil => intro pre; trivial
  | leaf k a r ih => intro pre; exact ⟨hd.1, by rw [keys_relabel]; exact hd.2.1, ih hd.2.2 pre⟩
  | sub k d r ih1 ih2 =>
    intro pre
    have h1 := ih1 (hd.2.2.1.resolve_left (by simp)) (pre ++ [k])
    simp only [relabel, Bool.false_eq_true, if_false, Bool.false_and, Dict.cons]
    exact ⟨hd.1, by rw [keys_relabel]; exact hd.2.1, Or.inr h1, ih2 hd.2.2.2 pre⟩

/-- `_tree_of_paths` has the joined path at every leaf. -/
theorem treeOfPaths_eq (d : Dict β) (hd : Proper F d) :
    ∃ t, treeOfPaths d = some t ∧ items t = (items d).map (fun e => (e.1, join e.1)) := by
  have hp := prune_proper d hd
  have h := unflattenPaths_relabel F false (fun p (_ : Val β) => Val.arr (join p)) (prune d) [] .nil
    (by simpa [Dict.keys] using distinct_keys F _ hp.1.distinct) hp.1.distinct (Or.inl hp.2)
  have hpr := proper_relabel (fun p (_ : Val β) => join p) (prune d) hp.1 []
  refine ⟨relabel F false (fun p (_ : Val β) => Val.arr (join p)) [] (prune d), ?_, ?_⟩
  · unfold treeOfPaths unflat
    rw [List.map_map]
    rw [prune_paths, ← paths_items d hd, List.map_map] at h
    exact h
  · have h1 := paths_items _ hpr
    rw [paths_relabel, prune_paths, ← paths_items d hd, List.map_map] at h1
    have hinj : Function.Injective (fun e : List Key × Key => (e.1, Val.arr e.2)) := by
      rintro ⟨a, b⟩ ⟨a', b'⟩ h
      simp only [Prod.mk.injEq, Val.arr.injEq] at h
      rw [h.1, h.2]
    apply hinj.list_map
    rw [h1, List.map_map]
    rfl

/-- The selected entries in the order of iteration. -/
def picked (focus : Key → Bool) (d : Dict β) : List (List Key × β) :=
  ((items d).insertionSort fun a b => a.1 ≤ b.1).filter fun e => focus ('/' :: join e.1)

theorem zip_iterate (focus : Key → Bool) (d : Dict β) (hd : Proper F d) : ∃ t, treeOfPaths d = some t ∧
    List.zip (iterate focus t) (iterate focus d) = (picked focus d).map (fun e => (join e.1, e.2)) := by
  obtain ⟨t, h1, h2⟩ := treeOfPaths_eq d hd
  refine ⟨t, h1, ?_⟩
  have h3 : iterate focus t = (picked focus d).map (fun e => join e.1) := by
    unfold iterate picked
    rw [h2, ← List.map_insertionSort (r := fun a b : List Key × β => a.1 ≤ b.1) (s := fun a b : List Key × Key => a.1 ≤ b.1)
      (fun e => (e.1, join e.1)), List.filter_map, List.map_map]
    · rfl
    · intro a _ b _; exact Iff.rfl
  rw [h3]
  unfold iterate
  rw [show ((items d).insertionSort fun a b => a.1 ≤ b.1).filter (fun e => focus ('/' :: join e.1)) = picked focus d from rfl]
  rw [List.zip_map']

theorem mem_picked (focus : Key → Bool) (d : Dict β) (hd : Proper F d) (p : List Key) (a : β) :
    (p, a) ∈ picked focus d ↔ arrayAt d p = some a ∧ focus ('/' :: join p) = true := by
  unfold picked
  rw [List.mem_filter, List.mem_insertionSort, mem_items d hd]

theorem picked_nodup (focus : Key → Bool) (d : Dict β) (hd : Proper F d) : ((picked focus d).map Prod.fst).Nodup := by
  refine List.Nodup.sublist (List.filter_sublist.map _) ?_
  exact ((List.perm_insertionSort _ _).map Prod.fst).nodup_iff.mpr (items_nodup d hd)

theorem picked_named (focus : Key → Bool) (d : Dict β) (hd : Proper F d) : ∀ e ∈ picked focus d, Named e.1 := by
  intro e he
  exact items_named d hd e (List.mem_insertionSort _ |>.mp (List.mem_filter.mp he).1)

theorem joined_nodup (l : List (List Key × β)) (hn : (l.map Prod.fst).Nodup) (hk : ∀ e ∈ l, Named e.1) :
    PyDict.WF (l.map fun e => (join e.1, e.2)) := by
  unfold PyDict.WF PyDict.keys
  rw [List.map_map]
  have h2 : l.map (Prod.fst ∘ fun e => (join e.1, e.2)) = (l.map Prod.fst).map join := by simp [Function.comp_def]
  rw [h2]
  refine List.Nodup.map_on ?_ hn
  intro x hx y hy hxy
  obtain ⟨e, he, rfl⟩ := List.mem_map.1 hx
  obtain ⟨e', he', rfl⟩ := List.mem_map.1 hy
  exact join_inj _ _ (hk e he).1 (hk e' he').1 (hk e he).2 (hk e' he').2 hxy

theorem update_nil (l : List (Key × β)) (h : PyDict.WF l) : PyDict.update [] l = l := by
  have key : ∀ (l acc : List (Key × β)), (PyDict.keys acc ++ PyDict.keys l).Nodup → PyDict.update acc l = acc ++ l := by
    intro l
    induction l with
    | nil => intro acc _; simp [PyDict.update]
    | cons x l ih =>
      intro acc hn
      have hx : x.1 ∉ PyDict.keys acc := by
        intro hm
        exact (List.nodup_append.mp hn).2.2 x.1 hm x.1 (by simp [PyDict.keys]) rfl
      have : PyDict.update acc (x :: l) = PyDict.update (PyDict.set acc x.1 x.2) l := rfl
      rw [this, PyDict.set_append_of_not_mem acc _ _ hx, ih]
      · simp
      · simpa [PyDict.keys] using hn
  simpa using key l [] (by simpa [PyDict.keys, PyDict.WF] using h)

theorem split_joined (l : List (List Key × β)) (hk : ∀ e ∈ l, Named e.1) :
    ((l.map fun e => (join e.1, e.2)).map fun e => (split e.1, e.2)) = l := by
  rw [List.map_map]
  conv_rhs => rw [← List.map_id l]
  apply List.map_congr_left
  intro e he
  simp only [Function.comp_def, id_eq]
  rw [split_join e.1 (hk e he).1 (hk e he).2]

/-- `_subtree_from_traversal` keeps exactly the selected leaves. -/
theorem subtree_spec (focus : Key → Bool) (d : Dict β) (hd : Proper F d) :
    ∃ s, subtree focus d = some s ∧ Proper F s ∧
      ∀ p a, arrayAt s p = some a ↔ arrayAt d p = some a ∧ focus ('/' :: join p) = true := by
  obtain ⟨t, h1, h2⟩ := zip_iterate focus d hd
  have hn := picked_nodup focus d hd
  have hk := picked_named focus d hd
  obtain ⟨s, h3, h4, h5⟩ := unflat_spec (picked focus d) hn hk (by
    rintro ⟨p, a⟩ he ⟨q, b⟩ he' hpre
    exact arrayAt_prefix d p q a b ((mem_picked focus d hd p a).1 he).1 ((mem_picked focus d hd q b).1 he').1 hpre)
  refine ⟨s, ?_, h4, fun p a => (h5 p a).trans (mem_picked focus d hd p a)⟩
  unfold subtree
  rw [h1]
  dsimp only
  rw [h2, update_nil _ (joined_nodup _ hn hk), split_joined _ hk, h3]

theorem get_joined (l : List (List Key × β)) (hn : (l.map Prod.fst).Nodup) (hk : ∀ e ∈ l, Named e.1) (p : List Key) (hp : Named p) (a : β) :
    PyDict.get (l.map fun e => (join e.1, e.2)) (join p) = some a ↔ (p, a) ∈ l := by
  rw [PyDict.get_iff_mem _ (joined_nodup l hn hk), List.mem_map]
  constructor
  · rintro ⟨e, he, h⟩
    have e1 := join_inj _ _ (hk e he).1 hp.1 (hk e he).2 hp.2 (congrArg Prod.fst h)
    have e2 : e.2 = a := congrArg Prod.snd h
    rw [← e1, ← e2]; exact he
  · intro h; exact ⟨_, h, rfl⟩

/-- `_update_subtree_of_traversal` overwrites exactly the selected leaves. -/
theorem updateSubtree_spec (focus : Key → Bool) (tree upd : Dict β) (ht : Proper F tree) (hu : Proper F upd)
    (hsub : ∀ p, focus ('/' :: join p) = true → arrayAt upd p ≠ none → arrayAt tree p ≠ none) :
    ∃ s, updateSubtree focus tree upd = some s ∧ Proper F s ∧
      ∀ p, arrayAt s p = if focus ('/' :: join p) = true then (arrayAt upd p).or (arrayAt tree p) else arrayAt tree p := by
  obtain ⟨t, h1, h2⟩ := zip_iterate focus upd hu
  have hn := picked_nodup focus upd hu
  have hk := picked_named focus upd hu
  have hn' := items_nodup tree ht
  have hk' := items_named tree ht
  have hw := joined_nodup _ hn hk
  have hw' := joined_nodup _ hn' hk'
  let M := PyDict.update ((items tree).map fun e => (join e.1, e.2)) ((picked focus upd).map fun e => (join e.1, e.2))
  have hM : PyDict.WF M := PyDict.wf_update _ _ hw'
  have hget : ∀ k, PyDict.get M k = (PyDict.get ((picked focus upd).map fun e => (join e.1, e.2)) k).or
      (PyDict.get ((items tree).map fun e => (join e.1, e.2)) k) := fun k => PyDict.get_update _ _ hw k
  have hgp : ∀ p, Named p → PyDict.get ((picked focus upd).map fun e => (join e.1, e.2)) (join p) =
      if focus ('/' :: join p) = true then arrayAt upd p else none := by
    intro p hp
    apply Option.ext
    intro a
    rw [get_joined _ hn hk p hp, mem_picked focus upd hu]
    split_ifs with hf <;> simp [hf]
  have hgi : ∀ p, Named p → PyDict.get ((items tree).map fun e => (join e.1, e.2)) (join p) = arrayAt tree p := by
    intro p hp
    apply Option.ext
    intro a
    rw [get_joined _ hn' hk' p hp, mem_items tree ht]
  have hnamed : ∀ (d : Dict β), Proper F d → ∀ p, arrayAt d p ≠ none → Named p := by
    intro d hd p h
    obtain ⟨a, ha⟩ := Option.ne_none_iff_exists'.mp h
    exact items_named d hd _ ((mem_items d hd p a).2 ha)
  -- every key of the merged dict is the name of a leaf of the tree
  have hkey : ∀ e ∈ M, ∃ p, Named p ∧ e.1 = join p ∧ arrayAt tree p ≠ none := by
    intro e he
    have hg := PyDict.get_of_mem M hM e.1 e.2 he
    rw [hget] at hg
    cases hg1 : PyDict.get ((picked focus upd).map fun e => (join e.1, e.2)) e.1 with
    | some a =>
      have hm := PyDict.mem_of_get _ _ _ hg1
      obtain ⟨x, hx, hxe⟩ := List.mem_map.mp hm
      have e1 : join x.1 = e.1 := congrArg Prod.fst hxe
      have hx' := (mem_picked focus upd hu x.1 x.2).1 hx
      exact ⟨x.1, hk x hx, e1.symm, hsub x.1 hx'.2 (by rw [hx'.1]; simp)⟩
    | none =>
      rw [hg1] at hg
      have hm := PyDict.mem_of_get _ _ _ (show PyDict.get _ e.1 = some e.2 from hg)
      obtain ⟨x, hx, hxe⟩ := List.mem_map.mp hm
      have e1 : join x.1 = e.1 := congrArg Prod.fst hxe
      exact ⟨x.1, hk' x hx, e1.symm, by rw [(mem_items tree ht x.1 x.2).1 hx]; simp⟩
  have hsplit : ∀ e ∈ M, Named (split e.1) ∧ e.1 = join (split e.1) ∧ arrayAt tree (split e.1) ≠ none := by
    intro e he
    obtain ⟨p, hp, hj, ha⟩ := hkey e he
    rw [hj, split_join p hp.1 hp.2]
    exact ⟨hp, rfl, ha⟩
  obtain ⟨s, h3, h4, h5⟩ := unflat_spec (M.map fun e => (split e.1, e.2))
    (by
      rw [List.map_map]
      have : M.map (Prod.fst ∘ fun e => (split e.1, e.2)) = (PyDict.keys M).map split := by
        unfold PyDict.keys; rw [List.map_map]; rfl
      rw [this]
      refine List.Nodup.map_on ?_ hM
      intro x hx y hy hxy
      obtain ⟨e, he, rfl⟩ := List.mem_map.1 hx
      obtain ⟨e', he', rfl⟩ := List.mem_map.1 hy
      rw [(hsplit e he).2.1, (hsplit e' he').2.1, hxy])
    (by
      intro e he
      obtain ⟨x, hx, rfl⟩ := List.mem_map.mp he
      exact (hsplit x hx).1)
    (by
      intro e he e' he' hpre
      obtain ⟨x, hx, rfl⟩ := List.mem_map.mp he
      obtain ⟨y, hy, rfl⟩ := List.mem_map.mp he'
      obtain ⟨a, ha⟩ := Option.ne_none_iff_exists'.mp (hsplit x hx).2.2
      obtain ⟨b, hb⟩ := Option.ne_none_iff_exists'.mp (hsplit y hy).2.2
      exact arrayAt_prefix tree _ _ a b ha hb hpre)
  refine ⟨s, ?_, h4, ?_⟩
  · unfold updateSubtree
    rw [h1]
    dsimp only
    rw [h2, update_nil _ hw']
    exact h3
  · intro p
    by_cases hp : Named p
    · have hsp : arrayAt s p = PyDict.get M (join p) := by
        apply Option.ext
        intro a
        rw [h5, List.mem_map, PyDict.get_iff_mem M hM]
        constructor
        · rintro ⟨e, he, hee⟩
          have e1 : split e.1 = p := congrArg Prod.fst hee
          have e2 : e.2 = a := congrArg Prod.snd hee
          rw [← e1, ← (hsplit e he).2.1, ← e2]; exact he
        · intro h
          exact ⟨_, h, by simp only; rw [split_join p hp.1 hp.2]⟩
      rw [hsp, hget, hgp p hp, hgi p hp]
      split_ifs <;> simp
    · have hs : arrayAt s p = none := by
        by_contra h
        exact hp (hnamed s h4 p h)
      have h1 : arrayAt tree p = none := by
        by_contra h
        exact hp (hnamed tree ht p h)
      have h2 : arrayAt upd p = none := by
        by_contra h
        exact hp (hnamed upd hu p h)
      rw [hs, h1, h2]
      simp

theorem treeMap_keys {γ : Type} (f : β → γ) (d : Dict β) : (treeMap f d).keys = d.keys := by
  induction d with
  | nil => rfl
  | leaf k a r ih => simp [treeMap, Dict.keys, ih]
  | sub k d r _ ih => simp [treeMap, Dict.keys, ih]

theorem treeMap_proper {γ : Type} (f : β → γ) (d : Dict β) (hd : Proper F d) : Proper F (treeMap f d) := by
  induction d with
  | nil => trivial
  | leaf k a r ih => exact ⟨hd.1, by rw [treeMap_keys]; exact hd.2.1, ih hd.2.2⟩
  | sub k d r ih1 ih2 =>
    exact ⟨hd.1, by rw [treeMap_keys]; exact hd.2.1, Or.inr (ih1 (hd.2.2.1.resolve_left (by simp))), ih2 hd.2.2.2⟩

theorem treeMap_get {γ : Type} (f : β → γ) (d : Dict β) (k : Key) : (treeMap f d).get k = (d.get k).map fun v =>
    match v with
    | .arr a => .arr (f a)
    | .dict e => .dict (treeMap f e) := by
  induction d with
  | nil => rfl
  | leaf k' a r ih => simp only [treeMap, Dict.get]; split_ifs <;> simp [ih]
  | sub k' d r _ ih => simp only [treeMap, Dict.get]; split_ifs <;> simp [ih]

theorem arrayAt_treeMap {γ : Type} (f : β → γ) (p : List Key) : ∀ d : Dict β, arrayAt (treeMap f d) p = (arrayAt d p).map f := by
  induction p with
  | nil => intro d; rfl
  | cons k ks ih =>
    intro d
    match ks, ih with
    | [], _ =>
      simp only [arrayAt, treeMap_get]
      cases d.get k with
      | none => rfl
      | some v => cases v <;> rfl
    | k2 :: ks, ih =>
      simp only [arrayAt, treeMap_get]
      cases d.get k with
      | none => rfl
      | some v =>
        cases v with
        | arr a => rfl
        | dict e => simpa using ih e

end Trees
end Verif.MultiOpt
