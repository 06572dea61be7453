import Verif.Model.Beam
import Verif.Props.TopK
/-
Lemmas about one step of beam search.
-/
namespace Verif.Beam
open Verif.TopK Verif.TopK.Spec

variable {K : Type} [Field K] [LinearOrder K]

section gather
variable {A : Type} (items : List A) (key : A → K) (k : ℕ)

omit [Field K] in
theorem filterMap_get (l : List ℕ) (h : ∀ i ∈ l, i < items.length) :
    l.filterMap (fun i => items[i]?) = l.pmap (fun i hi => items[i]'hi) h := by
  induction l with
  | nil => rfl
  | cons i l ih =>
    have hi := h i (List.mem_cons_self ..)
    rw [List.filterMap_cons, List.getElem?_eq_getElem hi, List.pmap_cons]
    dsimp only
    rw [ih (fun j hj => h j (List.mem_cons_of_mem _ hj))]

omit [Field K] in
theorem gatherTop_eq : gatherTop items key k =
    ((topK (items.map key) k).map (·.2)).reverse.filterMap (fun i => items[i]?) := by
  unfold gatherTop
  rw [← List.map_reverse, List.filterMap_map]
  rfl

omit [Field K] in
theorem idx_lt : ∀ i ∈ ((topK (items.map key) k).map (·.2)).reverse, i < items.length := by
  intro i hi
  rw [List.mem_reverse] at hi
  obtain ⟨e, he, rfl⟩ := List.mem_map.1 hi
  have := (topK_isTopK (items.map key) k).select e he
  have := (List.getElem?_eq_some_iff.1 this).1
  simpa using this

omit [Field K] in
theorem gatherTop_pmap : gatherTop items key k =
    ((topK (items.map key) k).map (·.2)).reverse.pmap (fun i hi => items[i]'hi) (idx_lt items key k) := by
  rw [gatherTop_eq, filterMap_get]

omit [Field K] in
theorem gatherTop_length : (gatherTop items key k).length = min k items.length := by
  rw [gatherTop_pmap, List.length_pmap, List.length_reverse, List.length_map,
    (topK_isTopK (items.map key) k).length, List.length_map]

omit [Field K] in
theorem gatherTop_mem {x : A} (h : x ∈ gatherTop items key k) : x ∈ items := by
  rw [gatherTop_eq] at h
  obtain ⟨i, _, hi⟩ := List.mem_filterMap.1 h
  exact List.mem_of_getElem? hi

omit [Field K] in
/-- The result is ascending. -/
theorem gatherTop_sorted : (gatherTop items key k).Pairwise (fun a b => key a ≤ key b) := by
  rw [gatherTop_pmap]
  have hs := (topK_isTopK (items.map key) k).sorted
  have hsel := (topK_isTopK (items.map key) k).select
  rw [List.pairwise_pmap, List.pairwise_reverse, List.pairwise_map]
  refine hs.imp_of_mem ?_
  intro a b ha hb hab h1 h2
  have e1 := hsel a ha
  have e2 := hsel b hb
  rw [List.getElem?_map] at e1 e2
  rw [List.getElem?_eq_getElem h2] at e1
  rw [List.getElem?_eq_getElem h1] at e2
  simp only [Option.map_some, Option.some.injEq] at e1 e2
  rw [e1, e2]
  exact hab

omit [Field K] in
/-- Each result comes from its own index, so pairwise facts about items carry over (for symmetric relations). -/
theorem gatherTop_pairwise {R : A → A → Prop} (hsymm : ∀ a b, R a b → R b a) (h : items.Pairwise R) :
    (gatherTop items key k).Pairwise R := by
  rw [gatherTop_pmap, List.pairwise_pmap]
  have hn : ((topK (items.map key) k).map (·.2)).reverse.Nodup :=
    List.nodup_reverse.2 (topK_isTopK (items.map key) k).distinct
  refine hn.imp ?_
  intro i j hij hi hj
  rcases Nat.lt_or_gt_of_ne hij with h' | h'
  · exact List.pairwise_iff_getElem.1 h i j hi hj h'
  · exact hsymm _ _ (List.pairwise_iff_getElem.1 h j i hj hi h')

omit [Field K] in
/-- If the first k items all beat the rest, they are the ones kept. -/
theorem gatherTop_stable (old new : List A) (hk : old.length = k)
    (h : ∀ o ∈ old, ∀ n ∈ new, key n < key o) : (gatherTop (old ++ new) key k).Perm old := by
  have T := topK_isTopK ((old ++ new).map key) k
  set res := topK ((old ++ new).map key) k with hres
  have hlen : (res.map (·.2)).length = k := by
    rw [List.length_map, T.length]; simp; omega
  have hall : ∀ i ∈ res.map (·.2), i < k := by
    intro i hi
    by_contra hik
    obtain ⟨e, he, rfl⟩ := List.mem_map.1 hi
    -- some old index is missing
    have : ∃ j, j < k ∧ j ∉ res.map (·.2) := by
      by_contra hno
      push_neg at hno
      have hsub : (List.range k) ⊆ (res.map (·.2)).erase e.2 := by
        intro j hj
        have hj := List.mem_range.1 hj
        rw [List.Nodup.mem_erase_iff T.distinct]
        exact ⟨by omega, hno j hj⟩
      have := (List.subperm_of_subset List.nodup_range hsub).length_le
      rw [List.length_range, List.length_erase_of_mem (List.mem_map.2 ⟨e, he, rfl⟩), hlen] at this
      have : 0 < k := by
        rw [← hlen]; exact List.length_pos_of_mem (List.mem_map.2 ⟨e, he, rfl⟩)
      omega
    obtain ⟨j, hj, hnj⟩ := this
    have hjo : ((old ++ new).map key)[j]? = some (key (old[j]'(by omega))) := by
      rw [List.getElem?_map, List.getElem?_append_left (by omega), List.getElem?_eq_getElem (by omega)]
      rfl
    have hle := T.largest j _ hjo hnj e he
    have hsel := T.select e he
    rw [List.getElem?_map, List.getElem?_append_right (by omega)] at hsel
    obtain ⟨n, hn, hne⟩ := Option.map_eq_some_iff.1 hsel
    have := h (old[j]'(by omega)) (List.getElem_mem _) n (List.mem_of_getElem? hn)
    rw [hne] at this
    exact absurd (lt_of_lt_of_le this hle) (lt_irrefl _)
  have hperm : (res.map (·.2)).reverse.Perm (List.range k) := by
    refine (List.reverse_perm _).trans ?_
    have hs : (res.map (·.2)) ⊆ List.range k := fun i hi => List.mem_range.2 (hall i hi)
    exact (List.subperm_of_subset T.distinct hs).perm_of_length_le (by simp only [List.length_range]; omega)
  rw [gatherTop_eq, ← hres]
  refine (hperm.filterMap _).trans ?_
  have : (List.range k).filterMap (fun i => (old ++ new)[i]?) = old := by
    rw [filterMap_get _ _ (by intro i hi; have := List.mem_range.1 hi; simp; omega)]
    apply List.ext_getElem
    · simp [hk]
    · intro i h1 h2
      simp only [List.getElem_pmap, List.getElem_range]
      rw [List.getElem_append_left h2]
  rw [this]

omit [Field K] in
/-- Items left out are no larger than any item kept. -/
theorem gatherTop_best (x : A) (hx : x ∈ items) : x ∈ gatherTop items key k ∨
    ∀ y ∈ gatherTop items key k, key x ≤ key y := by
  obtain ⟨i, hi, rfl⟩ := List.mem_iff_getElem.1 hx
  have T := topK_isTopK (items.map key) k
  by_cases hm : i ∈ (topK (items.map key) k).map (·.2)
  · left
    rw [gatherTop_eq]
    exact List.mem_filterMap.2 ⟨i, List.mem_reverse.2 hm, List.getElem?_eq_getElem hi⟩
  · right
    intro y hy
    rw [gatherTop_eq] at hy
    obtain ⟨j, hj, hy⟩ := List.mem_filterMap.1 hy
    obtain ⟨e, he, rfl⟩ := List.mem_map.1 (List.mem_reverse.1 hj)
    have := T.largest i (key items[i]) (by rw [List.getElem?_map, List.getElem?_eq_getElem hi]; rfl) hm e he
    have hs := T.select e he
    rw [List.getElem?_map, hy] at hs
    simp only [Option.map_some, Option.some.injEq] at hs
    rw [hs]; exact this
end gather

section flat
variable (live : List (K × List ℕ)) (logp : List (List K))

omit [LinearOrder K] in
theorem flat_get (V : ℕ) (hV : 0 < V) (hl : ∀ v ∈ logp, v.length = V) (i : ℕ) (x : K)
    (h : (flatLogProbs live logp)[i]? = some x) :
    ∃ l lv y, live[i / V]? = some l ∧ logp[i / V]? = some lv ∧ lv[i % V]? = some y ∧ x = y + l.1 := by
  unfold flatLogProbs at h
  induction live generalizing logp i with
  | nil => simp at h
  | cons l ls ih =>
    cases logp with
    | nil => simp at h
    | cons v vs =>
      have hv := hl v (List.mem_cons_self ..)
      rw [List.zipWith_cons_cons, List.flatten_cons] at h
      by_cases hi : i < V
      · rw [List.getElem?_append_left (by simp [hv, hi]), List.getElem?_map] at h
        obtain ⟨y, hy, rfl⟩ := Option.map_eq_some_iff.1 h
        refine ⟨l, v, y, ?_, ?_, ?_, rfl⟩
        · rw [Nat.div_eq_of_lt hi]; rfl
        · rw [Nat.div_eq_of_lt hi]; rfl
        · rw [Nat.mod_eq_of_lt hi]; exact hy
      · rw [List.getElem?_append_right (by simp [hv]; omega)] at h
        simp only [List.length_map, hv] at h
        obtain ⟨l', lv, y, h1, h2, h3, h4⟩ := ih vs (fun w hw => hl w (List.mem_cons_of_mem _ hw)) (i - V) h
        have e1 : i / V = (i - V) / V + 1 := by
          rw [Nat.div_eq_sub_div hV (by omega)]
        have e2 : i % V = (i - V) % V := by rw [Nat.mod_eq_sub_mod (by omega)]
        refine ⟨l', lv, y, ?_, ?_, ?_, h4⟩
        · rw [e1, List.getElem?_cons_succ]; exact h1
        · rw [e1, List.getElem?_cons_succ]; exact h2
        · rw [e2]; exact h3

omit [LinearOrder K] in
theorem flat_length (V : ℕ) (hl : ∀ v ∈ logp, v.length = V) (hk : live.length = logp.length) :
    (flatLogProbs live logp).length = live.length * V := by
  unfold flatLogProbs
  induction live generalizing logp with
  | nil => simp
  | cons l ls ih =>
    cases logp with
    | nil => simp at hk
    | cons v vs =>
      rw [List.zipWith_cons_cons, List.flatten_cons, List.length_append,
        ih vs (fun w hw => hl w (List.mem_cons_of_mem _ hw)) (by simpa using hk)]
      simp [hl v (List.mem_cons_self ..)]
      ring
end flat

end Verif.Beam
