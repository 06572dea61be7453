import Verif.Lemmas.NamedTree
namespace Verif.NamedTree
open Spec
variable {β : Type}

/-- The pairs of names and values are, in jax's order, the leaves with their path names. -/
theorem flattenWithNames_ok {t : PTree β} (hg : Good t) (hne : flatten t ≠ []) :
    ∃ (tok : PTree Nat) (N : Nat → Key),
      unflatten t (List.range (flatten t).length) = some tok ∧
      (∀ path j, (∀ k ∈ path, GoodKey k) → look tok path = some (.leaf j) → N j = name path) ∧
      flattenWithNames t = .ok (List.zipWith (fun j v => (N j, v)) (List.range (flatten t).length) (flatten t)) := by
  obtain ⟨tok, h1, h2⟩ := unflatten_flatten t (List.range (flatten t).length) (by simp)
  have hperm := traverse_perm tok
  rw [h2] at hperm
  have hlen : ((traverse tok).map Prod.snd).length = (flatten t).length := by
    rw [hperm.length_eq, List.length_range]
  have hlen' : (traverse tok).length = (flatten t).length := by rw [← hlen, List.length_map]
  have hp0 : ((traverse tok).map Prod.snd).Perm (List.range ((traverse tok).map Prod.snd).length) := by rw [hlen]; exact hperm
  obtain ⟨hinv, hinvl⟩ := argsort_inverse hp0
  rw [hlen] at hinv hinvl
  have hlt : ∀ i ∈ argsort ((traverse tok).map Prod.snd), i < (traverse tok).length := by
    intro i hi
    have := (List.perm_insertionSort _ _ : (argsort ((traverse tok).map Prod.snd)).Perm _).mem_iff.mp hi
    rw [List.mem_range, List.length_map] at this
    exact this
  refine ⟨tok, fun j => ((traverse tok).map Prod.fst).getD ((argsort ((traverse tok).map Prod.snd)).getD j 0) [], h1, ?_, ?_⟩
  · intro path j hk hl
    have hmem := traverse_name tok path j hk hl
    have hj : j < (flatten t).length := by
      have := hperm.mem_iff.mp (List.mem_map.mpr ⟨_, hmem, rfl⟩)
      simpa using this
    have hja : j < (argsort ((traverse tok).map Prod.snd)).length := by omega
    obtain ⟨q, hq, hqe⟩ := List.getElem_of_mem hmem
    have hi := hlt _ (List.getElem_mem hja)
    -- the entry of `argsort` at `j` is the position of token `j`
    have e1 : ((traverse tok).map Prod.snd)[(argsort ((traverse tok).map Prod.snd))[j]]'(by rw [List.length_map]; exact hi) = j := by
      have := congrArg (fun l => l.getD j 0) hinv
      simp only [List.getD_eq_getElem?_getD, List.getElem?_map] at this
      rw [List.getElem?_eq_getElem hja, List.getElem?_range hj] at this
      simp only [Option.map_some, Option.getD_some] at this
      rw [List.getElem?_eq_getElem hi] at this
      simpa using this
    have e2 : ((traverse tok).map Prod.snd)[q]'(by rw [List.length_map]; exact hq) = j := by simp [hqe]
    have hnd : ((traverse tok).map Prod.snd).Nodup := hperm.nodup_iff.mpr List.nodup_range
    have hqi : (argsort ((traverse tok).map Prod.snd))[j] = q :=
      (List.Nodup.getElem_inj_iff hnd).mp (by rw [e1, e2])
    dsimp only
    rw [List.getD_eq_getElem?_getD, List.getD_eq_getElem?_getD, List.getElem?_eq_getElem hja]
    simp only [Option.getD_some, hqi]
    rw [List.getElem?_eq_getElem (by rw [List.length_map]; exact hq)]
    simp [hqe]
  · unfold flattenWithNames
    dsimp only
    rw [h1]
    dsimp only
    have hpne : traverse tok ≠ [] := by
      intro e
      rw [e] at hlen'
      exact hne (List.length_eq_zero_iff.mp hlen'.symm)
    rw [if_neg hpne, if_neg (by rw [List.length_map]; omega)]
    congr 1
    apply List.ext_getElem
    · simp [hinvl]
    · intro i h3 h4
      have hi : i < (flatten t).length := by simp at h4; omega
      simp only [List.getElem_zipWith, List.getElem_range]
      have ha : (argsort ((traverse tok).map Prod.snd)).getD i 0 =
          (argsort ((traverse tok).map Prod.snd))[i]'(by omega) := by
        rw [List.getD_eq_getElem?_getD, List.getElem?_eq_getElem (by omega)]; rfl
      rw [ha]

/-- A tree with a leaf flattens to a nonempty list. -/
theorem flatten_ne {t : PTree β} (hg : Good t) (h : ∃ path v, look t path = some (.leaf v)) : flatten t ≠ [] := by
  obtain ⟨path, v, h⟩ := h
  have := traverse_name t path v (good_path t hg path _ h) h
  have := (traverse_perm t).mem_iff.mp (List.mem_map.mpr ⟨_, this, rfl⟩)
  intro e
  rw [e] at this
  cases this

/-- Common part of `tree_map_with_names` and `scale_sharded_grads`. -/
theorem mapped {t : PTree β} (hg : Good t) (hl : ∃ path v, look t path = some (.leaf v)) (f : β → β) (m : Key → Bool) :
    ∃ nv r, flattenWithNames t = .ok nv ∧ unflatten t (nv.map (fun p => if m p.1 then f p.2 else p.2)) = some r ∧
      ∀ path, (look r path).map view = (look t path).map (fun s => mapView f m path (view s)) := by
  have hne := flatten_ne hg hl
  obtain ⟨tok, N, h1, h2, h3⟩ := flattenWithNames_ok hg hne
  obtain ⟨d, hd⟩ := List.exists_mem_of_ne_nil _ hne
  have hvals : flatten t = (List.range (flatten t).length).map (fun j => (flatten t).getD j d) := by
    apply List.ext_getElem
    · simp
    · intro i h1 h2
      simp [h1]
  have hmap : (List.zipWith (fun j v => (N j, v)) (List.range (flatten t).length) (flatten t)).map
      (fun p => if m p.1 then f p.2 else p.2) =
      (List.range (flatten t).length).map
        (fun j => if m (N j) then f ((flatten t).getD j d) else (flatten t).getD j d) := by
    apply List.ext_getElem
    · simp
    · intro i h1 h2
      have hi : i < (flatten t).length := by simpa using h2
      simp [hi]
  obtain ⟨c, hc1, hc2⟩ := unflatten_self t hg
  have hc : c = mapT (fun j => (flatten t).getD j d) tok := by
    have := unflatten_map (fun j => (flatten t).getD j d) t (List.range (flatten t).length)
    rw [← hvals, hc1, h1] at this
    simpa using this
  refine ⟨_, mapT (fun j => if m (N j) then f ((flatten t).getD j d) else (flatten t).getD j d) tok, h3, ?_, ?_⟩
  · rw [hmap, unflatten_map, h1]
    rfl
  · intro path
    have hv := hc2 path
    rw [hc, look_map] at hv
    rw [look_map]
    cases e : look t path with
    | none =>
      rw [e] at hv
      cases e2 : look tok path with
      | none => rfl
      | some s => rw [e2] at hv; cases hv
    | some s =>
      rw [e] at hv
      cases e2 : look tok path with
      | none => rw [e2] at hv; cases hv
      | some s' =>
        rw [e2] at hv
        simp only [Option.map_some, Option.some.injEq] at hv ⊢
        rw [← hv]
        cases s' with
        | node dc cs => rfl
        | leaf j =>
          have := h2 path j (good_path t hg path s e) e2
          simp only [mapT, view, mapView, this]

/-- **C50** (named map).  On every tree of dicts and dataclasses that has a leaf, `tree_map_with_names` returns a tree with the
same paths and node kinds, in which a leaf is `f` of the old leaf if its own path name matches and the old leaf otherwise. -/
theorem C50_map (f : β → β) (m : Key → Bool) (t : PTree β) (hg : Good t) (hl : ∃ path v, look t path = some (.leaf v)) :
    ∃ r, treeMapWithNames f t m = .ok r ∧
      ∀ path, (look r path).map view = (look t path).map (fun s => mapView f m path (view s)) := by
  obtain ⟨nv, r, h1, h2, h3⟩ := mapped hg hl f m
  refine ⟨r, ?_, h3⟩
  unfold treeMapWithNames
  rw [h1]
  dsimp only
  rw [h2]

/-- **C50** (gradients).  `scale_sharded_grads` scales exactly the gradients whose path name matches; without a match function it
returns the gradients unchanged, with `match_fn(None)` or `match_fn('')` no gradient is scaled, and with `match_fn(prefix)`, for a prefix
without special characters, those whose path name starts with it. -/
theorem C50_scale (scale : β → β) (m : Key → Bool) (t : PTree β) (hg : Good t) (hl : ∃ path v, look t path = some (.leaf v))
    (regex : Key → Key → Bool) :
    (∃ r, scaleShardedGrads t (some m) scale = .ok r ∧
      ∀ path, (look r path).map view = (look t path).map (fun s => mapView scale m path (view s))) ∧
    scaleShardedGrads t none scale = .ok t ∧
    (∀ pre, pre = none ∨ pre = some [] → ∃ r, scaleShardedGrads t (some (matchFn regex pre)) scale = .ok r ∧
      ∀ path, (look r path).map view = (look t path).map view) ∧
    (∀ pre, pre ≠ [] → (∀ n, regex ('^' :: pre) n = pre.isPrefixOf n) → ∃ r, scaleShardedGrads t (some (matchFn regex (some pre))) scale = .ok r ∧
      ∀ path, (look r path).map view = (look t path).map (fun s => mapView scale (fun n => pre.isPrefixOf n) path (view s))) := by
  have main : ∀ m : Key → Bool, ∃ r, scaleShardedGrads t (some m) scale = .ok r ∧
      ∀ path, (look r path).map view = (look t path).map (fun s => mapView scale m path (view s)) := by
    intro m
    obtain ⟨nv, r, h1, h2, h3⟩ := mapped hg hl scale m
    refine ⟨r, ?_, h3⟩
    unfold scaleShardedGrads
    dsimp only
    rw [h1]
    dsimp only
    rw [h2]
  refine ⟨main m, rfl, ?_, ?_⟩
  swap
  · intro pre hne hre
    have hm : matchFn regex (some pre) = fun n => pre.isPrefixOf n := by
      funext n
      cases pre with
      | nil => exact absurd rfl hne
      | cons c pre => exact hre n
    rw [hm]
    exact main _
  intro pre hpre
  obtain ⟨r, h1, h2⟩ := main (matchFn regex pre)
  refine ⟨r, h1, fun path => ?_⟩
  rw [h2]
  have hf : matchFn regex pre (name path) = false := by rcases hpre with rfl | rfl <;> rfl
  cases look t path with
  | none => rfl
  | some s => cases s <;> simp [mapView, view, hf]

/-- **C50** (limit).  On a tree without leaves, such as an empty dict, both functions raise (the names and the permutation are
unpacked from `zip(*())`). -/
theorem C50_no_leaves (f : β → β) (m : Key → Bool) (t : PTree β) (h : flatten t = []) :
    treeMapWithNames f t m = .error .unpack ∧ scaleShardedGrads t (some m) f = .error .unpack := by
  obtain ⟨tok, h1, h2⟩ := unflatten_flatten t ([] : List Nat) (by simp [h])
  have hn : traverse tok = [] := by
    have := (traverse_perm tok).length_eq
    rw [h2] at this
    simpa using this
  have : flattenWithNames t = .error .unpack := by
    unfold flattenWithNames
    dsimp only
    rw [h, List.length_nil, List.range_zero, h1]
    dsimp only
    rw [if_pos hn]
  unfold treeMapWithNames scaleShardedGrads
  dsimp only
  rw [this]
  exact ⟨rfl, rfl⟩

/-! A dataclass whose field order is not alphabetical, with a dict inside. -/

def exTree : PTree Nat :=
  .node true (.cons ['w'] (.leaf 1) (.cons ['m'] (.node false (.cons ['b'] (.leaf 2) (.cons ['a'] (.leaf 3) .nil)))
    (.cons ['e'] (.leaf 4) .nil)))

example : Good exTree := by simp [exTree, Good, GoodF, GoodKey, keysF]
example : ∃ path v, look exTree path = some (.leaf v) := ⟨[['w']], 1, rfl⟩
example : flatten exTree = [1, 3, 2, 4] ∧ (traverse exTree).map Prod.snd = [4, 3, 2, 1] := by decide
example : (match treeMapWithNames (· + 10) exTree (fun n => n == ['m', '/', 'a']) with
    | .ok r => flatten r
    | .error _ => []) = [1, 13, 2, 4] := by decide
example : flatten (PTree.node false (.nil : PForest Nat)) = [] := by decide

end Verif.NamedTree
