import Verif.Lemmas.TopK
/-
Property C07: the two-stage top-k is a top-k.
-/
namespace Verif.TopK
variable {V : Type} [LinearOrder V]

namespace Spec
/-- `res` lists the `k` largest entries of `x` in decreasing order with their indices. -/
structure IsTopK (x : List V) (k : Nat) (res : List (V × Nat)) : Prop where
  length : res.length = min k x.length
  /-- each index selects its value -/
  select : ∀ e ∈ res, x[e.2]? = some e.1
  /-- the indices are distinct -/
  distinct : (res.map (·.2)).Nodup
  /-- values decrease -/
  sorted : res.Pairwise (fun a b => b.1 ≤ a.1)
  /-- entries that are left out are no larger than any entry listed -/
  largest : ∀ i v, x[i]? = some v → i ∉ res.map (·.2) → ∀ e ∈ res, v ≤ e.1
  /-- among equal entries lower indices come first and are preferred -/
  ties : res.Pairwise (fun a b => a.1 = b.1 → a.2 < b.2) ∧
    ∀ (i : Nat) v, x[i]? = some v → i ∉ res.map (·.2) → ∀ e ∈ res, e.1 = v → e.2 < i
end Spec
open Spec

theorem topK_isTopK (x : List V) (k : Nat) : IsTopK x k (topK x k) := by
  have hn := nodup_indexed 0 x
  rw [topK_eq]
  have hsel : ∀ e ∈ top k (indexed 0 x), x[e.2]? = some e.1 := by
    intro e he
    have := (mem_indexed 0 x e).1 (top_subset k _ he)
    simpa using this.2
  have hinj : ∀ a ∈ top k (indexed 0 x), ∀ b ∈ top k (indexed 0 x), a.2 = b.2 → a = b := by
    intro a ha b hb hab
    have h1 := hsel a ha
    have h2 := hsel b hb
    rw [hab, h2] at h1
    exact Prod.ext (by injection h1 with h; exact h.symm) hab
  have hleft : ∀ i v, x[i]? = some v → i ∉ (top k (indexed 0 x)).map (·.2) → ∀ e ∈ top k (indexed 0 x),
      Before e (v, i) ∧ e ≠ (v, i) := by
    intro i v hv hi e he
    have hmem : (v, i) ∈ indexed 0 x := (mem_indexed 0 x _).2 ⟨by simp, by simpa using hv⟩
    have hnot : (v, i) ∉ top k (indexed 0 x) := fun h => hi (List.mem_map.2 ⟨_, h, rfl⟩)
    have hne : e ≠ (v, i) := fun h => hnot (h ▸ he)
    refine ⟨?_, hne⟩
    rcases before_total e (v, i) with h | h
    · exact h
    · exfalso
      rw [mem_top hn] at he hnot
      apply hnot
      refine ⟨hmem, lt_of_le_of_lt ?_ he.2⟩
      unfold rank
      apply List.countP_mono_left
      intro f _ hf
      rw [decide_eq_true_eq] at *
      refine ⟨before_trans hf.1 h, ?_⟩
      rintro rfl
      exact hf.2 (before_antisymm hf.1 h)
  refine ⟨by rw [top_length]; simp [indexed], hsel, ?_, ?_, ?_, ?_, ?_⟩
  · exact List.Nodup.map_on (fun a ha b hb h => hinj a ha b hb h) (top_nodup k hn)
  · refine (top_sorted k _).imp ?_
    intro a b h
    rcases h with h | h
    · exact h.le
    · exact h.1.ge
  · intro i v hv hi e he
    rcases (hleft i v hv hi e he).1 with h | h
    · exact h.le
    · exact h.1.ge
  · have := (top_sorted k (indexed 0 x)).and (top_nodup k hn)
    refine List.Pairwise.imp_of_mem ?_ this
    intro a b ha hb h heq
    rcases h.1 with h1 | h1
    · rw [heq] at h1; exact absurd h1 (lt_irrefl _)
    · rcases Nat.lt_or_ge a.2 b.2 with h2 | h2
      · exact h2
      · exact absurd (hinj a ha b hb (by omega)) h.2
  · intro i v hv hi e he heq
    obtain ⟨h1, h2⟩ := hleft i v hv hi e he
    rcases h1 with h1 | h1
    · rw [heq] at h1; exact absurd h1 (lt_irrefl _)
    · have h3 : e.2 ≤ i := h1.2
      rcases Nat.lt_or_ge e.2 i with h4 | h4
      · exact h4
      · exact absurd (Prod.ext heq (by show e.2 = i; omega)) h2

variable [OrderBot V]

theorem top_pad (x : List V) (k n : Nat) (hk : k ≤ x.length) : topK (x ++ List.replicate n ⊥) k = topK x k := by
  unfold topK
  have hidx : indexed 0 (x ++ List.replicate n (⊥ : V)) = indexed 0 x ++ indexed x.length (List.replicate n ⊥) := by
    unfold indexed; rw [List.zipIdx_append]; simp
  have hs : (indexed 0 (x ++ List.replicate n (⊥ : V))).insertionSort Before =
      (indexed 0 x).insertionSort Before ++ (indexed x.length (List.replicate n ⊥)).insertionSort Before := by
    apply eq_of_perm_sorted
    · rw [hidx]
      exact (List.perm_insertionSort _ _).trans
        (List.Perm.append (List.perm_insertionSort _ _).symm (List.perm_insertionSort _ _).symm)
    · exact sorted_sort _
    · rw [List.pairwise_append]
      refine ⟨sorted_sort _, sorted_sort _, ?_⟩
      intro a ha b hb
      have ha' := (mem_indexed _ _ _).1 ((List.mem_insertionSort Before).1 ha)
      have hb' := (mem_indexed _ _ _).1 ((List.mem_insertionSort Before).1 hb)
      have hbv : b.1 = ⊥ := by
        have := List.mem_of_getElem? hb'.2
        rw [List.mem_replicate] at this
        exact this.2
      have ha2 : a.2 < x.length := by
        have := (List.getElem?_eq_some_iff.1 ha'.2).1
        simpa using this
      unfold Before
      rw [hbv]
      rcases eq_or_ne a.1 ⊥ with h | h
      · exact Or.inr ⟨h, by omega⟩
      · exact Or.inl (bot_lt_iff_ne_bot.2 h)
  rw [hs, List.take_append_of_le_length]
  rw [List.length_insertionSort]
  simpa [indexed] using hk

theorem lanes_eq (lanes : Nat) (hl : 0 < lanes) (x : List V) (k : Nat) (hk : k ≤ x.length) :
    topKTwoStageLanes lanes x k = topK x k := by
  have hpad : topK (padRow lanes x) k = topK x k := by
    unfold padRow
    split
    · exact top_pad x k _ hk
    · rfl
  have hlen : (padRow lanes x).length = lanes * ((padRow lanes x).length / lanes) := by
    have hdvd : lanes ∣ (padRow lanes x).length := by
      unfold padRow
      split
      · rw [List.length_append, List.length_replicate]
        have hmod : x.length % lanes < lanes := Nat.mod_lt _ hl
        have := Nat.div_add_mod x.length lanes
        refine ⟨x.length / lanes + 1, ?_⟩
        rw [Nat.mul_add]; omega
      · next h => exact Nat.dvd_of_mod_eq_zero (by simpa using h)
    exact (Nat.mul_div_cancel' hdvd).symm
  rw [← hpad]
  unfold topKTwoStageLanes
  set y := padRow lanes x with hy
  set sub := y.length / lanes with hsub
  have hcand : (List.range lanes).flatMap (laneTopK y sub k) =
      (List.range lanes).flatMap (fun l => top k (indexed (sub * l) (lane y sub l))) := by
    congr 1
    funext l
    exact laneTopK_eq y sub k l
  rw [second_stage]
  · rw [hcand, top_flatMap, flatMap_lanes y sub lanes hlen, topK_eq]
    rw [flatMap_lanes y sub lanes hlen]
    exact nodup_indexed 0 y
  · rw [hcand, List.pairwise_flatMap]
    refine ⟨?_, ?_⟩
    · intro l _
      refine (top_sorted k _).imp ?_
      intro a b h heq
      rcases h with h | h
      · rw [heq] at h; exact absurd h (lt_irrefl _)
      · exact h.2
    · refine List.Pairwise.imp ?_ (List.pairwise_lt_range (n := lanes))
      intro l l' hll a ha b hb _
      have h1 := (mem_indexed _ _ _).1 (top_subset k _ ha)
      have h2 := (mem_indexed _ _ _).1 (top_subset k _ hb)
      have h3 := (List.getElem?_eq_some_iff.1 h1.2).1
      have h4 : (lane y sub l).length ≤ sub := by unfold lane; rw [List.length_take]; omega
      have h5 : sub * l + sub ≤ sub * l' := by
        calc sub * l + sub = sub * (l + 1) := by ring
          _ ≤ sub * l' := Nat.mul_le_mul_left _ hll
      omega

/-- C07: the two-stage top-k returns the `k` largest scores in decreasing order, with
indices into the original row that select exactly those scores; of equal scores those with
lower indices are taken.  In particular the padding is never selected. -/
theorem C07_top_k_two_stage (batch : Nat) (x : List V) (k : Nat) (hk : k ≤ x.length) :
    IsTopK x k (topKTwoStage batch x k) ∧ topKTwoStage batch x k = topK x k := by
  have h : topKTwoStage batch x k = topK x k := by
    unfold topKTwoStage
    split
    · exact lanes_eq 128 (by omega) x k hk
    · rfl
  exact ⟨h ▸ topK_isTopK x k, h⟩

/-- C07 for every number of lanes. -/
theorem C07_any_lanes (lanes : Nat) (hl : 0 < lanes) (x : List V) (k : Nat) (hk : k ≤ x.length) :
    IsTopK x k (topKTwoStageLanes lanes x k) := lanes_eq lanes hl x k hk ▸ topK_isTopK x k

/-- A row with ties and `-inf` entries, split over 3 lanes (not a divisor of the length). -/
example : topKTwoStageLanes 3 ([0, 5, 0, 7, 5, 0, 0, 2] : List Nat) 5 = [(7, 3), (5, 1), (5, 4), (2, 7), (0, 0)] := by
  decide
example : (5 : Nat) ≤ ([0, 5, 0, 7, 5, 0, 0, 2] : List Nat).length := by decide

end Verif.TopK
