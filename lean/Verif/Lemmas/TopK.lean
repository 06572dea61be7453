import Verif.Model.TopK
import Mathlib.Data.List.Perm.Subperm
import Mathlib.Data.List.Count
/-
Top-k as "fewer than k entries come before", and merging of top-k's.
-/
namespace Verif.TopK
variable {V : Type} [LinearOrder V]

theorem before_total (a b : V × Nat) : Before a b ∨ Before b a := by
  unfold Before
  rcases lt_trichotomy a.1 b.1 with h | h | h
  · exact Or.inr (Or.inl h)
  · rcases le_total a.2 b.2 with h2 | h2
    · exact Or.inl (Or.inr ⟨h, h2⟩)
    · exact Or.inr (Or.inr ⟨h.symm, h2⟩)
  · exact Or.inl (Or.inl h)

theorem before_trans {a b c : V × Nat} (h1 : Before a b) (h2 : Before b c) : Before a c := by
  unfold Before at *
  rcases h1 with h1 | ⟨h1, h1'⟩ <;> rcases h2 with h2 | ⟨h2, h2'⟩
  · exact Or.inl (lt_trans h2 h1)
  · exact Or.inl (h2 ▸ h1)
  · exact Or.inl (h1 ▸ h2)
  · exact Or.inr ⟨h1.trans h2, by omega⟩

theorem before_antisymm {a b : V × Nat} (h1 : Before a b) (h2 : Before b a) : a = b := by
  unfold Before at *
  rcases h1 with h1 | ⟨h1, h1'⟩ <;> rcases h2 with h2 | ⟨h2, h2'⟩
  · exact absurd (lt_trans h1 h2) (lt_irrefl _)
  · rw [h2] at h1; exact absurd h1 (lt_irrefl _)
  · rw [h1] at h2; exact absurd h2 (lt_irrefl _)
  · exact Prod.ext h1 (by omega)

instance : Std.Total (Before (V := V)) := ⟨before_total⟩
instance : IsTrans (V × Nat) Before := ⟨fun _ _ _ => before_trans⟩
instance : Std.Antisymm (Before (V := V)) := ⟨fun _ _ => before_antisymm⟩

/-- Top-k of a list of distinct pairs. -/
def top (k : Nat) (l : List (V × Nat)) : List (V × Nat) := (l.insertionSort Before).take k

/-- Number of entries before `e`. -/
def rank (l : List (V × Nat)) (e : V × Nat) : Nat := l.countP (fun f => decide (Before f e ∧ f ≠ e))

theorem sorted_sort (l : List (V × Nat)) : (l.insertionSort Before).Pairwise Before :=
  List.pairwise_insertionSort _ _

theorem eq_of_perm_sorted {l1 l2 : List (V × Nat)} (hp : l1.Perm l2) (h1 : l1.Pairwise Before)
    (h2 : l2.Pairwise Before) : l1 = l2 :=
  hp.eq_of_pairwise (fun _ _ _ _ => before_antisymm) h1 h2

theorem rank_perm {l1 l2 : List (V × Nat)} (h : l1.Perm l2) (e : V × Nat) : rank l1 e = rank l2 e :=
  h.countP_eq _

theorem rank_mono {l1 l2 : List (V × Nat)} (h1 : l1.Nodup) (h : l1 ⊆ l2) (e : V × Nat) : rank l1 e ≤ rank l2 e := by
  obtain ⟨l, hp, hs⟩ := List.subperm_of_subset h1 h
  rw [← rank_perm hp]
  exact hs.countP_le

theorem rank_sorted {s : List (V × Nat)} (hs : s.Pairwise Before) (hn : s.Nodup) (i : Nat) (h : i < s.length) :
    rank s s[i] = i := by
  induction s generalizing i with
  | nil => simp at h
  | cons x s ih =>
    rw [List.pairwise_cons] at hs
    rw [List.nodup_cons] at hn
    cases i with
    | zero =>
      rw [rank, List.countP_eq_zero]
      intro f hf
      simp only [List.getElem_cons_zero, decide_eq_true_eq, not_and, not_not]
      intro hb
      rcases List.mem_cons.1 hf with rfl | hf
      · rfl
      · exact before_antisymm hb (hs.1 f hf)
    | succ i =>
      have hi : i < s.length := by simpa using h
      have := ih hs.2 hn.2 i hi
      simp only [List.getElem_cons_succ, rank, List.countP_cons]
      rw [show s.countP (fun f => decide (Before f s[i] ∧ f ≠ s[i])) = i from this]
      rw [if_pos]
      simp only [decide_eq_true_eq]
      refine ⟨hs.1 _ (List.getElem_mem hi), ?_⟩
      intro he
      exact hn.1 (he ▸ List.getElem_mem hi)

theorem mem_top {l : List (V × Nat)} (hn : l.Nodup) (k : Nat) (e : V × Nat) :
    e ∈ top k l ↔ e ∈ l ∧ rank l e < k := by
  have hp := List.perm_insertionSort Before l
  have hs := sorted_sort l
  have hn' : (l.insertionSort Before).Nodup := hp.nodup_iff.2 hn
  unfold top
  rw [← hp.mem_iff, ← rank_perm hp]
  constructor
  · intro h
    rw [List.mem_take_iff_getElem] at h
    obtain ⟨i, hi, rfl⟩ := h
    refine ⟨List.getElem_mem _, ?_⟩
    rw [rank_sorted hs hn']
    omega
  · rintro ⟨h1, h2⟩
    obtain ⟨i, hi, rfl⟩ := List.getElem_of_mem h1
    rw [rank_sorted hs hn'] at h2
    rw [List.mem_take_iff_getElem]
    exact ⟨i, by omega, rfl⟩

theorem top_sorted (k : Nat) (l : List (V × Nat)) : (top k l).Pairwise Before :=
  (sorted_sort l).sublist (List.take_sublist _ _)

theorem top_nodup (k : Nat) {l : List (V × Nat)} (hn : l.Nodup) : (top k l).Nodup :=
  ((List.perm_insertionSort Before l).nodup_iff.2 hn).sublist (List.take_sublist _ _)

theorem top_length (k : Nat) (l : List (V × Nat)) : (top k l).length = min k l.length := by
  simp [top, List.length_insertionSort]

theorem top_subset (k : Nat) (l : List (V × Nat)) : top k l ⊆ l := fun _ h =>
  (List.perm_insertionSort Before l).mem_iff.1 (List.mem_of_mem_take h)

theorem top_perm (k : Nat) {l1 l2 : List (V × Nat)} (h : l1.Perm l2) : top k l1 = top k l2 := by
  unfold top
  rw [eq_of_perm_sorted (((List.perm_insertionSort Before l1).trans h).trans (List.perm_insertionSort Before l2).symm)
    (sorted_sort l1) (sorted_sort l2)]

/-- Top-k of the union of the parts' top-k's is the top-k of the whole. -/
theorem top_flatMap {ι : Type} (k : Nat) (is : List ι) (f : ι → List (V × Nat))
    (hn : (is.flatMap f).Nodup) : top k (is.flatMap (fun i => top k (f i))) = top k (is.flatMap f) := by
  have hnf : ∀ i ∈ is, (f i).Nodup := by
    intro i hi
    rw [List.nodup_flatMap] at hn
    exact hn.1 i hi
  have hsub : is.flatMap (fun i => top k (f i)) ⊆ is.flatMap f := by
    intro e he
    rw [List.mem_flatMap] at *
    obtain ⟨i, hi, h⟩ := he
    exact ⟨i, hi, top_subset k _ h⟩
  have hnt : (is.flatMap (fun i => top k (f i))).Nodup := by
    rw [List.nodup_flatMap] at *
    refine ⟨fun i hi => top_nodup k (hn.1 i hi), hn.2.imp ?_⟩
    intro a b hab e h1 h2
    exact hab (top_subset k _ h1) (top_subset k _ h2)
  have h1 : top k (is.flatMap f) ⊆ top k (is.flatMap (fun i => top k (f i))) := by
    intro e he
    rw [mem_top hn] at he
    rw [mem_top hnt]
    obtain ⟨h1, h2⟩ := he
    refine ⟨?_, lt_of_le_of_lt (rank_mono hnt hsub e) h2⟩
    rw [List.mem_flatMap] at *
    obtain ⟨i, hi, h⟩ := h1
    refine ⟨i, hi, (mem_top (hnf i hi) k e).2 ⟨h, lt_of_le_of_lt (rank_mono (hnf i hi) ?_ e) h2⟩⟩
    intro x hx
    exact List.mem_flatMap.2 ⟨i, hi, hx⟩
  have h2 : (top k (is.flatMap (fun i => top k (f i)))).length ≤ (top k (is.flatMap f)).length := by
    rw [top_length, top_length]
    have := (List.subperm_of_subset hnt hsub).length_le
    omega
  have hperm := (List.subperm_of_subset (top_nodup k hn) h1).perm_of_length_le h2
  exact (eq_of_perm_sorted hperm (top_sorted _ _) (top_sorted _ _)).symm

theorem nodup_indexed (off : Nat) (x : List V) : (indexed off x).Nodup := by
  unfold indexed
  apply List.Nodup.of_map Prod.snd
  rw [List.zipIdx_map_snd]
  exact List.nodup_range'

theorem mem_indexed (off : Nat) (x : List V) (e : V × Nat) :
    e ∈ indexed off x ↔ off ≤ e.2 ∧ x[e.2 - off]? = some e.1 := by
  obtain ⟨v, i⟩ := e
  unfold indexed
  rw [List.mem_zipIdx_iff_le_and_getElem?_sub]

theorem topK_eq (x : List V) (k : Nat) : topK x k = top k (indexed 0 x) := rfl

theorem sort_map_offset (l : List (V × Nat)) (c : Nat) :
    (l.map (fun p => (p.1, c + p.2))).insertionSort Before = (l.insertionSort Before).map (fun p => (p.1, c + p.2)) := by
  apply eq_of_perm_sorted
  · exact (List.perm_insertionSort _ _).trans ((List.perm_insertionSort Before l).symm.map _)
  · exact sorted_sort _
  · rw [List.pairwise_map]
    refine (sorted_sort l).imp ?_
    intro a b h
    unfold Before at *
    rcases h with h | ⟨h1, h2⟩
    · exact Or.inl h
    · exact Or.inr ⟨h1, by simp; exact h2⟩

theorem indexed_offset (x : List V) (c : Nat) : (indexed 0 x).map (fun p => (p.1, c + p.2)) = indexed c x := by
  unfold indexed
  apply List.ext_getElem?
  intro i
  simp [List.getElem?_zipIdx]
  rcases x[i]? with _ | v <;> simp

theorem laneTopK_eq (x : List V) (sub k l : Nat) :
    laneTopK x sub k l = top k (indexed (sub * l) (lane x sub l)) := by
  unfold laneTopK topK top
  rw [List.map_take, ← sort_map_offset, indexed_offset]

theorem flatMap_lanes (x : List V) (sub lanes : Nat) (h : x.length = lanes * sub) :
    (List.range lanes).flatMap (fun l => indexed (sub * l) (lane x sub l)) = indexed 0 x := by
  have gen : ∀ n, n ≤ lanes → (List.range n).flatMap (fun l => indexed (sub * l) (lane x sub l)) =
      indexed 0 (x.take (n * sub)) := by
    intro n
    induction n with
    | zero => intro _; simp [indexed]
    | succ n ih =>
      intro hn
      rw [List.range_succ, List.flatMap_append, ih (by omega)]
      simp only [List.flatMap_cons, List.flatMap_nil, List.append_nil]
      have hx : x.take ((n + 1) * sub) = x.take (n * sub) ++ lane x sub n := by
        rw [Nat.succ_mul, List.take_add, lane]
      rw [hx]
      unfold indexed
      rw [List.zipIdx_append]
      congr 2
      rw [List.length_take, h]
      have : n * sub ≤ lanes * sub := Nat.mul_le_mul_right _ (by omega)
      rw [Nat.mul_comm sub n]; omega
  have := gen lanes le_rfl
  rw [← h, List.take_length] at this
  exact this

/-- Second stage: sorting by (value, position) and looking up the index is sorting the
candidates, if candidates with equal values are listed in index order. -/
theorem second_stage (cand : List (V × Nat)) (k : Nat)
    (hc : cand.Pairwise (fun a b => a.1 = b.1 → a.2 ≤ b.2)) :
    (topK (cand.map (·.1)) k).map (fun p => (p.1, (cand.map (·.2)).getD p.2 0)) = top k cand := by
  unfold topK top
  rw [List.map_take]
  congr 1
  have hget : (indexed 0 (cand.map (·.1))).map (fun p => (p.1, (cand.map (·.2)).getD p.2 0)) = cand := by
    apply List.ext_getElem?
    intro i
    unfold indexed
    simp only [List.getElem?_map, List.getElem?_zipIdx, List.getD]
    rcases h : cand[i]? with _ | ⟨v, j⟩
    · simp
    · simp [h]
  apply eq_of_perm_sorted
  · have := (List.perm_insertionSort Before (indexed 0 (cand.map (·.1)))).map (fun p => (p.1, (cand.map (·.2)).getD p.2 0))
    rw [hget] at this
    exact this.trans (List.perm_insertionSort Before cand).symm
  · rw [List.pairwise_map]
    refine List.Pairwise.imp_of_mem ?_ (sorted_sort _)
    intro a b ha hb hab
    have ha' := (mem_indexed _ _ _).1 ((List.mem_insertionSort Before).1 ha)
    have hb' := (mem_indexed _ _ _).1 ((List.mem_insertionSort Before).1 hb)
    simp only [Nat.sub_zero, List.getElem?_map, Option.map_eq_some_iff] at ha' hb'
    obtain ⟨-, x, hx1, hx2⟩ := ha'
    obtain ⟨-, y, hy1, hy2⟩ := hb'
    unfold Before at hab ⊢
    rcases hab with h | ⟨h1, h2⟩
    · exact Or.inl h
    · refine Or.inr ⟨h1, ?_⟩
      simp only [List.getD, List.getElem?_map, hx1, hy1, Option.map_some, Option.getD_some]
      rcases Nat.lt_or_ge a.2 b.2 with hlt | hge
      · rw [List.pairwise_iff_getElem] at hc
        obtain ⟨l1, e1⟩ := List.getElem?_eq_some_iff.1 hx1
        obtain ⟨l2, e2⟩ := List.getElem?_eq_some_iff.1 hy1
        have := hc a.2 b.2 l1 l2 hlt
        rw [e1, e2] at this
        exact this (by rw [hx2, hy2, h1])
      · have : a.2 = b.2 := by omega
        rw [this, hy1] at hx1
        cases hx1; rfl
  · exact sorted_sort _

end Verif.TopK
