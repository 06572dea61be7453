import Verif.Spec.Export
/-
Lemmas on the preprocessing of exported models.
-/
namespace Verif.Export
open Spec

theorem filter_idx (n : Nat) : ∀ l : List Nat, l.Pairwise (· ≤ ·) →
    (∀ i (hi : i < l.length), i < (l.filter (· < n)).length → l[i] < n) ∧
    (∀ i (hi : i < l.length), (l.filter (· < n)).length ≤ i → n ≤ l[i])
  | [], _ => by simp
  | a :: l, h => by
    rw [List.pairwise_cons] at h
    obtain ⟨h1, h2⟩ := filter_idx n l h.2
    by_cases ha : a < n
    · rw [List.filter_cons_of_pos (by simpa using ha)]
      constructor
      · intro i hi hf
        cases i with
        | zero => simpa using ha
        | succ i => simpa using h1 i (by simpa using hi) (by simpa using hf)
      · intro i hi hf
        cases i with
        | zero => simp at hf
        | succ i => simpa using h2 i (by simpa using hi) (by simpa using hf)
    · have hf : (a :: l).filter (· < n) = [] := by
        rw [List.filter_eq_nil_iff]
        intro x hx
        simp only [decide_eq_true_eq, not_lt]
        rcases List.mem_cons.mp hx with rfl | hx
        · omega
        · have := h.1 x hx; omega
      rw [hf]
      constructor
      · intro i _ h; simp at h
      · intro i hi _
        have hx : (a :: l)[i] ∈ a :: l := List.getElem_mem hi
        rcases List.mem_cons.mp hx with h' | hx
        · omega
        · have := h.1 _ hx; omega

theorem bucketize_spec (l : List Nat) (hs : l.Pairwise (· ≤ ·)) (L n : Nat) (hl : l.getLast? = some L) :
    bucketize l n ∈ l ∧ min n L ≤ bucketize l n ∧ ∀ w ∈ l, min n L ≤ w → bucketize l n ≤ w := by
  obtain ⟨h1, h2⟩ := filter_idx n l hs
  have hne : 0 < l.length := by
    cases l with
    | nil => simp at hl
    | cons => simp
  have hlast : l[l.length - 1]'(by omega) = L := by
    rw [List.getLast?_eq_getElem?, List.getElem?_eq_getElem (by omega)] at hl
    exact Option.some.inj hl
  have hmax : ∀ w ∈ l, w ≤ L := by
    intro w hw
    obtain ⟨i, hi, rfl⟩ := List.getElem_of_mem hw
    rw [← hlast]
    rcases Nat.lt_or_ge i (l.length - 1) with h | h
    · exact List.pairwise_iff_getElem.mp hs i _ hi (by omega) h
    · have : i = l.length - 1 := by omega
      subst this; exact le_refl _
  have hk : min ((l.filter (· < n)).length) (l.length - 1) < l.length := by omega
  have hb : bucketize l n = l[min ((l.filter (· < n)).length) (l.length - 1)]'hk := by
    unfold bucketize
    rw [List.getD_eq_getElem?_getD, List.getElem?_eq_getElem hk]; rfl
  rw [hb]
  refine ⟨List.getElem_mem hk, ?_, ?_⟩
  · rcases Nat.lt_or_ge ((l.filter (· < n)).length) l.length with h | h
    · have h3 : min ((l.filter (· < n)).length) (l.length - 1) = (l.filter (· < n)).length := by omega
      have := h2 _ hk (by omega)
      omega
    · have h3 : min ((l.filter (· < n)).length) (l.length - 1) = l.length - 1 := by omega
      simp only [h3]
      omega
  · intro w hw hmin
    obtain ⟨i, hi, rfl⟩ := List.getElem_of_mem hw
    rcases Nat.lt_or_ge i (min ((l.filter (· < n)).length) (l.length - 1)) with h | h
    · have := h1 i hi (by omega)
      have h4 := hmax _ hw
      have h5 := hmax _ (List.getElem_mem hk)
      omega
    · rcases Nat.lt_or_ge (min ((l.filter (· < n)).length) (l.length - 1)) i with h' | h'
      · exact List.pairwise_iff_getElem.mp hs _ i hk hi h'
      · have : i = min ((l.filter (· < n)).length) (l.length - 1) := by omega
        subst this; exact le_refl _

theorem cutPad_length (m : Nat) (t : List Int) : (cutPad m t).length = m := by
  simp [cutPad]

theorem getD_append_zeros (t : List Int) (k j : Nat) : (t ++ List.replicate k 0).getD j 0 = t.getD j 0 := by
  simp only [List.getD_eq_getElem?_getD]
  rcases Nat.lt_or_ge j t.length with h | h
  · rw [List.getElem?_append_left h]
  · rw [List.getElem?_append_right h, List.getElem?_replicate, List.getElem?_eq_none h]
    split <;> rfl

theorem getD_take (t : List Int) (m j : Nat) : (t.take m).getD j 0 = if j < m then t.getD j 0 else 0 := by
  simp only [List.getD_eq_getElem?_getD, List.getElem?_take]
  split <;> rfl

theorem cutPad_getD (m : Nat) (t : List Int) (j : Nat) : (cutPad m t).getD j 0 = if j < m then t.getD j 0 else 0 := by
  unfold cutPad
  rw [getD_append_zeros, getD_take]

theorem arInputs_getD (t : List Int) (j : Nat) :
    (arInputs t).getD j 0 = if j < t.length then (if j = 0 then 0 else t.getD (j - 1) 0) else 0 := by
  unfold arInputs
  rw [getD_take]
  cases j with
  | zero => simp
  | succ j => simp

theorem nonPadding_getD (t : List Int) (j : Nat) : (nonPadding t).getD j 0 = if t.getD j 0 = 0 then 0 else 1 := by
  unfold nonPadding
  simp only [List.getD_eq_getElem?_getD, List.getElem?_map]
  cases t[j]? <;> simp

theorem mapE_ok {α β : Type} (f : α → Except Err β) (g : α → β) :
    ∀ l : List α, (∀ a ∈ l, f a = .ok (g a)) → mapE f l = .ok (l.map g)
  | [], _ => rfl
  | a :: l, h => by
    simp only [mapE, h a List.mem_cons_self, mapE_ok f g l (fun b hb => h b (List.mem_cons_of_mem _ hb)), List.map_cons]

theorem mapE_error {α β : Type} (f : α → Except Err β) (e : Err) (l : List α) (hne : l ≠ []) (h : ∀ a ∈ l, f a = .error e) :
    mapE f l = .error e := by
  cases l with
  | nil => exact absurd rfl hne
  | cons a l => simp only [mapE, h a List.mem_cons_self]

theorem foldl_max (l : List Nat) : ∀ s, s ≤ l.foldl max s ∧ (∀ x ∈ l, x ≤ l.foldl max s) ∧ (l.foldl max s = s ∨ l.foldl max s ∈ l) := by
  induction l with
  | nil => intro s; simp
  | cons a l ih =>
    intro s
    obtain ⟨h1, h2, h3⟩ := ih (max s a)
    simp only [List.foldl_cons]
    refine ⟨by omega, ?_, ?_⟩
    · intro x hx
      rcases List.mem_cons.mp hx with rfl | hx
      · omega
      · exact h2 x hx
    · rcases h3 with h3 | h3
      · rcases Nat.le_total s a with h | h
        · right; rw [h3, max_eq_right h]; exact List.mem_cons_self
        · left; rw [h3, max_eq_left h]
      · right; exact List.mem_cons_of_mem _ h3

theorem withEos_take (f : Feature) (hL : 1 ≤ f.length) (t : List Int) : (withEos f t).take f.length = wanted f t := by
  unfold withEos wanted
  cases f.eos with
  | none => rfl
  | some e =>
    simp only [sliceTo]
    rw [if_pos (by omega)]
    have : ((f.length : Int) - 1).toNat = f.length - 1 := by omega
    rw [this]
    apply List.take_of_length_le
    simp; omega

/-- The row of an example in a valid feature. -/
theorem truncatePad_valid (f : Feature) (hv : Valid f) (t : List Int) :
    ∃ w, truncatePad (withEos f t) f.length f.allowed = .ok (cutPad w (withEos f t)) ∧ Width f [t] w ∧
      (∀ j, (cutPad w (withEos f t)).getD j 0 = (wanted f t).getD j 0) := by
  obtain ⟨hL, hmem, hmax⟩ := hv
  have hw := withEos_take f hL t
  have hwl : (wanted f t).length = min (withEos f t).length f.length := by rw [← hw]; simp [Nat.min_comm]
  suffices h : ∃ w, truncatePad (withEos f t) f.length f.allowed = .ok (cutPad w (withEos f t)) ∧ w ∈ widths f ∧
      (wanted f t).length ≤ w ∧ ∀ v ∈ widths f, (wanted f t).length ≤ v → w ≤ v by
    obtain ⟨w, h1, h2, h3, h4⟩ := h
    refine ⟨w, h1, ⟨h2, by simpa using h3, by simpa using h4⟩, ?_⟩
    intro j
    rw [cutPad_getD, ← hw, getD_take]
    have hwL := hmax w h2
    by_cases hj : j < w
    · rw [if_pos hj, if_pos (by omega)]
    · rw [if_neg hj]
      split
      · rw [List.getD_eq_getElem?_getD, List.getElem?_eq_none (by omega)]; rfl
      · rfl
  unfold widths at hmem hmax ⊢
  unfold truncatePad
  rcases hf : f.allowed with _ | _ | ⟨a, l⟩
  · refine ⟨f.length, rfl, by simp, by omega, by simp⟩
  · refine ⟨f.length, rfl, by simp, by omega, by simp⟩
  · rw [hf] at hmem hmax
    simp only at hmem hmax ⊢
    have hperm := List.perm_insertionSort (· ≤ ·) (a :: l)
    have hsort : ((a :: l).insertionSort (· ≤ ·)).Pairwise (· ≤ ·) := List.pairwise_insertionSort (· ≤ ·) (a :: l)
    have hlast : ((a :: l).insertionSort (· ≤ ·)).getLast? = some f.length := by
      generalize hl' : (a :: l).insertionSort (· ≤ ·) = l' at hperm hsort
      have hm : f.length ∈ l' := hperm.mem_iff.mpr hmem
      have hne : l' ≠ [] := List.ne_nil_of_mem hm
      rw [List.getLast?_eq_some_getLast hne]
      congr 1
      apply Nat.le_antisymm (hmax _ (hperm.mem_iff.mp (List.getLast_mem hne)))
      obtain ⟨i, hi, he⟩ := List.getElem_of_mem hm
      rw [List.getLast_eq_getElem, ← he]
      rcases Nat.lt_or_ge i (l'.length - 1) with h | h
      · exact List.pairwise_iff_getElem.mp hsort i _ hi (by omega) h
      · have : i = l'.length - 1 := by omega
        subst this; exact le_refl _
    rw [if_pos hlast]
    obtain ⟨h1, h2, h3⟩ := bucketize_spec _ hsort f.length (withEos f t).length hlast
    refine ⟨_, rfl, hperm.mem_iff.mp h1, by omega, ?_⟩
    intro v hv hle
    exact h3 v (hperm.mem_iff.mpr hv) (by omega)

end Verif.Export
