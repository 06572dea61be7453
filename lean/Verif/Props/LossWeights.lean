import Verif.Model.LossWeights
import Mathlib.Algebra.Order.BigOperators.Group.List
import Mathlib.Algebra.BigOperators.Ring.List
import Mathlib.Data.Finset.Card
/-
Properties C15 (every packed sequence has total weight 1) and C16 (packed examples are counted right).
-/
namespace Verif.LossWeights

variable {K : Type} [Field K] [LinearOrder K] [IsStrictOrderedRing K]

namespace Spec
/-- A packed sequence in a row: its id and the weights of its tokens. -/
structure Seq (K : Type) where
  id : ℤ
  weights : List K

/-- The row that packing makes of sequences and padding: positions count from 0 in each sequence, padding
has id 0 and position 0. -/
def rowPositions (seqs : List (Seq K)) (pad : List K) : List ℕ :=
  seqs.flatMap (fun s => List.range s.weights.length) ++ pad.map (fun _ => 0)
def rowIds (seqs : List (Seq K)) (pad : List K) : List ℤ :=
  seqs.flatMap (fun s => s.weights.map (fun _ => s.id)) ++ pad.map (fun _ => 0)
def rowWeights (seqs : List (Seq K)) (pad : List K) : List K :=
  seqs.flatMap (fun s => s.weights) ++ pad

/-- Weights of a sequence scaled to total 1, or all 0. -/
def normalised (s : Seq K) : List K := s.weights.map (fun a => if s.weights.sum = 0 then 0 else a / s.weights.sum)

/-- A legal row: no empty sequence, ids not 0, weights not negative. -/
def Legal (seqs : List (Seq K)) : Prop :=
  ∀ s ∈ seqs, s.weights ≠ [] ∧ s.id ≠ 0 ∧ ∀ a ∈ s.weights, 0 ≤ a
end Spec
open Spec

omit [LinearOrder K] [IsStrictOrderedRing K] in
theorem cumsum_append (c : K) (a b : List K) : cumsum c (a ++ b) = cumsum c a ++ cumsum (c + a.sum) b := by
  induction a generalizing c with
  | nil => simp [cumsum]
  | cons x xs ih => simp [cumsum, ih, add_assoc]

omit [LinearOrder K] [IsStrictOrderedRing K] in
theorem cumsum_length (c : K) (a : List K) : (cumsum c a).length = a.length := by
  induction a generalizing c with
  | nil => rfl
  | cons x xs ih => simp [cumsum, ih]

/-- The state after repeatLast. -/
def lastNZ (prev : K) : List K → K
  | [] => prev
  | x :: xs => lastNZ (if x = 0 then prev else x) xs

omit [IsStrictOrderedRing K] in
theorem repeatLast_append (p : K) (a b : List K) :
    repeatLast p (a ++ b) = repeatLast p a ++ repeatLast (lastNZ p a) b := by
  induction a generalizing p with
  | nil => rfl
  | cons x xs ih => simp [repeatLast, lastNZ, ih]

omit [IsStrictOrderedRing K] in
theorem repeatLast_length (p : K) (a : List K) : (repeatLast p a).length = a.length := by
  induction a generalizing p with
  | nil => rfl
  | cons x xs ih => simp [repeatLast, ih]

omit [IsStrictOrderedRing K] in
theorem repeatLast_zeros (p : K) (n : ℕ) :
    repeatLast p (List.replicate n 0) = List.replicate n p ∧ lastNZ p (List.replicate n 0) = p := by
  induction n with
  | zero => exact ⟨rfl, rfl⟩
  | succ n ih => simp [List.replicate_succ, repeatLast, lastNZ, ih.1, ih.2]

/-- Differences with a given first predecessor. -/
def diffFrom (p : K) : List K → List K
  | [] => []
  | x :: xs => (x - p) :: diffFrom x xs

omit [LinearOrder K] [IsStrictOrderedRing K] in
theorem diff_cons (x : K) (xs : List K) : diff (x :: xs) = diffFrom x xs := by
  unfold diff
  simp only [List.tail_cons]
  induction xs generalizing x with
  | nil => rfl
  | cons y ys ih => simp only [diffFrom, List.zipWith_cons_cons, ih]

omit [IsStrictOrderedRing K] in
/-- Taking the first entry and then the differences is differencing from 0. -/
theorem finalTotal_eq (xs : List K) : xs.take 1 ++ diff (repeatLast 0 xs) = diffFrom 0 (repeatLast 0 xs) := by
  cases xs with
  | nil => rfl
  | cons x xs =>
    have : (if x = 0 then (0 : K) else x) = x := by split_ifs with h <;> simp [h]
    simp only [repeatLast, this, diff_cons, diffFrom, List.take_succ_cons, List.take_zero, sub_zero, List.cons_append, List.nil_append]

omit [LinearOrder K] [IsStrictOrderedRing K] in
theorem diffFrom_append (p : K) (a b : List K) :
    diffFrom p (a ++ b) = diffFrom p a ++ diffFrom (a.getLast?.getD p) b := by
  induction a generalizing p with
  | nil => rfl
  | cons x xs ih =>
    simp only [List.cons_append, diffFrom, ih]
    congr 3
    cases xs with
    | nil => rfl
    | cons y ys => simp only [List.getLast?_cons_cons, List.getLast?_cons, Option.getD_some]

omit [LinearOrder K] [IsStrictOrderedRing K] in
theorem diffFrom_replicate (p : K) (n : ℕ) : diffFrom p (List.replicate n p) = List.replicate n 0 := by
  induction n with
  | zero => rfl
  | succ n ih => simp [List.replicate_succ, diffFrom, ih]

/-- Cumulative weights at final positions, the code's final_cumulative_weights of a legal row. -/
def cumFinal (c : K) : List (Seq K) → List K
  | [] => []
  | s :: ss => List.replicate (s.weights.length - 1) 0 ++ [c + s.weights.sum] ++ cumFinal (c + s.weights.sum) ss

theorem zipWith_append' {α β γ : Type} (f : α → β → γ) (a a' : List α) (b b' : List β) (h : a.length = b.length) :
    List.zipWith f (a ++ a') (b ++ b') = List.zipWith f a b ++ List.zipWith f a' b' :=
  List.zipWith_append h

/-- Final-position flags of a legal row. -/
theorem finalPositions_eq (seqs : List (Seq K)) (pad : List K) (h : Legal seqs) :
    finalPositions (K := K) (rowPositions seqs pad) (rowIds seqs pad) =
      seqs.flatMap (fun s => List.replicate (s.weights.length - 1) 0 ++ [1]) ++ pad.map (fun _ => 0) := by
  let f : K → ℤ → K := fun f s => f * (if s ≠ 0 then 1 else 0)
  let st : List ℕ → List K := List.map (fun p => if p = 0 then 1 else 0)
  have e0 : finalPositions (K := K) (rowPositions seqs pad) (rowIds seqs pad) =
      List.zipWith f (st (rowPositions seqs pad) ++ [1]).tail (rowIds seqs pad) := by
    show List.zipWith f ((st (rowPositions seqs pad)).tail ++ [1]) _ = _
    cases hS : st (rowPositions seqs pad) with
    | cons x xs => simp
    | nil =>
      have hl : (rowIds seqs pad).length = (rowPositions seqs pad).length := by
        simp [rowIds, rowPositions, List.length_flatMap]
      have : (st (rowPositions seqs pad)).length = 0 := by rw [hS]; rfl
      simp only [st, List.length_map] at this
      rw [this] at hl
      rw [List.length_eq_zero_iff.1 hl]; simp
  rw [e0]
  have gen : ∀ seqs : List (Seq K), Legal seqs → ∃ T, st (rowPositions seqs pad) ++ [1] = 1 :: T ∧
      List.zipWith f T (rowIds seqs pad) =
        seqs.flatMap (fun s => List.replicate (s.weights.length - 1) 0 ++ [1]) ++ pad.map (fun _ => 0) := by
    intro seqs
    induction seqs with
    | nil =>
      intro _
      cases pad with
      | nil => exact ⟨[], rfl, rfl⟩
      | cons x xs =>
        refine ⟨st (xs.map (fun _ => 0)) ++ [1], by simp [st, rowPositions], ?_⟩
        have : rowIds (K := K) [] (x :: xs) = (x :: xs).map (fun _ => 0) := by simp [rowIds]
        rw [this, List.flatMap_nil, List.nil_append]
        apply List.ext_getElem
        · simp [st]
        · intro k h1 h2
          simp only [List.getElem_zipWith, List.getElem_map]
          simp [f]
    | cons s ss ih =>
      intro hl
      obtain ⟨T, hT, hz⟩ := ih (fun s' hs' => hl s' (List.mem_cons_of_mem _ hs'))
      obtain ⟨hne, hid, _⟩ := hl s (List.mem_cons_self ..)
      obtain ⟨n, hn⟩ : ∃ n, s.weights.length = n + 1 := ⟨s.weights.length - 1, by
        have := List.length_pos_iff.2 hne; omega⟩
      have hst : st (List.range (n + 1)) = 1 :: List.replicate n 0 := by
        rw [List.range_succ_eq_map]
        simp only [st, List.map_cons, List.map_map]
        congr 1
        apply List.ext_getElem
        · simp
        · intro k h1 h2; simp
      have hpos : rowPositions (s :: ss) pad = List.range (n + 1) ++ rowPositions ss pad := by
        simp [rowPositions, hn]
      have hids : rowIds (s :: ss) pad = List.replicate (n + 1) s.id ++ rowIds ss pad := by
        simp [rowIds, hn, List.map_const']
      refine ⟨List.replicate n 0 ++ (1 :: T), ?_, ?_⟩
      · rw [hpos]
        simp only [st, List.map_append] at hT ⊢
        rw [List.append_assoc, hT]
        have := hst
        simp only [st] at this
        rw [this]; simp
      · rw [hids]
        have : List.replicate n (0 : K) ++ 1 :: T = (List.replicate n 0 ++ [1]) ++ T := by simp
        rw [this, zipWith_append' _ _ _ _ _ (by simp), hz, List.replicate_succ']
        rw [zipWith_append' _ _ _ _ _ (by simp)]
        simp [f, hn, hid]
  obtain ⟨T, hT, hz⟩ := gen seqs h
  rw [hT]
  exact hz

theorem finalCum_eq (seqs : List (Seq K)) (pad : List K) (c : K) :
    List.zipWith (· * ·) (seqs.flatMap (fun s => List.replicate (s.weights.length - 1) 0 ++ [1]) ++
      pad.map (fun _ => 0)) (cumsum c (rowWeights seqs pad)) = cumFinal c seqs ++ pad.map (fun _ => 0) ∨
    ¬ Legal seqs := by
  by_cases h : Legal seqs
  swap
  · exact Or.inr h
  left
  induction seqs generalizing c with
  | nil =>
    simp only [List.flatMap_nil, List.nil_append, rowWeights, cumFinal]
    apply List.ext_getElem
    · simp [cumsum_length]
    · intro k h1 h2; simp
  | cons s ss ih =>
    obtain ⟨hne, _, _⟩ := h s (List.mem_cons_self ..)
    have ih := ih (c + s.weights.sum) (fun s' hs' => h s' (List.mem_cons_of_mem _ hs'))
    have hw : rowWeights (s :: ss) pad = s.weights ++ rowWeights ss pad := by simp [rowWeights]
    rw [hw, cumsum_append, List.flatMap_cons, List.append_assoc, zipWith_append', ih]
    · obtain ⟨ws, w, hws⟩ : ∃ ws w, s.weights = ws ++ [w] :=
        ⟨s.weights.dropLast, s.weights.getLast hne, (List.dropLast_append_getLast hne).symm⟩
      simp only [cumFinal, hws, cumsum_append, List.length_append, List.length_singleton, Nat.add_sub_cancel]
      rw [zipWith_append' _ _ _ _ _ (by simp [cumsum_length])]
      simp only [cumsum, List.zipWith_cons_cons, List.zipWith_nil_right, one_mul, List.sum_append, List.sum_singleton,
        ← add_assoc]
      rw [← List.append_assoc]
      congr 3
      apply List.ext_getElem
      · simp [cumsum_length]
      · intro k h1 h2; simp
    · have := List.length_pos_iff.2 hne
      simp [cumsum_length]; omega

/-- Total weights at final positions, the code's final_total_weights. -/
def totFinal : List (Seq K) → List K
  | [] => []
  | s :: ss => List.replicate (s.weights.length - 1) 0 ++ [s.weights.sum] ++ totFinal ss

theorem diff_repeat_eq (seqs : List (Seq K)) (m : ℕ) (c : K) (hc : 0 ≤ c) (h : Legal seqs) :
    diffFrom c (repeatLast c (cumFinal c seqs ++ List.replicate m 0)) = totFinal seqs ++ List.replicate m 0 := by
  induction seqs generalizing c with
  | nil =>
    simp only [cumFinal, totFinal, List.nil_append, (repeatLast_zeros c m).1, diffFrom_replicate]
  | cons s ss ih =>
    obtain ⟨_, _, hnn⟩ := h s (List.mem_cons_self ..)
    have hs : 0 ≤ s.weights.sum := List.sum_nonneg hnn
    have ih := ih (c + s.weights.sum) (by linarith) (fun s' hs' => h s' (List.mem_cons_of_mem _ hs'))
    have hy : (if c + s.weights.sum = 0 then c else c + s.weights.sum) = c + s.weights.sum := by
      split_ifs with h0
      · linarith
      · rfl
    simp only [cumFinal, totFinal, List.append_assoc, List.singleton_append]
    rw [repeatLast_append, (repeatLast_zeros c _).1, (repeatLast_zeros c _).2, diffFrom_append]
    have hlast : (List.replicate (s.weights.length - 1) c).getLast?.getD c = c := by
      rw [List.getLast?_replicate]; split_ifs <;> rfl
    rw [hlast, diffFrom_replicate]
    simp only [List.cons_append, repeatLast, hy, diffFrom]
    rw [ih]
    simp

omit [IsStrictOrderedRing K] in
theorem repeatLastRev_eq (xs : List K) : ∀ ys : List K,
    repeatLastRev (xs ++ ys) = (repeatLast (lastNZ 0 ys.reverse) xs.reverse).reverse ++ repeatLastRev ys := by
  intro ys
  unfold repeatLastRev
  rw [List.reverse_append, repeatLast_append, List.reverse_append]

/-- The normaliser of every position of a sequence, and what is carried leftwards. -/
def normalisers (v : K) : List (Seq K) → K × List K
  | [] => (v, [])
  | s :: ss =>
    let r := normalisers v ss
    let u := if s.weights.sum = 0 then r.1 else s.weights.sum
    (u, List.replicate s.weights.length u ++ r.2)

theorem rev_eq (seqs : List (Seq K)) (m : ℕ) (h : Legal seqs) :
    repeatLastRev (totFinal seqs ++ List.replicate m 0) = (normalisers 0 seqs).2 ++ List.replicate m 0 ∧
      lastNZ 0 (totFinal seqs ++ List.replicate m 0).reverse = (normalisers 0 seqs).1 := by
  induction seqs with
  | nil =>
    simp [totFinal, normalisers, repeatLastRev, (repeatLast_zeros (0 : K) m).1, (repeatLast_zeros (0 : K) m).2]
  | cons s ss ih =>
    obtain ⟨h1, h2⟩ := ih (fun s' hs' => h s' (List.mem_cons_of_mem _ hs'))
    obtain ⟨hne, _, _⟩ := h s (List.mem_cons_self ..)
    obtain ⟨n, hn⟩ : ∃ n, s.weights.length = n + 1 := ⟨s.weights.length - 1, by
        have := List.length_pos_iff.2 hne; omega⟩
    have hlapp : ∀ (p : K) (a b : List K), lastNZ p (a ++ b) = lastNZ (lastNZ p a) b := by
      intro p a b
      induction a generalizing p with
      | nil => rfl
      | cons x xs ih => simp [lastNZ, ih]
    constructor
    · simp only [totFinal, List.append_assoc]
      rw [← List.append_assoc, repeatLastRev_eq, h1, h2]
      simp only [normalisers, hn, Nat.add_sub_cancel, List.reverse_append, List.reverse_singleton,
        List.reverse_replicate, List.singleton_append, List.append_assoc]
      rw [repeatLast, (repeatLast_zeros _ n).1, List.replicate_succ']
      simp
    · simp only [totFinal, List.append_assoc]
      rw [← List.append_assoc, List.reverse_append, hlapp, h2]
      simp only [normalisers, hn, Nat.add_sub_cancel, List.reverse_append, List.reverse_singleton,
        List.reverse_replicate, List.singleton_append, lastNZ, (repeatLast_zeros _ n).2]

theorem sumWeights_eq (seqs : List (Seq K)) (pad : List K) (h : Legal seqs) :
    sumWeightsPerSegment (rowPositions seqs pad) (rowIds seqs pad) (rowWeights seqs pad) =
      (normalisers 0 seqs).2 ++ List.replicate pad.length 0 := by
  unfold sumWeightsPerSegment
  dsimp only
  rw [finalPositions_eq seqs pad h, (finalCum_eq seqs pad 0).resolve_right (not_not.2 h), finalTotal_eq,
    List.map_const', diff_repeat_eq seqs pad.length 0 le_rfl h, (rev_eq seqs pad.length h).1]

theorem all_zero (ws : List K) (h : ∀ a ∈ ws, 0 ≤ a) (hs : ws.sum = 0) : ∀ a ∈ ws, a = 0 := by
  induction ws with
  | nil => simp
  | cons x xs ih =>
    have h1 := h x (List.mem_cons_self ..)
    have h2 := List.sum_nonneg (fun a ha => h a (List.mem_cons_of_mem _ ha))
    rw [List.sum_cons] at hs
    intro a ha
    rcases List.mem_cons.1 ha with rfl | ha
    · linarith
    · exact ih (fun a ha => h a (List.mem_cons_of_mem _ ha)) (by linarith) a ha

/-- C15: for every packed row, dividing by the per-segment sums gives exactly the weights in which each
sequence is scaled by its own total, and padding gets weight 0 (whatever weight it had before). -/
theorem C15_packed_weights (seqs : List (Seq K)) (pad : List K) (h : Legal seqs) :
    List.zipWith safeDiv (rowWeights seqs pad)
      (sumWeightsPerSegment (rowPositions seqs pad) (rowIds seqs pad) (rowWeights seqs pad)) =
      seqs.flatMap normalised ++ List.replicate pad.length 0 := by
  rw [sumWeights_eq seqs pad h]
  induction seqs with
  | nil =>
    simp only [rowWeights, List.flatMap_nil, List.nil_append, normalisers]
    apply List.ext_getElem
    · simp
    · intro k h1 h2; simp [safeDiv]
  | cons s ss ih =>
    have ih := ih (fun s' hs' => h s' (List.mem_cons_of_mem _ hs'))
    obtain ⟨hne, _, hnn⟩ := h s (List.mem_cons_self ..)
    have hw : rowWeights (s :: ss) pad = s.weights ++ rowWeights ss pad := by simp [rowWeights]
    rw [hw]
    simp only [normalisers, List.append_assoc, List.flatMap_cons]
    rw [zipWith_append' _ _ _ _ _ (by simp), ih]
    congr 1
    unfold normalised
    apply List.ext_getElem
    · simp
    · intro k h1 h2
      simp only [List.length_map] at h2
      simp only [List.getElem_zipWith, List.getElem_replicate, List.getElem_map, safeDiv]
      by_cases h0 : s.weights.sum = 0
      · simp [h0, all_zero _ hnn h0 _ (List.getElem_mem h2)]
      · simp [h0]

/-- C15: hence every sequence with some weight has total weight exactly 1, and the normalising factor of
the row is the number of such sequences. -/
theorem C15_sequence_total (s : Seq K) : (normalised s).sum = if s.weights.sum = 0 then 0 else 1 := by
  unfold normalised
  split_ifs with h
  · simp
  · have : (s.weights.map (fun a => a / s.weights.sum)).sum = s.weights.sum / s.weights.sum := by
      simp only [div_eq_mul_inv]
      rw [List.sum_map_mul_right, List.map_id']
    rw [this, div_self h]

/-- A packed row. -/
structure PackedRow (K : Type) where
  seqs : List (Seq K)
  pad : List K

theorem total_append (a b : List (List K)) : total (a ++ b) = total a + total b := by simp [total]

/-- C15: for a batch of packed rows with AVERAGE_PER_SEQUENCE (as enum or as string in any case), the
returned weights give every sequence with some weight a total of 1 and padding 0, and the returned
normalising factor is the number of such sequences in the batch. -/
theorem C15_average_per_sequence (rows : List (PackedRow K)) (targets : List (List ℤ))
    (h : ∀ r ∈ rows, Legal r.seqs) (lnf : LNF K)
    (hl : lnf = .special .averagePerSequence ∨ ∃ s, lnf = .str s ∧ s.map Char.toUpper = "AVERAGE_PER_SEQUENCE".toList) :
    lnfAndWeights lnf ⟨targets, some (rows.map fun r => rowWeights r.seqs r.pad),
        some (rows.map (fun r => rowIds r.seqs r.pad), rows.map (fun r => rowPositions r.seqs r.pad))⟩ =
      some (some (((rows.flatMap (·.seqs)).filter (fun s => s.weights.sum ≠ 0)).length : K),
        some (rows.map fun r => r.seqs.flatMap normalised ++ List.replicate r.pad.length 0)) := by
  have hw : List.zipWith (fun (sp : List ℤ × List ℕ) r => List.zipWith safeDiv r (sumWeightsPerSegment sp.2 sp.1 r))
      ((rows.map (fun r => rowIds r.seqs r.pad)).zip (rows.map (fun r => rowPositions r.seqs r.pad)))
      (rows.map fun r => rowWeights r.seqs r.pad) =
      rows.map fun r => r.seqs.flatMap normalised ++ List.replicate r.pad.length 0 := by
    apply List.ext_getElem
    · simp
    · intro k h1 h2
      simp only [List.getElem_zipWith, List.getElem_zip, List.getElem_map]
      exact C15_packed_weights _ _ (h _ (List.getElem_mem _))
  have ht : total (rows.map fun r => r.seqs.flatMap normalised ++ List.replicate r.pad.length 0) =
      (((rows.flatMap (·.seqs)).filter (fun s => s.weights.sum ≠ 0)).length : K) := by
    clear hw h
    induction rows with
    | nil => simp [total]
    | cons r rs ih =>
      have : ∀ seqs : List (Seq K), (seqs.flatMap normalised).sum =
          ((seqs.filter (fun s => s.weights.sum ≠ 0)).length : K) := by
        intro seqs
        induction seqs with
        | nil => simp
        | cons s ss ih' =>
          rw [List.flatMap_cons, List.sum_append, ih', C15_sequence_total, List.filter_cons]
          by_cases h0 : s.weights.sum = 0
          · simp [h0]
          · simp [h0]; ring
      simp only [total, List.map_cons, List.sum_cons, List.flatMap_cons, List.filter_append, List.length_append,
        Nat.cast_add] at ih ⊢
      rw [ih, List.sum_append, this]
      simp
  have hgo : ∀ x, (LNF.special Special.averagePerSequence : LNF K) = x → lnfAndWeights x ⟨targets, some (rows.map fun r => rowWeights r.seqs r.pad),
        some (rows.map (fun r => rowIds r.seqs r.pad), rows.map (fun r => rowPositions r.seqs r.pad))⟩ =
      some (some (((rows.flatMap (·.seqs)).filter (fun s => s.weights.sum ≠ 0)).length : K),
        some (rows.map fun r => r.seqs.flatMap normalised ++ List.replicate r.pad.length 0)) := by
    rintro x rfl
    unfold lnfAndWeights
    dsimp only
    rw [hw, ht]
  rcases hl with rfl | ⟨s, rfl, hs⟩
  · exact hgo _ rfl
  · rw [← hgo _ rfl]
    unfold lnfAndWeights
    have : convertSpecial s = some .averagePerSequence := by
      unfold convertSpecial
      dsimp only
      rw [hs]
      decide
    dsimp only
    rw [this]
    rfl

/-- A row with two sequences, one of them without weight, and padding that carries weight. -/
example : Legal [(⟨3, [1, 0, 2]⟩ : Seq ℚ), ⟨5, [0]⟩] ∧ 
    "average_per_sequence".toList.map Char.toUpper = "AVERAGE_PER_SEQUENCE".toList := by
  refine ⟨?_, by decide⟩
  unfold Legal
  decide

/-- Number of positions where the id changes. -/
def changes (r : List ℤ) : ℕ := ((List.zipWith (· - ·) r.tail r).filter (· ≠ 0)).length

theorem changes_cons (x y : ℤ) (l : List ℤ) : changes (x :: y :: l) = (if y = x then 0 else 1) + changes (y :: l) := by
  unfold changes
  simp only [List.tail_cons, List.zipWith_cons_cons, List.filter_cons]
  by_cases h : y = x
  · simp [h]
  · have : y - x ≠ 0 := sub_ne_zero.2 h
    simp [h, this]; omega

theorem changes_block (a : ℤ) (n : ℕ) (l : List ℤ) (hl : ∀ x ∈ l, x ≠ a) :
    changes (List.replicate (n + 1) a ++ l) = if l = [] then 0 else 1 + changes l := by
  induction n with
  | zero =>
    cases l with
    | nil => rfl
    | cons y ys =>
      have : y ≠ a := hl y (List.mem_cons_self ..)
      simp only [List.replicate_succ, List.replicate_zero, List.cons_append, List.nil_append]
      rw [changes_cons, if_neg this]; simp
  | succ n ih =>
    rw [List.replicate_succ, List.replicate_succ, List.cons_append, List.cons_append, changes_cons, if_pos rfl,
      ← List.cons_append, ← List.replicate_succ, ih]
    omega

omit [IsStrictOrderedRing K] [LinearOrder K] [Field K] in
theorem changes_row (seqs : List (Seq K)) (pad : List K) (h1 : ∀ s ∈ seqs, s.weights ≠ [] ∧ s.id ≠ 0)
    (h2 : (seqs.map (·.id)).Nodup) (hne : rowIds seqs pad ≠ []) :
    changes (rowIds seqs pad) + 1 = seqs.length + if pad = [] then 0 else 1 := by
  induction seqs with
  | nil =>
    cases pad with
    | nil => exact absurd rfl hne
    | cons x xs =>
      have e : rowIds (K := K) [] (x :: xs) = List.replicate (xs.length + 1) 0 ++ [] := by
        simp [rowIds, List.replicate_succ]
      rw [e, changes_block _ _ _ (by simp)]
      simp
  | cons s ss ih =>
    obtain ⟨hw, hid⟩ := h1 s (List.mem_cons_self ..)
    obtain ⟨n, hn⟩ : ∃ n, s.weights.length = n + 1 := ⟨s.weights.length - 1, by
        have := List.length_pos_iff.2 hw; omega⟩
    have e : rowIds (s :: ss) pad = List.replicate (n + 1) s.id ++ rowIds ss pad := by
      simp [rowIds, hn, List.map_const']
    rw [List.map_cons, List.nodup_cons] at h2
    have hmem : ∀ x ∈ rowIds ss pad, x ≠ s.id := by
      intro x hx
      unfold rowIds at hx
      rcases List.mem_append.1 hx with hx | hx
      · obtain ⟨s', hs', hx⟩ := List.mem_flatMap.1 hx
        obtain ⟨_, _, rfl⟩ := List.mem_map.1 hx
        intro he
        exact h2.1 (he ▸ List.mem_map_of_mem (f := fun s : Seq K => s.id) hs')
      · obtain ⟨_, _, rfl⟩ := List.mem_map.1 hx
        exact fun h => hid h.symm
    rw [e, changes_block _ _ _ hmem]
    by_cases hr : rowIds ss pad = []
    · rw [if_pos hr]
      unfold rowIds at hr
      obtain ⟨ha, hb⟩ := List.append_eq_nil_iff.1 hr
      have hp : pad = [] := List.map_eq_nil_iff.1 hb
      have hss : ss = [] := by
        cases ss with
        | nil => rfl
        | cons s' ss' =>
          have := (h1 s' (by simp)).1
          simp at ha
          exact absurd ha.1 this
      simp [hp, hss]
    · rw [if_neg hr]
      have := ih (fun s' hs' => h1 s' (List.mem_cons_of_mem _ hs')) h2.2 hr
      simp only [List.length_cons]
      omega

omit [IsStrictOrderedRing K] [LinearOrder K] [Field K] in
theorem row_last (seqs : List (Seq K)) (pad : List K) (h1 : ∀ s ∈ seqs, s.weights ≠ [] ∧ s.id ≠ 0) :
    (rowIds seqs pad).getLast? = some 0 ↔ pad ≠ [] := by
  constructor
  · intro h hp
    subst hp
    have := List.mem_of_getLast? h
    simp only [rowIds, List.map_nil, List.append_nil] at this
    obtain ⟨s, hs, hx⟩ := List.mem_flatMap.1 this
    obtain ⟨_, _, h0⟩ := List.mem_map.1 hx
    exact (h1 s hs).2 h0
  · intro h
    obtain ⟨x, hx⟩ := List.exists_mem_of_ne_nil _ h
    unfold rowIds
    rw [List.getLast?_append, List.map_const', List.getLast?_replicate, if_neg]
    · rfl
    · intro h'; exact h (List.length_eq_zero_iff.1 h')

omit [IsStrictOrderedRing K] [LinearOrder K] [Field K] in
/-- C16: for every batch of packed rows (in each row: sequences with distinct ids which are not 0, then
padding with id 0), the returned count is the number of packed sequences, which is the number of distinct
non-padding ids summed over the rows. -/
theorem C16_count (rows : List (PackedRow K)) (hne : ∀ r ∈ rows, rowIds r.seqs r.pad ≠ [])
    (h : ∀ r ∈ rows, (∀ s ∈ r.seqs, s.weights ≠ [] ∧ s.id ≠ 0) ∧ (r.seqs.map (·.id)).Nodup) :
    countPackedExamples (rows.map fun r => rowIds r.seqs r.pad) = (rows.flatMap (·.seqs)).length ∧
    (rows.flatMap (·.seqs)).length =
      (rows.map fun r => ((rowIds r.seqs r.pad).filter (· ≠ 0)).dedup.length).sum := by
  constructor
  · unfold countPackedExamples
    dsimp only
    induction rows with
    | nil => rfl
    | cons r rs ih =>
      have ih := ih (fun r' h' => hne r' (List.mem_cons_of_mem _ h')) (fun r' h' => h r' (List.mem_cons_of_mem _ h'))
      obtain ⟨h1, h2⟩ := h r (List.mem_cons_self ..)
      have hc := changes_row r.seqs r.pad h1 h2 (hne r (List.mem_cons_self ..))
      have hl := row_last r.seqs r.pad h1
      unfold changes at hc
      simp only [List.map_cons, List.sum_cons, List.length_cons, List.filter_cons, List.flatMap_cons,
        List.length_append]
      simp only [decide_eq_true_eq] at ih ⊢
      by_cases hp : r.pad = []
      · rw [if_neg (fun h => hl.1 h hp)]
        rw [if_pos hp] at hc
        push_cast at ih ⊢
        omega
      · rw [if_pos (hl.2 hp)]
        rw [if_neg hp] at hc
        simp only [List.length_cons]
        push_cast at ih ⊢
        omega
  · rw [List.length_flatMap]
    congr 1
    apply List.map_congr_left
    intro r hr
    obtain ⟨h1, h2⟩ := h r hr
    rw [← List.card_toFinset]
    have : ((rowIds r.seqs r.pad).filter (· ≠ 0)).toFinset = (r.seqs.map (·.id)).toFinset := by
      ext x
      simp only [List.mem_toFinset, List.mem_filter, rowIds, List.mem_append, List.mem_flatMap, List.mem_map,
        decide_eq_true_eq]
      constructor
      · rintro ⟨⟨s, hs, _, _, rfl⟩ | ⟨_, _, rfl⟩, h0⟩
        · exact ⟨s, hs, rfl⟩
        · exact absurd rfl h0
      · rintro ⟨s, hs, rfl⟩
        obtain ⟨w, hw⟩ := List.exists_mem_of_ne_nil _ (h1 s hs).1
        exact ⟨Or.inl ⟨s, hs, w, hw, rfl⟩, (h1 s hs).2⟩
    rw [this, List.toFinset_card_of_nodup h2, List.length_map]

/-- The batch of the docstring. -/
example : ∃ rows : List (PackedRow ℚ), (rows.map fun r => rowIds r.seqs r.pad) =
    [[1, 1, 3, 3, 0, 0], [2, 2, 2, 2, 2, 2], [2, 7, 7, 7, 7, 0]] ∧
    (∀ r ∈ rows, (∀ s ∈ r.seqs, s.weights ≠ [] ∧ s.id ≠ 0) ∧ (r.seqs.map (·.id)).Nodup) :=
  ⟨[⟨[⟨1, [0, 0]⟩, ⟨3, [0, 0]⟩], [0, 0]⟩, ⟨[⟨2, [0, 0, 0, 0, 0, 0]⟩], []⟩, ⟨[⟨2, [0]⟩, ⟨7, [0, 0, 0, 0]⟩], [0]⟩],
   by decide, by decide⟩

/-- C15: a factor given as a string is the same as the special factor whose name it is up to case; any other string is an error,
for every batch. -/
theorem C15_names (s : List Char) (b : Batch K) :
    (s.map Char.toUpper = "NUM_REAL_TARGET_TOKENS".toList → lnfAndWeights (.str s) b = lnfAndWeights (.special .numReal) b) ∧
    (s.map Char.toUpper = "NUM_TOTAL_TARGET_TOKENS".toList → lnfAndWeights (.str s) b = lnfAndWeights (.special .numTotal) b) ∧
    (s.map Char.toUpper = "AVERAGE_PER_SEQUENCE".toList → lnfAndWeights (.str s) b = lnfAndWeights (.special .averagePerSequence) b) ∧
    (lnfAndWeights (.str s) b = none ↔ s.map Char.toUpper ∉
      ["NUM_REAL_TARGET_TOKENS".toList, "NUM_TOTAL_TARGET_TOKENS".toList, "AVERAGE_PER_SEQUENCE".toList]) := by
  have hA : ∀ h : s.map Char.toUpper = "NUM_REAL_TARGET_TOKENS".toList, convertSpecial s = some .numReal := by
    intro h; simp only [convertSpecial, h, if_true]
  have hB : ∀ h : s.map Char.toUpper = "NUM_TOTAL_TARGET_TOKENS".toList, convertSpecial s = some .numTotal := by
    intro h; simp only [convertSpecial, h]; rfl
  have hC : ∀ h : s.map Char.toUpper = "AVERAGE_PER_SEQUENCE".toList, convertSpecial s = some .averagePerSequence := by
    intro h; simp only [convertSpecial, h]; rfl
  refine ⟨fun h => ?_, fun h => ?_, fun h => ?_, ?_⟩
  · simp only [lnfAndWeights, hA h, Option.map_some]
  · simp only [lnfAndWeights, hB h, Option.map_some]
  · simp only [lnfAndWeights, hC h, Option.map_some]
  · have : lnfAndWeights (.str s) b = none ↔ convertSpecial s = none := by
      simp only [lnfAndWeights, Option.map_eq_none_iff]
    rw [this]
    simp only [List.mem_cons, List.not_mem_nil, or_false, not_or]
    constructor
    · intro h
      refine ⟨fun h' => ?_, fun h' => ?_, fun h' => ?_⟩
      · rw [hA h'] at h; cases h
      · rw [hB h'] at h; cases h
      · rw [hC h'] at h; cases h
    · rintro ⟨h1, h2, h3⟩
      simp only [convertSpecial, if_neg h1, if_neg h2, if_neg h3]

/-- C15: rows that are not packed and have no weights.  A target token has weight one and padding none, and AVERAGE_PER_SEQUENCE gives
each row with `k` target tokens the weight `1 / k` at each of them; the factor is the number of rows with a target token. -/
theorem C15_unpacked (targets : List (List ℤ)) :
    ∃ k w, lnfAndWeights (K := K) (.special .averagePerSequence) ⟨targets, none, none⟩ = some (some k, some w) ∧
      k = ((targets.filter fun r => r.any (0 < ·)).length : K) ∧ w.length = targets.length ∧
      ∀ (i j : Nat) (r : List ℤ) (t : ℤ), targets[i]? = some r → r[j]? = some t →
        (w[i]?.bind (·[j]?)) = some (if 0 < t then 1 / (r.countP (0 < ·) : K) else 0) := by
  have hs : ∀ r : List ℤ, (r.map fun t => if t > 0 then (1 : K) else 0).sum = (r.countP (0 < ·) : K) := by
    intro r
    induction r with
    | nil => simp
    | cons t r ih =>
      rw [List.map_cons, List.sum_cons, ih, List.countP_cons]
      by_cases ht : 0 < t <;> simp [ht, add_comm]
  refine ⟨_, _, rfl, ?_, by simp, ?_⟩
  · unfold total
    induction targets with
    | nil => simp
    | cons r rs ih =>
      simp only [List.map_cons, List.sum_cons, List.filter_cons] at ih ⊢
      rw [ih]
      have hr : ((List.map (fun t => if t > 0 then (1 : K) else 0) r).map
          fun a => safeDiv a (List.map (fun t => if t > 0 then (1 : K) else 0) r).sum).sum = if r.any (0 < ·) then 1 else 0 := by
        rw [hs r]
        by_cases h0 : r.countP (0 < ·) = 0
        · have : r.any (0 < ·) = false := by
            rw [List.any_eq_false]; simpa [List.countP_eq_zero] using h0
          simp [this, safeDiv, h0, Function.comp_def]
        · have ha : r.any (0 < ·) = true := by
            rw [List.any_eq_true]
            by_contra hc
            exact h0 (List.countP_eq_zero.2 fun a ha hp => hc ⟨a, ha, hp⟩)
          have hk : (r.countP (0 < ·) : K) ≠ 0 := Nat.cast_ne_zero.2 h0
          simp only [safeDiv, if_neg hk, ha, if_true, div_eq_mul_inv]
          rw [List.sum_map_mul_right, List.map_id', hs r, mul_inv_cancel₀ hk]
      rw [hr]
      by_cases ha : r.any (0 < ·) = true
      · simp only [ha, if_true, List.length_cons]; push_cast; ring
      · simp only [ha, Bool.false_eq_true, if_false]; ring
  · intro i j r t hi hj
    simp only [List.getElem?_map, hi, Option.map_some, Option.bind_some, hj, hs]
    by_cases ht : 0 < t
    · have h0 : r.countP (0 < ·) ≠ 0 := fun h =>
        (List.countP_eq_zero.1 h) t (List.mem_of_getElem? hj) (by simpa using ht)
      have hk : (r.countP (0 < ·) : K) ≠ 0 := Nat.cast_ne_zero.2 h0
      simp [safeDiv, ht, hk]
    · simp [safeDiv, ht]

example : "Num_Total_target_tokens".toList.map Char.toUpper = "NUM_TOTAL_TARGET_TOKENS".toList := by decide
example : lnfAndWeights (K := ℚ) (.str "average_per_token".toList) ⟨[[3, 4, 0]], none, none⟩ = none := by decide
example : lnfAndWeights (K := ℚ) (.special .averagePerSequence) ⟨[[3, 4, 0], [0, 0, 0]], none, none⟩ =
    some (some 1, some [[1 / 2, 1 / 2, 0], [0, 0, 0]]) := by
  norm_num [lnfAndWeights, total, safeDiv]

end Verif.LossWeights
