import Verif.Model.PackedLoss
import Verif.Props.Transformer
import Verif.Props.DecoderOnly
import Verif.Props.LossWeights
import Verif.Props.Loss
import Mathlib.Data.List.GetD
import Mathlib.Analysis.Calculus.FDeriv.Basic
/-
Property C96: packing the examples of a batch into rows does not change the training loss and its gradient.
-/
namespace Verif.PackedLoss
open Verif.Masks Verif.Transformer Verif.Transformer.Spec

namespace Spec

/-- An example.  The four lists of the decoder side have the same length. -/
structure Example where
  enc : List Int
  inputs : List Int
  targets : List Int
  causal : List Int
  weights : List ℝ

/-- There is a target, targets are not padding, weights are not negative. -/
structure Example.WF (e : Example) : Prop where
  ne : e.targets ≠ []
  pos : ∀ t ∈ e.targets, t > 0
  inputs : e.inputs.length = e.targets.length
  causal : e.causal.length = e.targets.length
  weights : e.weights.length = e.targets.length
  nonneg : ∀ w ∈ e.weights, 0 ≤ w

/-- The text for the encoder is not empty and has no padding. -/
def Example.HasText (e : Example) : Prop := e.enc ≠ [] ∧ ∀ t ∈ e.enc, t > 0

/-- A row of length n: the list, then zeros. -/
def pad {α : Type} [Zero α] (n : Nat) (l : List α) : Fin n → α := fun j => l.getD j 0

/-- The segment ids of a row: k for the tokens of the first example, k + 1 for those of the second, … -/
def ids (len : Example → Nat) : Int → List Example → List Int
  | _, [] => []
  | k, e :: es => List.replicate (len e) k ++ ids len (k + 1) es

/-- Examples one after the other in a row, then padding, as seqio packs them. -/
def packRow (n m : Nat) (es : List Example) : TrainRow n m where
  encTokens := pad m (es.flatMap Example.enc)
  decInputs := pad n (es.flatMap Example.inputs)
  decTargets := pad n (es.flatMap Example.targets)
  causal := pad n (es.flatMap Example.causal)
  weights := pad n (es.flatMap Example.weights)
  encSeg := pad m (ids (fun e => e.enc.length) 1 es)
  decSeg := pad n (ids (fun e => e.targets.length) 1 es)
  positions := pad n (es.flatMap fun e => List.range e.targets.length)

/-- The batch in which each of the groups of examples is packed into a row. -/
def packedBatch (n m : Nat) (weighted : Bool) (groups : List (List Example)) : TrainBatch n m := ⟨groups.map (packRow n m), true, weighted⟩

/-- The batch with one example in each row, and no segment ids. -/
def paddedBatch (n m : Nat) (weighted : Bool) (es : List Example) : TrainBatch n m := ⟨es.map fun e => packRow n m [e], false, weighted⟩

/-- The example on its own, without padding. -/
def aloneInput (x : Example) : Transformer.Input x.targets.length x.enc.length :=
  ⟨pad _ x.enc, pad _ x.inputs, pad _ x.targets, none, none⟩

/-- The examples fit into a row. -/
def Fits (n m : Nat) (es : List Example) : Prop := (es.flatMap Example.targets).length ≤ n ∧ (es.flatMap Example.enc).length ≤ m

/-- The ways of normalising for which the loss does not depend on the packing: all but the total number of positions in the batch, if there
are weights; otherwise those which make weights that leave out padding. -/
def PackingSafe (weighted : Bool) : LossWeights.LNF ℝ → Prop
  | .none => weighted = true
  | .const _ => weighted = true
  | .special s => s ≠ .numTotal
  | .str s => s.map Char.toUpper = "NUM_REAL_TARGET_TOKENS".toList ∨ s.map Char.toUpper = "AVERAGE_PER_SEQUENCE".toList

end Spec
open Spec

/-! ### Positions in a packed row -/

theorem getD_flatMap {α : Type} (f : Example → List α) (d : α) (pre : List Example) (e : Example) (post : List Example) (i : Nat)
    (hi : i < (f e).length) : ((pre ++ e :: post).flatMap f).getD ((pre.flatMap f).length + i) d = (f e).getD i d := by
  rw [List.flatMap_append, List.getD_append_right _ _ _ _ (by omega), List.flatMap_cons, List.getD_append _ _ _ _ (by omega)]
  congr 1; omega

theorem flatMap_split {α : Type} (f : Example → List α) (es : List Example) (k : Nat) (hk : k < (es.flatMap f).length) :
    ∃ pre e post i, es = pre ++ e :: post ∧ i < (f e).length ∧ k = (pre.flatMap f).length + i := by
  induction es generalizing k with
  | nil => simp at hk
  | cons e es ih =>
    by_cases h : k < (f e).length
    · exact ⟨[], e, es, k, rfl, h, by simp⟩
    · rw [List.flatMap_cons, List.length_append] at hk
      obtain ⟨pre, e', post, i, h1, h2, h3⟩ := ih (k - (f e).length) (by omega)
      refine ⟨e :: pre, e', post, i, by rw [h1]; rfl, h2, ?_⟩
      rw [List.flatMap_cons, List.length_append]; omega

theorem ids_range (len : Example → Nat) (es : List Example) (k : Int) (j : Nat) :
    (ids len k es).getD j 0 = 0 ∨ k ≤ (ids len k es).getD j 0 := by
  induction es generalizing k j with
  | nil => left; rfl
  | cons e es ih =>
    simp only [ids]
    by_cases h : j < len e
    · right
      rw [List.getD_append _ _ _ _ (by simpa using h), List.getD_eq_getElem?_getD, List.getElem?_replicate, if_pos h]
      simp
    · rw [List.getD_append_right _ _ _ _ (by simpa using h)]
      rcases ih (k + 1) (j - (List.replicate (len e) k).length) with h | h
      · exact Or.inl h
      · right; omega

theorem ids_spec (len : Example → Nat) (pre : List Example) (e : Example) (post : List Example) (k : Int) (hk : 0 < k) (j : Nat) :
    (ids len k (pre ++ e :: post)).getD j 0 = k + pre.length ↔ (pre.map len).sum ≤ j ∧ j < (pre.map len).sum + len e := by
  induction pre generalizing k j with
  | nil =>
    simp only [List.nil_append, ids, List.length_nil, Nat.cast_zero, add_zero, List.map_nil, List.sum_nil, Nat.zero_le, true_and, zero_add]
    by_cases h : j < len e
    · rw [List.getD_append _ _ _ _ (by simpa using h), List.getD_eq_getElem?_getD, List.getElem?_replicate, if_pos h]
      simp [h]
    · rw [List.getD_append_right _ _ _ _ (by simpa using h)]
      have := ids_range len post (k + 1) (j - (List.replicate (len e) k).length)
      constructor
      · intro h'; omega
      · intro h'; exact absurd h' h
  | cons e0 pre ih =>
    simp only [List.cons_append, ids, List.length_cons, List.map_cons, List.sum_cons]
    by_cases h : j < len e0
    · rw [List.getD_append _ _ _ _ (by simpa using h), List.getD_eq_getElem?_getD, List.getElem?_replicate, if_pos h]
      simp only [Option.getD_some]
      constructor
      · intro h'; push_cast at h'; omega
      · intro h'; omega
    · rw [List.getD_append_right _ _ _ _ (by simpa using h)]
      have := ih (k + 1) (by omega) (j - (List.replicate (len e0) k).length)
      simp only [List.length_replicate] at this ⊢
      rw [show k + ((pre.length + 1 : ℕ) : Int) = k + 1 + pre.length by push_cast; ring, this]
      omega

theorem sum_lengths {α : Type} (f : Example → List α) (es : List Example) : (es.map fun e => (f e).length).sum = (es.flatMap f).length := by
  rw [List.length_flatMap]

theorem ids_length (len : Example → Nat) (es : List Example) (k : Int) : (ids len k es).length = (es.map len).sum := by
  induction es generalizing k with
  | nil => rfl
  | cons e es ih => simp [ids, ih]

theorem ofFn_pad {α : Type} [Zero α] (n : Nat) (l : List α) (h : l.length ≤ n) : List.ofFn (pad n l) = l ++ List.replicate (n - l.length) 0 := by
  apply List.ext_getElem
  · simp; omega
  · intro i h1 h2
    rw [List.getElem_ofFn]
    simp only [pad, List.getD_eq_getElem?_getD]
    by_cases hi : i < l.length
    · rw [List.getElem_append_left hi, List.getElem?_eq_getElem hi]; rfl
    · rw [List.getElem_append_right (by omega), List.getElem?_eq_none (by omega)]; simp

theorem flatMap_length_eq {α β : Type} (f : Example → List α) (g : Example → List β) (es : List Example)
    (h : ∀ e ∈ es, (f e).length = (g e).length) : (es.flatMap f).length = (es.flatMap g).length := by
  rw [List.length_flatMap, List.length_flatMap]
  congr 1
  exact List.map_congr_left h

/-! ### Sums over a row -/

theorem zipWith_flatMap (f g : Example → List ℝ) (es : List Example) (h : ∀ e ∈ es, (f e).length = (g e).length) (a b : List ℝ) :
    List.zipWith (· * ·) (es.flatMap f ++ a) (es.flatMap g ++ b) = es.flatMap (fun e => List.zipWith (· * ·) (f e) (g e)) ++ List.zipWith (· * ·) a b := by
  induction es with
  | nil => rfl
  | cons e es ih =>
    simp only [List.flatMap_cons, List.append_assoc]
    rw [List.zipWith_append (h e (List.mem_cons_self ..)), ih fun e' he' => h e' (List.mem_cons_of_mem _ he')]

theorem zipWith_zeros (a : List ℝ) (k : Nat) : (List.zipWith (· * ·) a (List.replicate k 0)).sum = 0 := by
  induction a generalizing k with
  | nil => simp
  | cons x a ih => cases k with
    | zero => simp
    | succ k => simp [List.replicate_succ, ih]

theorem sum_flatMap (f : Example → List ℝ) (es : List Example) : (es.flatMap f).sum = (es.map fun e => (f e).sum).sum := by
  induction es with
  | nil => rfl
  | cons e es ih => simp [ih]

/-- Weighted sums over the rows of a batch are weighted sums over its examples. -/
theorem total_groups (groups : List (List Example)) (T : List Example → List ℝ) (t wt : Example → List ℝ) (c : List Example → Nat)
    (hT : ∀ g ∈ groups, ∃ rest, T g = g.flatMap t ++ rest) (hl : ∀ g ∈ groups, ∀ e ∈ g, (t e).length = (wt e).length) :
    LossWeights.total (List.zipWith (List.zipWith (· * ·)) (groups.map T) (groups.map fun g => g.flatMap wt ++ List.replicate (c g) 0)) =
      (groups.flatten.map fun e => (List.zipWith (· * ·) (t e) (wt e)).sum).sum := by
  induction groups with
  | nil => rfl
  | cons g gs ih =>
    obtain ⟨rest, hr⟩ := hT g (List.mem_cons_self ..)
    have := ih (fun g' h' => hT g' (List.mem_cons_of_mem _ h')) (fun g' h' => hl g' (List.mem_cons_of_mem _ h'))
    simp only [LossWeights.total, List.map_cons, List.zipWith_cons_cons, List.sum_cons, List.flatten_cons, List.map_append, List.sum_append] at this ⊢
    rw [this, hr, zipWith_flatMap _ _ _ (hl g (List.mem_cons_self ..)), List.sum_append, zipWith_zeros, add_zero, sum_flatMap]

theorem total_weights (groups : List (List Example)) (wt : Example → List ℝ) (c : List Example → Nat) :
    LossWeights.total (groups.map fun g => g.flatMap wt ++ List.replicate (c g) 0) = (groups.flatten.map fun e => (wt e).sum).sum := by
  induction groups with
  | nil => rfl
  | cons g gs ih =>
    simp only [LossWeights.total, List.map_cons, List.sum_cons, List.flatten_cons, List.map_append, List.sum_append] at ih ⊢
    rw [ih, sum_flatMap]; simp

theorem total_div (k : ℝ) (rows : List (List ℝ)) : LossWeights.total (rows.map fun r => r.map (· / k)) = LossWeights.total rows / k := by
  have h : ∀ r : List ℝ, (r.map (· / k)).sum = r.sum / k := fun r => by
    simp only [div_eq_mul_inv]; rw [List.sum_map_mul_right, List.map_id']
  simp only [LossWeights.total, List.map_map, Function.comp_def, h]
  have := h (rows.map List.sum)
  rw [List.map_map] at this
  exact this

/-! ### Weights and normalising factors -/

/-- The weights of an example: as given, or 1 for every target. -/
def wt (weighted : Bool) (e : Example) : List ℝ := if weighted then e.weights else e.targets.map fun _ => 1

noncomputable def normalised (weighted : Bool) (e : Example) : List ℝ :=
  (wt weighted e).map fun a => if (wt weighted e).sum = 0 then 0 else a / (wt weighted e).sum

theorem wt_length (weighted : Bool) (e : Example) (h : e.WF) : (wt weighted e).length = e.targets.length := by
  unfold wt; split_ifs
  · exact h.weights
  · simp

/-- What the loss is computed with, in terms of the examples. -/
noncomputable def weightOf (weighted : Bool) : LossWeights.LNF ℝ → Example → List ℝ
  | .none => wt weighted
  | .const _ => wt weighted
  | .special .averagePerSequence => normalised weighted
  | .special _ => wt weighted
  | .str s => if s.map Char.toUpper = "AVERAGE_PER_SEQUENCE".toList then normalised weighted else wt weighted

noncomputable def factorOf (weighted : Bool) (es : List Example) : LossWeights.LNF ℝ → Option ℝ
  | .none => none
  | .const k => some k
  | l => some (es.map fun e => (weightOf weighted l e).sum).sum

/-- A batch made of groups: packed, or one example in each row. -/
structure Made (n m : Nat) (packed : Bool) (groups : List (List Example)) : Prop where
  wf : ∀ g ∈ groups, ∀ e ∈ g, e.WF
  fits : ∀ g ∈ groups, Fits n m g
  single : packed = false → ∀ g ∈ groups, ∃ e, g = [e]

def fill (n : Nat) (g : List Example) : Nat := n - (g.flatMap Example.targets).length

/-- The weights of a batch. -/
theorem weights_eq {n m : Nat} {packed : Bool} {groups : List (List Example)} (h : Made n m packed groups) (weighted : Bool) :
    let W : List (List ℝ) := groups.map fun g => g.flatMap (wt weighted) ++ List.replicate (fill n g) 0
    let b := lossFeatures ⟨groups.map (packRow n m), packed, weighted⟩
    weighted = true ∧ b.weights = some W ∨ b.weights = none ∧ b.targets.map (fun r => r.map (fun t => if t > 0 then (1 : ℝ) else 0)) = W := by
  intro W b
  simp only [W, b]
  cases weighted with
  | true =>
    refine Or.inl ⟨rfl, ?_⟩
    simp only [lossFeatures, if_true, List.map_map, Option.some.injEq]
    refine List.map_congr_left fun g hg => ?_
    have hlen := flatMap_length_eq Example.weights Example.targets g fun e he => (h.wf g hg e he).weights
    simp only [Function.comp_def, packRow]
    rw [ofFn_pad _ _ (by rw [hlen]; exact (h.fits g hg).1), hlen]
    rfl
  | false =>
    refine Or.inr ⟨rfl, ?_⟩
    simp only [lossFeatures, List.map_map]
    refine List.map_congr_left fun g hg => ?_
    simp only [Function.comp_def, packRow]
    rw [ofFn_pad _ _ (h.fits g hg).1, List.map_append, List.map_flatMap]
    simp only [List.map_replicate, gt_iff_lt, lt_self_iff_false, if_false, fill]
    congr 1
    have hpos : ∀ e ∈ g, (e.targets.map fun t => if 0 < t then (1 : ℝ) else 0) = wt false e := by
      intro e he
      simp only [wt, Bool.false_eq_true, if_false]
      exact List.map_congr_left fun t ht => if_pos ((h.wf g hg e he).pos t ht)
    clear hg
    induction g with
    | nil => rfl
    | cons e g ih => simp only [List.flatMap_cons]; rw [hpos e (List.mem_cons_self ..), ih fun e' he' => hpos e' (List.mem_cons_of_mem _ he')]

def seqs (weighted : Bool) : Int → List Example → List (LossWeights.Spec.Seq ℝ)
  | _, [] => []
  | k, e :: es => ⟨k, wt weighted e⟩ :: seqs weighted (k + 1) es

theorem seqs_spec (weighted : Bool) (es : List Example) (hw : ∀ e ∈ es, e.WF) (k : Int) (hk : 0 < k) :
    LossWeights.Spec.Legal (seqs weighted k es) ∧
    (seqs weighted k es).flatMap (fun s => s.weights) = es.flatMap (wt weighted) ∧
    (seqs weighted k es).flatMap (fun s => s.weights.map (fun _ => s.id)) = ids (fun e => e.targets.length) k es ∧
    (seqs weighted k es).flatMap (fun s => List.range s.weights.length) = es.flatMap (fun e => List.range e.targets.length) ∧
    (seqs weighted k es).flatMap LossWeights.Spec.normalised = es.flatMap (normalised weighted) ∧
    ((seqs weighted k es).filter (fun s => s.weights.sum ≠ 0)).length = (es.filter (fun e => (wt weighted e).sum ≠ 0)).length := by
  induction es generalizing k with
  | nil => exact ⟨fun s hs => by simp [seqs] at hs, rfl, rfl, rfl, rfl, rfl⟩
  | cons e es ih =>
    obtain ⟨h1, h2, h3, h4, h5, h6⟩ := ih (fun e' he' => hw e' (List.mem_cons_of_mem _ he')) (k + 1) (by omega)
    have he := hw e (List.mem_cons_self ..)
    have hl := wt_length weighted e he
    refine ⟨?_, ?_, ?_, ?_, ?_, ?_⟩
    · intro s hs
      simp only [seqs, List.mem_cons] at hs
      rcases hs with rfl | hs
      · refine ⟨fun h0 => ?_, by simpa using hk.ne', ?_⟩
        · simp only [] at h0
          rw [h0] at hl
          exact he.ne (List.length_eq_zero_iff.1 hl.symm)
        · intro a ha
          simp only [wt] at ha
          split_ifs at ha
          · exact he.nonneg a ha
          · obtain ⟨_, _, rfl⟩ := List.mem_map.1 ha; exact zero_le_one
      · exact h1 s hs
    · simp only [seqs, List.flatMap_cons, h2]
    · simp only [seqs, List.flatMap_cons, h3, ids]
      congr 1
      rw [List.map_const', hl]
    · simp only [seqs, List.flatMap_cons, h4, hl]
    · simp only [seqs, List.flatMap_cons, h5]
      rfl
    · simp only [seqs, List.filter_cons]
      by_cases h0 : (wt weighted e).sum = 0
      · simp only [h0, ne_eq, not_true, decide_false, Bool.false_eq_true, if_false]; exact h6
      · simp only [h0, ne_eq, not_false_eq_true, decide_true, if_true, List.length_cons]; rw [← h6]

/-- The scaled weights of a batch. -/
theorem average_eq {n m : Nat} {packed : Bool} {groups : List (List Example)} (h : Made n m packed groups) (weighted : Bool) :
    let W : List (List ℝ) := groups.map fun g => g.flatMap (wt weighted) ++ List.replicate (fill n g) 0
    let N : List (List ℝ) := groups.map fun g => g.flatMap (normalised weighted) ++ List.replicate (fill n g) 0
    let b := lossFeatures ⟨groups.map (packRow n m), packed, weighted⟩
    (∃ seg pos, b.packed = some (seg, pos) ∧ List.zipWith (fun (sp : List ℤ × List ℕ) r => List.zipWith LossWeights.safeDiv r
      (LossWeights.sumWeightsPerSegment sp.2 sp.1 r)) (seg.zip pos) W = N) ∨
    b.packed = none ∧ W.map (fun r => r.map (fun a => LossWeights.safeDiv a r.sum)) = N := by
  intro W N b
  simp only [W, N, b]
  cases packed with
  | true =>
    refine Or.inl ⟨_, _, rfl, ?_⟩
    simp only [List.map_map, Function.comp_def]
    apply List.ext_getElem
    · simp
    · intro i h1 h2
      simp only [List.getElem_zipWith, List.getElem_zip, List.getElem_map]
      have hi : i < groups.length := by simpa using h2
      have hg : groups[i] ∈ groups := List.getElem_mem hi
      obtain ⟨k1, k2, k3, k4, k5, -⟩ := seqs_spec weighted groups[i] (h.wf _ hg) 1 (by decide)
      have hseg : List.ofFn (packRow n m groups[i]).decSeg = LossWeights.Spec.rowIds (seqs weighted 1 groups[i]) (List.replicate (fill n groups[i]) 0) := by
        simp only [packRow, LossWeights.Spec.rowIds, k3]
        have hl : (ids (fun e => e.targets.length) 1 groups[i]).length = (groups[i].flatMap Example.targets).length := by
          rw [ids_length, sum_lengths]
        rw [ofFn_pad _ _ (by rw [hl]; exact (h.fits _ hg).1), hl]
        simp [fill]
      have hpos : List.ofFn (packRow n m groups[i]).positions = LossWeights.Spec.rowPositions (seqs weighted 1 groups[i]) (List.replicate (fill n groups[i]) 0) := by
        simp only [packRow, LossWeights.Spec.rowPositions, k4]
        have hl := flatMap_length_eq (fun e => List.range e.targets.length) Example.targets groups[i] fun e _ => List.length_range
        rw [ofFn_pad _ _ (by rw [hl]; exact (h.fits _ hg).1), hl]
        simp [fill]
      have hw : groups[i].flatMap (wt weighted) ++ List.replicate (fill n groups[i]) 0 =
          LossWeights.Spec.rowWeights (seqs weighted 1 groups[i]) (List.replicate (fill n groups[i]) 0) := by
        simp only [LossWeights.Spec.rowWeights, k2]
      rw [hseg, hpos, hw, LossWeights.C15_packed_weights _ _ k1, k5, List.length_replicate]
  | false =>
    refine Or.inr ⟨rfl, ?_⟩
    simp only [List.map_map]
    refine List.map_congr_left fun g hg => ?_
    obtain ⟨e, rfl⟩ := h.single rfl g hg
    simp only [Function.comp_def, List.flatMap_cons, List.flatMap_nil, List.append_nil, List.map_append, List.map_replicate]
    have hs : (wt weighted e ++ List.replicate (fill n [e]) 0).sum = (wt weighted e).sum := by simp
    rw [hs]
    congr 1
    · simp [LossWeights.safeDiv]

theorem convert_real (s : List Char) (h : s.map Char.toUpper = "NUM_REAL_TARGET_TOKENS".toList) :
    LossWeights.convertSpecial s = some .numReal := by
  simp only [LossWeights.convertSpecial, h, if_true]

theorem convert_average (s : List Char) (h : s.map Char.toUpper = "AVERAGE_PER_SEQUENCE".toList) :
    LossWeights.convertSpecial s = some .averagePerSequence := by
  simp only [LossWeights.convertSpecial, h]
  decide

/-- Weights and factor of a batch, in terms of its examples. -/
theorem lnf_eq {n m : Nat} {packed : Bool} {groups : List (List Example)} (h : Made n m packed groups) (weighted : Bool)
    (lnf : LossWeights.LNF ℝ) (hs : PackingSafe weighted lnf) :
    LossWeights.lnfAndWeights lnf (lossFeatures ⟨groups.map (packRow n m), packed, weighted⟩) =
      some (factorOf weighted groups.flatten lnf, some (groups.map fun g => g.flatMap (weightOf weighted lnf) ++ List.replicate (fill n g) 0)) := by
  have hw := weights_eq h weighted
  have ha := average_eq h weighted
  have key : ∀ s : LossWeights.Special, s ≠ .numTotal →
      LossWeights.lnfAndWeights (.special s) (lossFeatures ⟨groups.map (packRow n m), packed, weighted⟩) =
      some (factorOf weighted groups.flatten (.special s),
        some (groups.map fun g => g.flatMap (weightOf weighted (.special s)) ++ List.replicate (fill n g) 0)) := by
    intro s hs
    cases s with
    | numTotal => exact absurd rfl hs
    | numReal =>
      rcases hw with ⟨-, hw⟩ | ⟨hw, hw'⟩
      · simp only [LossWeights.lnfAndWeights, factorOf, weightOf, hw, total_weights]
      · simp only [LossWeights.lnfAndWeights, factorOf, weightOf, hw, hw', total_weights]
    | averagePerSequence =>
      rcases hw with ⟨-, hw⟩ | ⟨hw, hw'⟩ <;> rcases ha with ⟨seg, pos, h1, h2⟩ | ⟨h1, h2⟩
      · simp only [LossWeights.lnfAndWeights, factorOf, weightOf, hw, h1, h2, total_weights]
      · simp only [LossWeights.lnfAndWeights, factorOf, weightOf, hw, h1, h2, total_weights]
      · simp only [LossWeights.lnfAndWeights, factorOf, weightOf, hw, hw', h1, h2, total_weights]
      · simp only [LossWeights.lnfAndWeights, factorOf, weightOf, hw, hw', h1, h2, total_weights]
  cases lnf with
  | none =>
    simp only [PackingSafe] at hs
    subst hs
    rcases hw with ⟨-, hw⟩ | ⟨hw, -⟩
    · simp only [LossWeights.lnfAndWeights, factorOf, weightOf, hw]
    · simp [lossFeatures] at hw
  | const k =>
    simp only [PackingSafe] at hs
    subst hs
    rcases hw with ⟨-, hw⟩ | ⟨hw, -⟩
    · simp only [LossWeights.lnfAndWeights, factorOf, weightOf, hw]
    · simp [lossFeatures] at hw
  | special s => exact key s hs
  | str s =>
    rcases hs with hs | hs
    · have h1 := key .numReal (by decide)
      have h2 : weightOf weighted (.str s) = weightOf weighted (.special .numReal) := by
        simp only [weightOf, hs]; rw [if_neg (by decide)]
      have h3 : factorOf weighted groups.flatten (.str s) = factorOf weighted groups.flatten (.special .numReal) := by
        simp only [factorOf, h2]
      rw [h2, h3, ← h1]
      simp only [LossWeights.lnfAndWeights, convert_real s hs, Option.map_some]
    · have h1 := key .averagePerSequence (by decide)
      have h2 : weightOf weighted (.str s) = weightOf weighted (.special .averagePerSequence) := by
        simp only [weightOf, hs, if_true]
      have h3 : factorOf weighted groups.flatten (.str s) = factorOf weighted groups.flatten (.special .averagePerSequence) := by
        simp only [factorOf, h2]
      rw [h2, h3, ← h1]
      simp only [LossWeights.lnfAndWeights, convert_average s hs, Option.map_some]

theorem weightOf_length (weighted : Bool) (lnf : LossWeights.LNF ℝ) (e : Example) (h : e.WF) : (weightOf weighted lnf e).length = e.targets.length := by
  have h1 := wt_length weighted e h
  have h2 : (normalised weighted e).length = e.targets.length := by simp [normalised, h1]
  cases lnf with
  | none => exact h1
  | const _ => exact h1
  | special s => cases s <;> first | exact h1 | exact h2
  | str s => simp only [weightOf]; split_ifs <;> assumption

/-! ### The loss in terms of the examples -/

variable {V : Nat}

/-- The losses of an example's targets. -/
noncomputable def terms (smoothing z : ℝ) (ref : Example → Nat → Vec V) (e : Example) : List (ℝ × ℝ) :=
  (List.range e.targets.length).map fun i => position smoothing z (ref e i) (e.targets.getD i 0)

/-- The logits of a batch are those of its examples, at the places where they are packed. -/
def Agree {n m : Nat} (logits : TrainRow n m → Option (Fin n → Vec V)) (ref : Example → Nat → Vec V) (g : List Example) : Prop :=
  ∃ y, logits (packRow n m g) = some y ∧ ∀ pre e post, g = pre ++ e :: post → ∀ (i : Nat) (j : Fin n), i < e.targets.length →
    j.val = (pre.flatMap Example.targets).length + i → y j = ref e i

theorem terms_row {n m : Nat} (smoothing z : ℝ) (ref : Example → Nat → Vec V) (g : List Example) (hf : (g.flatMap Example.targets).length ≤ n)
    (y : Fin n → Vec V) (hy : ∀ pre e post, g = pre ++ e :: post → ∀ (i : Nat) (j : Fin n), i < e.targets.length →
      j.val = (pre.flatMap Example.targets).length + i → y j = ref e i) :
    ∃ rest, (List.ofFn fun j => position smoothing z (y j) ((packRow n m g).decTargets j)) = g.flatMap (terms smoothing z ref) ++ rest := by
  have hlen : ∀ es : List Example, (es.flatMap (terms smoothing z ref)).length = (es.flatMap Example.targets).length := fun es =>
    flatMap_length_eq _ _ es fun e _ => by simp [terms]
  refine ⟨(List.ofFn fun j => position smoothing z (y j) ((packRow n m g).decTargets j)).drop (g.flatMap Example.targets).length, ?_⟩
  conv_lhs => rw [← List.take_append_drop (g.flatMap Example.targets).length (List.ofFn _)]
  congr 1
  apply List.ext_getElem
  · rw [hlen, List.length_take, List.length_ofFn]; omega
  · intro k h1 h2
    rw [hlen] at h2
    obtain ⟨pre, e, post, i, h3, h4, h5⟩ := flatMap_split Example.targets g k h2
    have e1 := getD_flatMap (terms smoothing z ref) (0, 0) pre e post i (by simpa [terms] using h4)
    have e2 := getD_flatMap Example.targets 0 pre e post i h4
    rw [hlen, ← h5, ← h3] at e1
    rw [← h5, ← h3] at e2
    rw [List.getElem_take, List.getElem_ofFn, hy pre e post h3 i ⟨k, by omega⟩ h4 h5]
    rw [List.getD_eq_getElem?_getD, List.getElem?_eq_getElem (by rw [hlen]; exact h2), Option.getD_some] at e1
    rw [e1]
    simp only [packRow, pad, e2]
    simp [terms, List.getD_eq_getElem?_getD, h4]

theorem mapM_some {α β : Type} (f : α → Option β) (g : α → β) (l : List α) (h : ∀ a ∈ l, f a = some (g a)) : l.mapM f = some (l.map g) := by
  induction l with
  | nil => rfl
  | cons a l ih =>
    rw [List.mapM_cons, h a (List.mem_cons_self ..), ih fun b hb => h b (List.mem_cons_of_mem _ hb)]
    rfl

noncomputable def over (k : Option ℝ) (x : ℝ) : ℝ := match k with
  | some k => x / k
  | none => x

theorem loss_eq {n m : Nat} {packed : Bool} {groups : List (List Example)} (h : Made n m packed groups) (weighted : Bool)
    (logits : TrainRow n m → Option (Fin n → Vec V)) (ref : Example → Nat → Vec V) (ha : ∀ g ∈ groups, Agree logits ref g)
    (lnf : LossWeights.LNF ℝ) (smoothing z : ℝ) (w : Example → List ℝ) (k : Option ℝ) (hw : ∀ e, e.WF → (w e).length = e.targets.length)
    (hlnf : LossWeights.lnfAndWeights lnf (lossFeatures ⟨groups.map (packRow n m), packed, weighted⟩) =
      some (k, some (groups.map fun g => g.flatMap w ++ List.replicate (fill n g) 0))) :
    lossFn logits lnf smoothing z ⟨groups.map (packRow n m), packed, weighted⟩ =
      some (over k (groups.flatten.map fun e => (List.zipWith (· * ·) ((terms smoothing z ref e).map Prod.fst) (w e)).sum).sum,
        over k (groups.flatten.map fun e => (List.zipWith (· * ·) ((terms smoothing z ref e).map Prod.snd) (w e)).sum).sum,
        (groups.flatten.map fun e => (w e).sum).sum) := by
  have hl : (groups.map (packRow n m)).mapM logits = some ((groups.map (packRow n m)).map fun r => (logits r).getD fun _ _ => 0) := by
    apply mapM_some
    intro r hr
    obtain ⟨g, hg, rfl⟩ := List.mem_map.1 hr
    obtain ⟨y, hy, _⟩ := ha g hg
    rw [hy]; rfl
  have hrow : ∀ g ∈ groups, ∃ rest, (List.ofFn fun j => position smoothing z (((logits (packRow n m g)).getD fun _ _ => 0) j) ((packRow n m g).decTargets j)) =
      g.flatMap (terms smoothing z ref) ++ rest := by
    intro g hg
    obtain ⟨y, hy, hy'⟩ := ha g hg
    rw [hy, Option.getD_some]
    exact terms_row smoothing z ref g (h.fits g hg).1 y hy'
  have hz : List.zipWith (fun (y : Fin n → Vec V) (r : TrainRow n m) => List.ofFn fun i => position smoothing z (y i) (r.decTargets i))
      ((groups.map (packRow n m)).map fun r => (logits r).getD fun _ _ => 0) (groups.map (packRow n m)) =
      groups.map fun g => List.ofFn fun j => position smoothing z (((logits (packRow n m g)).getD fun _ _ => 0) j) ((packRow n m g).decTargets j) := by
    apply List.ext_getElem
    · simp
    · intro i h1 h2; simp
  have hsum : ∀ p : ℝ × ℝ → ℝ, LossWeights.total (List.zipWith (List.zipWith (· * ·)) ((groups.map fun g => List.ofFn fun j =>
        position smoothing z (((logits (packRow n m g)).getD fun _ _ => 0) j) ((packRow n m g).decTargets j)).map fun r => r.map p)
        (groups.map fun g => g.flatMap w ++ List.replicate (fill n g) 0)) =
      (groups.flatten.map fun e => (List.zipWith (· * ·) ((terms smoothing z ref e).map p) (w e)).sum).sum := by
    intro p
    rw [List.map_map]
    refine total_groups groups _ (fun e => (terms smoothing z ref e).map p) w (fill n) ?_ ?_
    · intro g hg
      obtain ⟨rest, hr⟩ := hrow g hg
      refine ⟨rest.map p, ?_⟩
      simp only [Function.comp_def]
      rw [hr, List.map_append, List.map_flatMap]
    · intro g hg e he
      simp [terms, hw e (h.wf g hg e he)]
  simp only [lossFn, hl, Option.bind_some, hlnf, Option.map_some, hz, weighAndSum]
  cases k with
  | none => simp only [hsum, total_weights, over]
  | some k => simp only [total_div, hsum, total_weights, over]

/-- Two batches that hold the same examples have the same loss. -/
theorem same_loss {n m n' m' : Nat} {packed packed' : Bool} {groups groups' : List (List Example)} (h : Made n m packed groups)
    (h' : Made n' m' packed' groups') (hg : groups.flatten = groups'.flatten) (weighted : Bool)
    (logits : TrainRow n m → Option (Fin n → Vec V)) (logits' : TrainRow n' m' → Option (Fin n' → Vec V)) (ref : Example → Nat → Vec V)
    (ha : ∀ g ∈ groups, Agree logits ref g) (ha' : ∀ g ∈ groups', Agree logits' ref g)
    (lnf : LossWeights.LNF ℝ) (hs : PackingSafe weighted lnf) (smoothing z : ℝ) :
    ∃ v, lossFn logits lnf smoothing z ⟨groups.map (packRow n m), packed, weighted⟩ = some v ∧
      lossFn logits' lnf smoothing z ⟨groups'.map (packRow n' m'), packed', weighted⟩ = some v := by
  refine ⟨_, loss_eq h weighted logits ref ha lnf smoothing z _ _ (weightOf_length weighted lnf) (lnf_eq h weighted lnf hs), ?_⟩
  rw [loss_eq h' weighted logits' ref ha' lnf smoothing z _ _ (weightOf_length weighted lnf) (lnf_eq h' weighted lnf hs), hg]

theorem lengths_sum {n m : Nat} (groups : List (List Example)) (packed weighted : Bool) :
    ((lossFeatures ⟨groups.map (packRow n m), packed, weighted⟩).targets.map List.length).sum = groups.length * n := by
  simp only [lossFeatures, List.map_map, Function.comp_def, List.length_ofFn, List.map_const', List.sum_replicate, smul_eq_mul]

theorem lnf_total {n m : Nat} {packed : Bool} {groups : List (List Example)} (h : Made n m packed groups) (weighted : Bool) :
    LossWeights.lnfAndWeights (.special .numTotal) (lossFeatures ⟨groups.map (packRow n m), packed, weighted⟩) =
      some (some ((groups.length * n : ℕ) : ℝ), some (groups.map fun g => g.flatMap (wt weighted) ++ List.replicate (fill n g) 0)) := by
  have hl := lengths_sum (n := n) (m := m) groups packed weighted
  rcases weights_eq h weighted with ⟨-, hw⟩ | ⟨hw, hw'⟩
  · simp only [LossWeights.lnfAndWeights, hw, hl]
  · simp only [LossWeights.lnfAndWeights, hw, hw', hl]

/-- C96, one position: for a token of the vocabulary the loss is that of C13 and C14. -/
theorem C96_position (smoothing z : ℝ) (logits : Vec V) (t : Fin V) : position smoothing z logits t.val = Loss.tokenLoss logits t smoothing z := by
  have : (fun i : Fin V => if (i.val : Int) = (t.val : Int) then 1 - smoothing else Loss.lowConfidence V smoothing) =
      Loss.softTargets V smoothing t := by
    funext i
    simp only [Loss.softTargets, Fin.ext_iff, Nat.cast_inj]
  simp only [position, Loss.tokenLoss, this, Fintype.card_fin]

theorem made_packed {n m : Nat} {groups : List (List Example)} (hwf : ∀ g ∈ groups, ∀ e ∈ g, e.WF) (hfit : ∀ g ∈ groups, Fits n m g) :
    Made n m true groups := ⟨hwf, hfit, fun h => by cases h⟩

theorem made_padded {n m : Nat} {groups : List (List Example)} (hwf : ∀ g ∈ groups, ∀ e ∈ g, e.WF)
    (hfit : ∀ g ∈ groups, ∀ e ∈ g, Fits n m [e]) : Made n m false (groups.flatten.map fun e => [e]) := by
  refine ⟨?_, ?_, fun _ g hg => ?_⟩
  · intro g hg e he
    obtain ⟨e', he', rfl⟩ := List.mem_map.1 hg
    obtain ⟨g', hg', hge⟩ := List.mem_flatten.1 he'
    rw [List.mem_singleton] at he
    subst he
    exact hwf g' hg' _ hge
  · intro g hg
    obtain ⟨e', he', rfl⟩ := List.mem_map.1 hg
    obtain ⟨g', hg', hge⟩ := List.mem_flatten.1 he'
    exact hfit g' hg' _ hge
  · obtain ⟨e', he', rfl⟩ := List.mem_map.1 hg
    exact ⟨e', rfl⟩

theorem flatten_singles (es : List Example) : (es.map fun e => [e]).flatten = es := by
  induction es with
  | nil => rfl
  | cons e es ih => simp [ih]

theorem row_length {g pre post : List Example} {e : Example} (hg : g = pre ++ e :: post) {α : Type} (f : Example → List α) :
    (pre.flatMap f).length + (f e).length ≤ (g.flatMap f).length := by
  rw [hg]; simp only [List.flatMap_append, List.flatMap_cons, List.length_append]; omega

/-! ### Encoder-decoder models -/

section EncDec
variable {d h e f : Nat} {ex : ℝ → ℝ} {lg : ℕ → ℝ} {net : Transformer.Net d h e f V} {θ B : ℝ}

noncomputable def encDecRef (ex : ℝ → ℝ) (lg : ℕ → ℝ) (net : Transformer.Net d h e f V) (x : Example) (i : Nat) : Vec V :=
  if hi : i < x.targets.length then ((Transformer.apply ex lg net (aloneInput x)).getD fun _ _ => 0) ⟨i, hi⟩ else fun _ => 0

theorem alone_text {x : Example} (hx : x.HasText) : ∃ k, (aloneInput x).encTokens k > 0 := by
  have h0 : 0 < x.enc.length := List.length_pos_iff.2 hx.1
  refine ⟨⟨0, h0⟩, ?_⟩
  simp only [aloneInput, pad, List.getD_eq_getElem?_getD, List.getElem?_eq_getElem h0, Option.getD_some]
  exact hx.2 _ (List.getElem_mem h0)

theorem alone_pos {x : Example} (hx : x.WF) (i : Fin x.targets.length) : (aloneInput x).decTargets i > 0 := by
  simp only [aloneInput, pad, List.getD_eq_getElem?_getD, List.getElem?_eq_getElem i.isLt, Option.getD_some]
  exact hx.pos _ (List.getElem_mem i.isLt)

theorem encDec_packed (hex : Underflows ex θ) (hθ : 0 < θ) (ht : Tame net θ B) {n m : Nat} (g : List Example) (hwf : ∀ x ∈ g, x.WF)
    (htext : ∀ x ∈ g, x.HasText) (hfit : Fits n m g) : Agree (encDecLogits (n := n) (m := m) ex lg net true) (encDecRef ex lg net) g := by
  obtain ⟨y, hy⟩ := Transformer.apply_some (ex := ex) (lg := lg) (net := net)
    (⟨(packRow n m g).encTokens, (packRow n m g).decInputs, (packRow n m g).decTargets, some (packRow n m g).encSeg, some (packRow n m g).decSeg⟩ :
      Transformer.Input n m) (by simp [SegsOk])
  refine ⟨y, hy, fun pre x post hg i j hi hj => ?_⟩
  have hx : x ∈ g := by rw [hg]; simp
  have hlin : (pre.flatMap Example.inputs).length = (pre.flatMap Example.targets).length :=
    flatMap_length_eq _ _ _ fun z hz => (hwf z (by rw [hg]; simp [hz])).inputs
  obtain ⟨y1, y2, h1, h2, h3⟩ := C93_packed (lg := lg) hex hθ ht (aloneInput x)
    ⟨(packRow n m g).encTokens, (packRow n m g).decInputs, (packRow n m g).decTargets, some (packRow n m g).encSeg, some (packRow n m g).decSeg⟩
    rfl rfl _ _ rfl rfl (1 + pre.length) (pre.flatMap Example.targets).length (pre.flatMap Example.enc).length
    (fun j => by
      simp only [packRow, pad]
      rw [hg, ids_spec _ pre x post 1 (by decide), sum_lengths])
    (fun j => by
      simp only [packRow, pad]
      rw [hg, ids_spec _ pre x post 1 (by decide), sum_lengths])
    ((row_length hg Example.targets).trans hfit.1) ((row_length hg Example.enc).trans hfit.2)
    (fun i j hij => by
      simp only [packRow, pad, aloneInput, hij]
      have e1 := getD_flatMap Example.targets 0 pre x post i.val i.isLt
      have e2 := getD_flatMap Example.inputs 0 pre x post i.val (by rw [(hwf x hx).inputs]; exact i.isLt)
      rw [← hg] at e1 e2
      rw [hlin] at e2
      exact ⟨e1, e2⟩)
    (fun i j hij => by
      simp only [packRow, pad, aloneInput, hij]
      have e1 := getD_flatMap Example.enc 0 pre x post i.val i.isLt
      rw [← hg] at e1
      exact e1)
    (alone_text (htext x hx))
  rw [hy] at h2
  cases h2
  rw [← h3 ⟨i, hi⟩ j hj (alone_pos (hwf x hx) _)]
  simp only [encDecRef, dif_pos hi, h1, Option.getD_some]

theorem encDec_padded (hex : Underflows ex θ) (hθ : 0 < θ) (ht : Tame net θ B) {n m : Nat} (x : Example) (hwf : x.WF)
    (htext : x.HasText) (hfit : Fits n m [x]) : Agree (encDecLogits (n := n) (m := m) ex lg net false) (encDecRef ex lg net) [x] := by
  obtain ⟨y, hy⟩ := Transformer.apply_some (ex := ex) (lg := lg) (net := net)
    (⟨(packRow n m [x]).encTokens, (packRow n m [x]).decInputs, (packRow n m [x]).decTargets, none, none⟩ : Transformer.Input n m) (by simp [SegsOk])
  have f1 : x.targets.length ≤ n := by simpa using hfit.1
  have f2 : x.enc.length ≤ m := by simpa using hfit.2
  refine ⟨y, hy, fun pre x' post hg i j hi hj => ?_⟩
  have hpre : pre = [] := by
    cases pre with
    | nil => rfl
    | cons a pre => simp at hg
  subst hpre
  simp only [List.nil_append, List.cons.injEq] at hg
  obtain ⟨rfl, -⟩ := hg
  simp only [List.flatMap_nil, List.length_nil, zero_add] at hj
  obtain ⟨y1, y2, h1, h2, h3⟩ := C93_padding (lg := lg) hex hθ ht (aloneInput x)
    ⟨(packRow n m [x]).encTokens, (packRow n m [x]).decInputs, (packRow n m [x]).decTargets, none, none⟩ ⟨rfl, rfl⟩ ⟨rfl, rfl⟩
    (fun i j hij => by simp [packRow, pad, aloneInput, hij])
    (fun i j hij => by simp [packRow, pad, aloneInput, hij])
    (fun i hi => by have := i.isLt; omega)
    (fun i hi => by
      simp only [packRow, pad, List.flatMap_cons, List.flatMap_nil, List.append_nil, List.getD_eq_getElem?_getD]
      rw [List.getElem?_eq_none hi]; rfl)
    (fun i hi => by have := i.isLt; omega)
    (fun i hi => by
      simp only [packRow, pad, List.flatMap_cons, List.flatMap_nil, List.append_nil, List.getD_eq_getElem?_getD]
      rw [List.getElem?_eq_none hi]; rfl)
    (alone_text htext)
  rw [hy] at h2
  cases h2
  rw [← h3 ⟨i, hi⟩ j hj.symm (alone_pos hwf _)]
  simp only [encDecRef, dif_pos hi, h1, Option.getD_some]

/-- C96: a batch in which examples are packed into rows, in any grouping and order, has the same loss, z-loss and weight sum as the batch with
one example in each row, padded to any lengths: for every normalising factor that does not count padding. -/
theorem C96_loss (hex : Underflows ex θ) (hθ : 0 < θ) (ht : Tame net θ B) {n m n' m' : Nat} (groups : List (List Example))
    (hwf : ∀ g ∈ groups, ∀ x ∈ g, x.WF ∧ x.HasText) (hfit : ∀ g ∈ groups, Fits n m g) (hfit' : ∀ g ∈ groups, ∀ x ∈ g, Fits n' m' [x])
    (weighted : Bool) (lnf : LossWeights.LNF ℝ) (hs : PackingSafe weighted lnf) (smoothing z : ℝ) :
    ∃ v, lossFn (encDecLogits ex lg net true) lnf smoothing z (packedBatch n m weighted groups) = some v ∧
      lossFn (encDecLogits ex lg net false) lnf smoothing z (paddedBatch n' m' weighted groups.flatten) = some v := by
  have h1 := made_packed (fun g hg x hx => (hwf g hg x hx).1) hfit
  have h2 := made_padded (fun g hg x hx => (hwf g hg x hx).1) hfit'
  have := same_loss h1 h2 (flatten_singles _).symm weighted (encDecLogits ex lg net true) (encDecLogits ex lg net false) (encDecRef ex lg net)
    (fun g hg => encDec_packed hex hθ ht g (fun x hx => (hwf g hg x hx).1) (fun x hx => (hwf g hg x hx).2) (hfit g hg))
    (fun g hg => by
      obtain ⟨x, hx, rfl⟩ := List.mem_map.1 hg
      obtain ⟨g', hg', hx'⟩ := List.mem_flatten.1 hx
      exact encDec_padded hex hθ ht x (hwf g' hg' x hx').1 (hwf g' hg' x hx').2 (hfit' g' hg' x hx')) lnf hs smoothing z
  rw [List.map_map] at this
  exact this

theorem sum_terms (L : Nat) (t : Nat → ℝ) (w : List ℝ) (hw : w.length = L) :
    (List.zipWith (· * ·) ((List.range L).map t) w).sum = ∑ i : Fin L, t i * w.getD i 0 := by
  rw [← List.sum_ofFn]
  congr 1
  apply List.ext_getElem
  · simp [hw]
  · intro i h1 h2
    have : i < w.length := by simp at h2; omega
    simp [List.getD_eq_getElem?_getD, this]

/-- C96, in terms of the examples: the loss of a packed batch is the weighted sum of the losses of its examples' targets, with the logits that each
example has on its own, divided by the factor. -/
theorem C96_examples (hex : Underflows ex θ) (hθ : 0 < θ) (ht : Tame net θ B) {n m : Nat} (groups : List (List Example))
    (hwf : ∀ g ∈ groups, ∀ x ∈ g, x.WF ∧ x.HasText) (hfit : ∀ g ∈ groups, Fits n m g) (k smoothing z : ℝ)
    (Y : (x : Example) → Fin x.targets.length → Vec V) (hY : ∀ x ∈ groups.flatten, Transformer.apply ex lg net (aloneInput x) = some (Y x)) :
    lossFn (encDecLogits ex lg net true) (.const k) smoothing z (packedBatch n m true groups) =
      some ((groups.flatten.map fun x => ∑ i, (position smoothing z (Y x i) (x.targets.get i)).1 * x.weights.getD i 0).sum / k,
        (groups.flatten.map fun x => ∑ i, (position smoothing z (Y x i) (x.targets.get i)).2 * x.weights.getD i 0).sum / k,
        (groups.flatten.map fun x => x.weights.sum).sum) := by
  have h1 := made_packed (fun g hg x hx => (hwf g hg x hx).1) hfit
  have e1 := loss_eq h1 true (encDecLogits ex lg net true) (encDecRef ex lg net)
    (fun g hg => encDec_packed hex hθ ht g (fun x hx => (hwf g hg x hx).1) (fun x hx => (hwf g hg x hx).2) (hfit g hg))
    (.const k) smoothing z (wt true) _ (fun e he => wt_length true e he) (lnf_eq h1 true (.const k) rfl)
  have key : ∀ (p : ℝ × ℝ → ℝ), ∀ x ∈ groups.flatten, (List.zipWith (· * ·) ((terms smoothing z (encDecRef ex lg net) x).map p) (wt true x)).sum =
      ∑ i, p (position smoothing z (Y x i) (x.targets.get i)) * x.weights.getD i 0 := by
    intro p x hx
    obtain ⟨g, hg, hxg⟩ := List.mem_flatten.1 hx
    simp only [terms, List.map_map, Function.comp_def]
    rw [sum_terms _ (fun i => p (position smoothing z (encDecRef ex lg net x i) (x.targets.getD i 0))) _ (wt_length true x (hwf g hg x hxg).1)]
    refine Finset.sum_congr rfl fun i _ => ?_
    simp only [encDecRef, dif_pos i.isLt, hY x hx, Option.getD_some, Fin.eta, wt, if_true]
    rw [List.getD_eq_getElem?_getD, List.getElem?_eq_getElem i.isLt]
    rfl
  unfold packedBatch
  rw [e1]
  simp only [factorOf, over]
  rw [List.map_congr_left (key Prod.fst), List.map_congr_left (key Prod.snd)]
  rfl

/-- C96, gradients: so the loss has the same derivative with respect to the parameters. -/
theorem C96_gradient {P : Type} [NormedAddCommGroup P] [NormedSpace ℝ P] (hex : Underflows ex θ) (hθ : 0 < θ)
    (nets : P → Transformer.Net d h e f V) (p : P) (ht : ∀ᶠ q in nhds p, Tame (nets q) θ B) {n m n' m' : Nat} (groups : List (List Example))
    (hwf : ∀ g ∈ groups, ∀ x ∈ g, x.WF ∧ x.HasText) (hfit : ∀ g ∈ groups, Fits n m g) (hfit' : ∀ g ∈ groups, ∀ x ∈ g, Fits n' m' [x])
    (weighted : Bool) (lnf : LossWeights.LNF ℝ) (hs : PackingSafe weighted lnf) (smoothing z : ℝ) (D : P →L[ℝ] ℝ) :
    HasFDerivAt (fun q => ((lossFn (encDecLogits ex lg (nets q) true) lnf smoothing z (packedBatch n m weighted groups)).getD (0, 0, 0)).1) D p ↔
      HasFDerivAt (fun q => ((lossFn (encDecLogits ex lg (nets q) false) lnf smoothing z (paddedBatch n' m' weighted groups.flatten)).getD (0, 0, 0)).1) D p := by
  apply Filter.EventuallyEq.hasFDerivAt_iff
  filter_upwards [ht] with q hq
  obtain ⟨v, h1, h2⟩ := C96_loss (lg := lg) (n := n) (m := m) (n' := n') (m' := m') hex hθ hq groups hwf hfit hfit' weighted lnf hs smoothing z
  rw [h1, h2]

/-- C96, the exception: `NUM_TOTAL_TARGET_TOKENS` divides by the number of positions with padding, so the loss depends on the shape of the batch:
it is smaller, the more padding there is. -/
theorem C96_total_tokens (hex : Underflows ex θ) (hθ : 0 < θ) (ht : Tame net θ B) {n m n' m' : Nat} (groups : List (List Example))
    (hwf : ∀ g ∈ groups, ∀ x ∈ g, x.WF ∧ x.HasText) (hfit : ∀ g ∈ groups, Fits n m g) (hfit' : ∀ g ∈ groups, ∀ x ∈ g, Fits n' m' [x])
    (hne : groups.flatten ≠ []) (weighted : Bool) (smoothing z : ℝ) :
    ∃ v v', lossFn (encDecLogits ex lg net true) (.special .numTotal) smoothing z (packedBatch n m weighted groups) = some v ∧
      lossFn (encDecLogits ex lg net false) (.special .numTotal) smoothing z (paddedBatch n' m' weighted groups.flatten) = some v' ∧
      v.1 * (groups.length * n : ℕ) = v'.1 * (groups.flatten.length * n' : ℕ) ∧ 0 < groups.length * n ∧ 0 < groups.flatten.length * n' := by
  have h1 := made_packed (fun g hg x hx => (hwf g hg x hx).1) hfit
  have h2 := made_padded (fun g hg x hx => (hwf g hg x hx).1) hfit'
  obtain ⟨x, hx⟩ := List.exists_mem_of_ne_nil _ hne
  obtain ⟨g, hg, hxg⟩ := List.mem_flatten.1 hx
  have hpos : 0 < x.targets.length := List.length_pos_iff.2 (hwf g hg x hxg).1.ne
  have hn : 0 < groups.length * n := by
    apply Nat.mul_pos (List.length_pos_of_mem hg)
    obtain ⟨pre, post, hgp⟩ := List.append_of_mem hxg
    have := (row_length hgp Example.targets).trans (hfit g hg).1
    omega
  have hn' : 0 < groups.flatten.length * n' := by
    apply Nat.mul_pos (List.length_pos_of_mem hx)
    have := (hfit' g hg x hxg).1
    simp at this
    omega
  have e1 := loss_eq h1 weighted (encDecLogits ex lg net true) (encDecRef ex lg net)
    (fun g hg => encDec_packed hex hθ ht g (fun x hx => (hwf g hg x hx).1) (fun x hx => (hwf g hg x hx).2) (hfit g hg))
    (.special .numTotal) smoothing z (wt weighted) _ (fun e he => wt_length weighted e he) (lnf_total h1 weighted)
  have e2 := loss_eq h2 weighted (encDecLogits ex lg net false) (encDecRef ex lg net)
    (fun g hg => by
      obtain ⟨x, hx, rfl⟩ := List.mem_map.1 hg
      obtain ⟨g', hg', hx'⟩ := List.mem_flatten.1 hx
      exact encDec_padded hex hθ ht x (hwf g' hg' x hx').1 (hwf g' hg' x hx').2 (hfit' g' hg' x hx'))
    (.special .numTotal) smoothing z (wt weighted) _ (fun e he => wt_length weighted e he) (lnf_total h2 weighted)
  rw [flatten_singles, List.length_map] at e2
  rw [List.map_map] at e2
  refine ⟨_, _, e1, e2, ?_, hn, hn'⟩
  have c1 : ((groups.length * n : ℕ) : ℝ) ≠ 0 := by exact_mod_cast hn.ne'
  have c2 : ((groups.flatten.length * n' : ℕ) : ℝ) ≠ 0 := by exact_mod_cast hn'.ne'
  simp only [over]
  rw [div_mul_cancel₀ _ c1, div_mul_cancel₀ _ c2]

/-- C96, another exception: without `decoder_loss_weights` and without a normalising factor every position counts, also padding. -/
theorem C96_without_weights (hex : Underflows ex θ) (hθ : 0 < θ) (ht : Tame net θ B) {n m : Nat} (groups : List (List Example))
    (hwf : ∀ g ∈ groups, ∀ x ∈ g, x.WF ∧ x.HasText) (hfit : ∀ g ∈ groups, Fits n m g) (smoothing z : ℝ) :
    ∃ v, lossFn (encDecLogits ex lg net true) .none smoothing z (packedBatch n m false groups) = some v ∧ v.2.2 = (groups.length * n : ℕ) := by
  have hl : (groups.map (packRow n m)).mapM (encDecLogits ex lg net true) =
      some ((groups.map (packRow n m)).map fun r => (encDecLogits ex lg net true r).getD fun _ _ => 0) := by
    apply mapM_some
    intro r hr
    obtain ⟨g, hg, rfl⟩ := List.mem_map.1 hr
    obtain ⟨y, hy, _⟩ := encDec_packed (lg := lg) hex hθ ht g (fun x hx => (hwf g hg x hx).1) (fun x hx => (hwf g hg x hx).2) (hfit g hg)
    rw [hy]; rfl
  simp only [lossFn, packedBatch, hl, Option.bind_some, LossWeights.lnfAndWeights, lossFeatures, Bool.false_eq_true, if_false, Option.map_some,
    Option.some.injEq, exists_eq_left']
  simp only [weighAndSum]
  congr 1
  have : (List.zipWith (fun (y : Fin n → Vec V) (r : TrainRow n m) => List.ofFn fun i => position smoothing z (y i) (r.decTargets i))
      ((groups.map (packRow n m)).map fun r => (encDecLogits ex lg net true r).getD fun _ _ => 0) (groups.map (packRow n m))).map List.length =
      List.replicate groups.length n := by
    apply List.ext_getElem
    · simp
    · intro i h1 h2; simp
  rw [this, List.sum_replicate, smul_eq_mul]

/-! The hypotheses are met. -/

theorem demo_wf : ∀ g ∈ [[(⟨[5, 6], [0, 3], [3, 1], [0, 0], [1, 1]⟩ : Example), ⟨[7], [0], [1], [0], [1]⟩], [⟨[8], [0, 2], [2, 1], [0, 0], [0, 1]⟩]],
    ∀ x ∈ g, x.WF ∧ x.HasText := by
  intro g hg x hx
  simp only [List.mem_cons, List.not_mem_nil, or_false] at hg
  rcases hg with rfl | rfl <;> simp only [List.mem_cons, List.not_mem_nil, or_false] at hx
  · rcases hx with rfl | rfl <;>
      exact ⟨⟨by simp, by simp, rfl, rfl, rfl, by simp⟩, by simp [Example.HasText]⟩
  · subst hx
    exact ⟨⟨by simp, by simp, rfl, rfl, rfl, by simp⟩, by simp [Example.HasText]⟩

/-- Three examples packed into two rows of length 4. -/
example : ∃ v, lossFn (encDecLogits flushed lg demoNet true) (.special .averagePerSequence) 0 0 (packedBatch 4 3 true
      [[⟨[5, 6], [0, 3], [3, 1], [0, 0], [1, 1]⟩, ⟨[7], [0], [1], [0], [1]⟩], [⟨[8], [0, 2], [2, 1], [0, 0], [0, 1]⟩]]) = some v ∧
    lossFn (encDecLogits flushed lg demoNet false) (.special .averagePerSequence) 0 0 (paddedBatch 3 5 true
      [⟨[5, 6], [0, 3], [3, 1], [0, 0], [1, 1]⟩, ⟨[7], [0], [1], [0], [1]⟩, ⟨[8], [0, 2], [2, 1], [0, 0], [0, 1]⟩]) = some v :=
  C96_loss DecoderOnly.flushed_underflows (by norm_num) demoNet_tame _ demo_wf (by simp [Fits]) (by simp [Fits]) true _ (by simp [PackingSafe]) 0 0

/-- Parameters near the given ones are as good: here the table of embeddings varies. -/
example (p : Kernel 2 1) : ∀ᶠ q in nhds p, Tame { demoNet with table := q } 104 7 :=
  Filter.Eventually.of_forall fun _ => ⟨demoNet_tame.eps, demoNet_tame.gap, demoNet_tame.enc, demoNet_tame.dec, demoNet_tame.cross⟩

end EncDec

/-! ### Decoder-only models -/

section Lm
open Verif.DecoderOnly Verif.DecoderOnly.Spec
variable {d h e f : Nat} {ex : ℝ → ℝ} {lg : ℕ → ℝ} {net : LmNet d h e f V} {θ B : ℝ}

def aloneLm (bidirectional : Bool) (x : Example) : DecoderOnly.Input x.targets.length :=
  ⟨pad _ x.inputs, pad _ x.targets, KVCache.maybeCausal bidirectional (pad _ x.causal), none⟩

noncomputable def lmRef (ex : ℝ → ℝ) (lg : ℕ → ℝ) (net : LmNet d h e f V) (bidirectional : Bool) (x : Example) (i : Nat) : Vec V :=
  if hi : i < x.targets.length then ((DecoderOnly.apply ex lg net (aloneLm bidirectional x)).getD fun _ _ => 0) ⟨i, hi⟩ else fun _ => 0

theorem inPrefix_maybe {n : Nat} (bidirectional : Bool) (c : Row n) (j : Fin n) :
    InPrefix (KVCache.maybeCausal bidirectional c) j ↔ bidirectional = true ∧ c j ≠ 0 := by
  cases bidirectional <;> simp [InPrefix, KVCache.maybeCausal]

theorem lm_packed (hex : Underflows ex θ) (hθ : 0 < θ) (ht : TameLm net θ B) (bidirectional : Bool) {n m : Nat} (g : List Example)
    (hwf : ∀ x ∈ g, x.WF) (hfit : Fits n m g) : Agree (lmLogits (n := n) (m := m) ex lg net bidirectional true) (lmRef ex lg net bidirectional) g := by
  obtain ⟨y, hy⟩ := DecoderOnly.apply_some (ex := ex) (lg := lg) (net := net)
    (⟨(packRow n m g).decInputs, (packRow n m g).decTargets, KVCache.maybeCausal bidirectional (packRow n m g).causal, some (packRow n m g).decSeg⟩ :
      DecoderOnly.Input n)
  refine ⟨y, hy, fun pre x post hg i j hi hj => ?_⟩
  have hx : x ∈ g := by rw [hg]; simp
  have hlin : (pre.flatMap Example.inputs).length = (pre.flatMap Example.targets).length :=
    flatMap_length_eq _ _ _ fun z hz => (hwf z (by rw [hg]; simp [hz])).inputs
  have hlca : (pre.flatMap Example.causal).length = (pre.flatMap Example.targets).length :=
    flatMap_length_eq _ _ _ fun z hz => (hwf z (by rw [hg]; simp [hz])).causal
  obtain ⟨y1, y2, h1, h2, h3⟩ := C95_packed (lg := lg) hex hθ ht (aloneLm bidirectional x)
    ⟨(packRow n m g).decInputs, (packRow n m g).decTargets, KVCache.maybeCausal bidirectional (packRow n m g).causal, some (packRow n m g).decSeg⟩
    rfl _ rfl (1 + pre.length) (pre.flatMap Example.targets).length
    (fun j => by
      simp only [packRow, pad]
      rw [hg, ids_spec _ pre x post 1 (by decide), sum_lengths])
    ((row_length hg Example.targets).trans hfit.1)
    (fun i j hij => by
      simp only [packRow, aloneLm, inPrefix_maybe]
      simp only [pad, hij]
      have e1 := getD_flatMap Example.targets 0 pre x post i.val i.isLt
      have e2 := getD_flatMap Example.inputs 0 pre x post i.val (by rw [(hwf x hx).inputs]; exact i.isLt)
      have e3 := getD_flatMap Example.causal 0 pre x post i.val (by rw [(hwf x hx).causal]; exact i.isLt)
      rw [← hg] at e1 e2 e3
      rw [hlin] at e2
      rw [hlca] at e3
      exact ⟨e1, e2, by rw [e3]⟩)
  rw [hy] at h2
  cases h2
  rw [← h3 ⟨i, hi⟩ j hj (alone_pos (hwf x hx) _)]
  simp only [lmRef, dif_pos hi, h1, Option.getD_some]

theorem lm_padded (hex : Underflows ex θ) (hθ : 0 < θ) (ht : TameLm net θ B) (bidirectional : Bool) {n m : Nat} (x : Example) (hwf : x.WF)
    (hfit : Fits n m [x]) : Agree (lmLogits (n := n) (m := m) ex lg net bidirectional false) (lmRef ex lg net bidirectional) [x] := by
  let b : DecoderOnly.Input n := ⟨(packRow n m [x]).decInputs, (packRow n m [x]).decTargets, KVCache.maybeCausal bidirectional (packRow n m [x]).causal, none⟩
  obtain ⟨y, hy⟩ := DecoderOnly.apply_some (ex := ex) (lg := lg) (net := net) b
  have f1 : x.targets.length ≤ n := by simpa using hfit.1
  refine ⟨y, hy, fun pre x' post hg i j hi hj => ?_⟩
  have hpre : pre = [] := by
    cases pre with
    | nil => rfl
    | cons a pre => simp at hg
  subst hpre
  simp only [List.nil_append, List.cons.injEq] at hg
  obtain ⟨rfl, -⟩ := hg
  simp only [List.flatMap_nil, List.length_nil, zero_add] at hj
  have hnone : ∀ {k : Nat} (s : Int) (q : Fin k), InSeg (none : Option (Row k)) s q := fun s q r hr => by cases hr
  have hbeyond : ∀ (l : List Int) (q : Nat), l.getD q 0 ≠ 0 → q < l.length := by
    intro l q hq
    by_contra hc
    apply hq
    rw [List.getD_eq_getElem?_getD, List.getElem?_eq_none (by omega)]; rfl
  obtain ⟨y1, y2, h1, h2, h3⟩ := C95_same_logits (lg := lg) hex hθ ht (aloneLm bidirectional x) b 0 x.targets.length 0 0 ⟨i, hi⟩ j (by simp [hj])
    (by simp only; omega)
    ⟨fun p _ _ hp => ⟨⟨p.val, by have := p.isLt; omega⟩, by simp, hnone _ _, by
        simpa [b, packRow, pad, aloneLm] using hp, by simp [b, packRow, pad, aloneLm]⟩,
      fun q _ _ hq => by
        have hlt : q.val < x.targets.length := by
          refine hbeyond _ _ ?_
          simp only [b, packRow, pad, List.flatMap_cons, List.flatMap_nil, List.append_nil] at hq
          omega
        exact ⟨⟨q.val, hlt⟩, by simp, hnone _ _, by simpa [b, packRow, pad, aloneLm] using hq⟩⟩
    (fun p q hpq _ _ _ => by
      have : q.val = p.val := by omega
      simp [b, packRow, pad, aloneLm, inPrefix_maybe, this])
    (fun p _ _ => by have := p.isLt; omega)
    (fun q _ hq => by
      simp only [b, packRow, inPrefix_maybe, pad, List.flatMap_cons, List.flatMap_nil, List.append_nil] at hq
      have := hbeyond _ _ hq.2
      rw [hwf.causal] at this
      omega)
    (hnone _ _) (alone_pos hwf _)
  rw [hy] at h2
  cases h2
  rw [← h3]
  simp only [lmRef, dif_pos hi, h1, Option.getD_some]

/-- C96 for decoder-only models, with bidirectional attention over prefixes or without. -/
theorem C96_lm_loss (hex : Underflows ex θ) (hθ : 0 < θ) (ht : TameLm net θ B) (bidirectional : Bool) {n m n' m' : Nat}
    (groups : List (List Example)) (hwf : ∀ g ∈ groups, ∀ x ∈ g, x.WF) (hfit : ∀ g ∈ groups, Fits n m g)
    (hfit' : ∀ g ∈ groups, ∀ x ∈ g, Fits n' m' [x]) (weighted : Bool) (lnf : LossWeights.LNF ℝ) (hs : PackingSafe weighted lnf) (smoothing z : ℝ) :
    ∃ v, lossFn (lmLogits ex lg net bidirectional true) lnf smoothing z (packedBatch n m weighted groups) = some v ∧
      lossFn (lmLogits ex lg net bidirectional false) lnf smoothing z (paddedBatch n' m' weighted groups.flatten) = some v := by
  have := same_loss (made_packed hwf hfit) (made_padded hwf hfit') (flatten_singles _).symm weighted (lmLogits ex lg net bidirectional true)
    (lmLogits ex lg net bidirectional false) (lmRef ex lg net bidirectional)
    (fun g hg => lm_packed hex hθ ht bidirectional g (hwf g hg) (hfit g hg))
    (fun g hg => by
      obtain ⟨x, hx, rfl⟩ := List.mem_map.1 hg
      obtain ⟨g', hg', hx'⟩ := List.mem_flatten.1 hx
      exact lm_padded hex hθ ht bidirectional x (hwf g' hg' x hx') (hfit' g' hg' x hx')) lnf hs smoothing z
  rw [List.map_map] at this
  exact this

/-- The hypotheses are met; the first example has a prefix. -/
example : ∃ v, lossFn (lmLogits flushed lg demoLm true true) .none 0 0 (packedBatch 4 0 true
      [[⟨[], [0, 3], [3, 1], [1, 0], [0, 1]⟩, ⟨[], [0], [1], [0], [1]⟩]]) = some v ∧
    lossFn (lmLogits flushed lg demoLm true false) .none 0 0 (paddedBatch 3 0 true
      [⟨[], [0, 3], [3, 1], [1, 0], [0, 1]⟩, ⟨[], [0], [1], [0], [1]⟩]) = some v :=
  C96_lm_loss flushed_underflows (by norm_num) demoLm_tame true _ (by
      intro g hg x hx
      simp only [List.mem_cons, List.not_mem_nil, or_false] at hg
      subst hg
      simp only [List.mem_cons, List.not_mem_nil, or_false] at hx
      rcases hx with rfl | rfl <;> exact ⟨by simp, by simp, rfl, rfl, rfl, by simp⟩)
    (by simp [Fits]) (by simp [Fits]) true _ (by simp [PackingSafe]) 0 0

end Lm

end Verif.PackedLoss
