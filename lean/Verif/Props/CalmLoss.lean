import Verif.Model.CalmLoss
import Verif.Props.Loss
import Mathlib.Algebra.BigOperators.Ring.Finset
/- C90: the losses of CALM. -/
namespace Verif.CalmLoss
open Verif.Loss Finset

variable {ι : Type} [Fintype ι] [DecidableEq ι] {P : Type} [DecidableEq P] {n : ℕ}

namespace Spec

/-- The weight of layer `i`. -/
noncomputable def layerWeight (agg : ℤ) (i : ℕ) : ℝ := if agg = -1 then 2 ^ i else 1 + agg * i

/-- The probability the classifier gives to exiting after layer `i`, if that layer is reached. -/
noncomputable def exitProb (x : MPos P n) (i : Fin (n + 1)) : ℝ :=
  Real.exp (x.logits i).2 / (Real.exp (x.logits i).1 + Real.exp (x.logits i).2)

/-- The probability of exiting at layer `i`. -/
noncomputable def exitAt (x : MPos P n) (i : Fin (n + 1)) : ℝ := (∏ j ∈ univ.filter (· < i), (1 - exitProb x j)) * exitProb x i

/-- The probability of exiting at all. -/
noncomputable def exits (x : MPos P n) : ℝ := 1 - ∏ j, (1 - exitProb x j)

open Classical in
/-- The number of positions of weight one with this label. -/
noncomputable def num (b : Bool) (labels : List Bool) (w : List ℝ) : ℕ := (labels.zip w).countP fun p => decide (p.1 = b ∧ p.2 = 1)

end Spec
open Spec

/-! ### Anytime predictions -/

theorem ceil_len (t : ℤ) (ht : 0 < t) (len : ℕ) : ((t * len + t - 1) / t).toNat = len := by
  rw [show t * (len : ℤ) + t - 1 = (t - 1) + t * len by ring, Int.add_mul_ediv_left _ _ ht.ne', Int.ediv_eq_zero_of_lt (by omega) (by omega), zero_add,
    Int.toNat_natCast]

/-- **C90**: the weights of the layers: 1, 2, 4, ... for -1, otherwise 1, 1 + a, 1 + 2a, ... -/
theorem C90_weights (agg : ℤ) (len : ℕ) : avgWeights agg len = (List.range len).map (layerWeight agg) := by
  unfold avgWeights
  by_cases h1 : agg = -1
  · rw [if_pos h1]
    unfold geomspace
    refine List.map_congr_left fun i hi => ?_
    have hi := List.mem_range.1 hi
    unfold layerWeight
    rw [if_pos h1]
    by_cases hl : len = 1
    · rw [if_pos hl, show i = 0 by omega, pow_zero]
    · rw [if_neg hl, ← Real.rpow_natCast, ← Real.rpow_mul (by norm_num), mul_div_cancel₀, Real.rpow_natCast]
      have : len - 1 ≠ 0 := by omega
      exact_mod_cast this
  · rw [if_neg h1]
    by_cases h0 : agg = 0
    · rw [if_pos h0]
      refine List.ext_getElem (by simp) fun i hi _ => ?_
      simp [layerWeight, h0]
    · rw [if_neg h0]
      have hlen : (if 0 < agg then ((agg * len + 1 - 1 + agg - 1) / agg).toNat else ((1 - (agg * len + 1) + -agg - 1) / -agg).toNat) = len := by
        split_ifs with h
        · rw [show agg * (len : ℤ) + 1 - 1 + agg - 1 = agg * len + agg - 1 by ring]; exact ceil_len agg h len
        · rw [show 1 - (agg * (len : ℤ) + 1) + -agg - 1 = (-agg) * len + (-agg) - 1 by ring]; exact ceil_len (-agg) (by omega) len
      unfold arange
      rw [hlen, List.map_map]
      refine List.map_congr_left fun i _ => ?_
      simp only [Function.comp, layerWeight, if_neg h1]
      push_cast
      ring

theorem layerWeight_pos (agg : ℤ) (ha : -1 ≤ agg) (i : ℕ) : 0 < layerWeight agg i := by
  unfold layerWeight
  split_ifs with h
  · positivity
  · have : (0 : ℝ) ≤ agg := by exact_mod_cast (by omega : (0 : ℤ) ≤ agg)
    positivity

theorem avg_bounds (lo hi : ℝ) : ∀ (l w : List ℝ), l.length = w.length → (∀ x ∈ w, 0 < x) → (∀ x ∈ l, lo ≤ x ∧ x ≤ hi) →
    lo * w.sum ≤ (List.zipWith (· * ·) l w).sum ∧ (List.zipWith (· * ·) l w).sum ≤ hi * w.sum
  | [], [], _, _, _ => by simp
  | a :: l, b :: w, h, hw, hl => by
    obtain ⟨i1, i2⟩ := avg_bounds lo hi l w (by simpa using h) (fun x hx => hw x (List.mem_cons_of_mem _ hx)) (fun x hx => hl x (List.mem_cons_of_mem _ hx))
    obtain ⟨l1, l2⟩ := hl a (List.mem_cons_self ..)
    have hb := hw b (List.mem_cons_self ..)
    simp only [List.zipWith_cons_cons, List.sum_cons]
    constructor <;> nlinarith

theorem sum_pos_of {w : List ℝ} (hw : ∀ x ∈ w, 0 < x) (hne : w ≠ []) : 0 < w.sum := by
  cases w with
  | nil => exact absurd rfl hne
  | cons a w =>
    rw [List.sum_cons]
    have h1 := hw a (List.mem_cons_self ..)
    have h2 : 0 ≤ w.sum := List.sum_nonneg fun x hx => (hw x (List.mem_cons_of_mem _ hx)).le
    linarith

/-- **C90**: the loss is the weighted average of the losses of the layers, so it lies between the least and the greatest of them. -/
theorem C90_average (agg : ℤ) (ha : -1 ≤ agg) (layers : List (List (Pos ι))) (hne : layers ≠ []) (weights : Option (List ℝ)) (s z : ℝ) (lnf : Option ℝ) :
    ∃ v u, anytimeLoss agg layers weights s z lnf = (some v, some u) ∧
      v * ((List.range layers.length).map (layerWeight agg)).sum =
        (List.zipWith (fun ps i => (weightedCE ps weights s z lnf).1 * layerWeight agg i) layers (List.range layers.length)).sum ∧
      u * ((List.range layers.length).map (layerWeight agg)).sum =
        (List.zipWith (fun ps i => (weightedCE ps weights s z lnf).2.1 * layerWeight agg i) layers (List.range layers.length)).sum ∧
      ∀ lo hi, (∀ ps ∈ layers, lo ≤ (weightedCE ps weights s z lnf).1 ∧ (weightedCE ps weights s z lnf).1 ≤ hi) → lo ≤ v ∧ v ≤ hi := by
  have hw : ∀ x ∈ (List.range layers.length).map (layerWeight agg), 0 < x := by
    intro x hx
    obtain ⟨i, _, rfl⟩ := List.mem_map.1 hx
    exact layerWeight_pos agg ha i
  have hpos : 0 < ((List.range layers.length).map (layerWeight agg)).sum := by
    refine sum_pos_of hw fun h => hne ?_
    have := congrArg List.length h
    simpa using this
  have hav : ∀ f : List (Pos ι) → ℝ, average (layers.map f) ((List.range layers.length).map (layerWeight agg)) =
      some ((List.zipWith (· * ·) (layers.map f) ((List.range layers.length).map (layerWeight agg))).sum / ((List.range layers.length).map (layerWeight agg)).sum) := by
    intro f
    unfold average
    rw [if_neg]
    rintro (h | h)
    · exact h (by simp)
    · exact hpos.ne' h
  unfold anytimeLoss
  simp only [C90_weights, List.map_map]
  refine ⟨_, _, by rw [hav, hav], ?_, ?_, ?_⟩
  · rw [div_mul_cancel₀ _ hpos.ne', List.zipWith_map]; rfl
  · rw [div_mul_cancel₀ _ hpos.ne', List.zipWith_map]; rfl
  · intro lo hi h
    obtain ⟨b1, b2⟩ := avg_bounds lo hi (layers.map fun ps => (weightedCE ps weights s z lnf).1) ((List.range layers.length).map (layerWeight agg)) (by simp) hw
      (fun x hx => by obtain ⟨ps, hps, rfl⟩ := List.mem_map.1 hx; exact h ps hps)
    exact ⟨(le_div_iff₀ hpos).2 b1, (div_le_iff₀ hpos).2 b2⟩

/-- **C90**: if all layers have the same logits, the loss is that of the model without early exits. -/
theorem C90_same (agg : ℤ) (ha : -1 ≤ agg) (ps : List (Pos ι)) (m : ℕ) (weights : Option (List ℝ)) (s z : ℝ) (lnf : Option ℝ) :
    (anytimeLoss agg (List.replicate (m + 1) ps) weights s z lnf).1 = some (weightedCE ps weights s z lnf).1 := by
  obtain ⟨v, u, h1, _, _, h2⟩ := C90_average agg ha (List.replicate (m + 1) ps) (by simp) weights s z lnf
  obtain ⟨h3, h4⟩ := h2 _ _ fun qs hqs => by rw [List.eq_of_mem_replicate hqs]; exact ⟨le_refl _, le_refl _⟩
  rw [h1, le_antisymm h4 h3]

/-- **C90, finding**: below -1 the second layer has a negative weight, and with two layers -2 gives a division by zero. -/
theorem C90_negative : (∀ agg : ℤ, agg ≤ -2 → ∀ len, 2 ≤ len → ∃ w, (avgWeights agg len)[1]? = some w ∧ w < 0) ∧
    ∀ (a b : List (Pos ι)) (w : Option (List ℝ)) (s z : ℝ) (lnf : Option ℝ), anytimeLoss (-2) [a, b] w s z lnf = (none, none) := by
  constructor
  · intro agg ha len hl
    refine ⟨layerWeight agg 1, ?_, ?_⟩
    · rw [C90_weights]
      simp [show 1 < len by omega]
    · unfold layerWeight
      rw [if_neg (by omega)]
      have : (agg : ℝ) ≤ -2 := by exact_mod_cast ha
      push_cast
      linarith
  · intro a b w s z lnf
    have : avgWeights (-2) 2 = [1, -1] := by
      rw [C90_weights]
      simp only [List.range_succ, List.range_zero, List.nil_append, List.cons_append, List.map_cons, List.map_nil, layerWeight]
      norm_num
    unfold anytimeLoss average
    simp [this]

/-! ### The early exit classifier -/

theorem countOnes_num (labels : List Bool) : ∀ w : List ℝ, countOnes (labels.map bit) w = num true labels w ∧
    countOnes (labels.map fun b => 1 - bit b) w = num false labels w := by
  classical
  induction labels with
  | nil => intro w; exact ⟨rfl, rfl⟩
  | cons b bs ih =>
    intro w
    cases w with
    | nil => exact ⟨rfl, rfl⟩
    | cons a w =>
      obtain ⟨h1, h2⟩ := ih w
      unfold countOnes num at h1 h2 ⊢
      simp only [List.map_cons, List.zipWith_cons_cons, List.zip_cons_cons, List.countP_cons, h1, h2]
      cases b <;> simp [bit]

theorem num_add (labels : List Bool) : ∀ w : List ℝ, labels.length = w.length →
    (num true labels w + num false labels w = 0 ↔ ∀ x ∈ w, x ≠ 1) := by
  classical
  induction labels with
  | nil =>
    intro w hw
    cases w with
    | nil => simp [num]
    | cons => cases hw
  | cons b bs ih =>
    intro w hw
    cases w with
    | nil => cases hw
    | cons a w =>
      have := ih w (by simpa using hw)
      unfold num at this ⊢
      simp only [List.zip_cons_cons, List.countP_cons, List.forall_mem_cons, ← this]
      by_cases ha : a = 1 <;> cases b <;> simp [ha]

/-- **C90**: a batch with weights zero and one.  A position where the layer agrees with the last one weighs the fraction of the positions where it does
not, and the other way round; positions of weight zero do not count; and both kinds together weigh the same. -/
theorem C90_balance (labels : List Bool) (w : List ℝ) (hl : labels.length = w.length) (h01 : ∀ x ∈ w, x = 0 ∨ x = 1) (h1 : ∃ x ∈ w, x = 1) :
    ∃ w', balanced labels w = some w' ∧ w'.length = w.length ∧
      (∀ k (hk : k < labels.length) (hw : k < w.length) (hw' : k < w'.length), w'[k] =
        if w[k] = 0 then 0
        else if labels[k] then (num false labels w : ℝ) / ((num true labels w : ℝ) + num false labels w)
        else (num true labels w : ℝ) / ((num true labels w : ℝ) + num false labels w)) ∧
      (List.zipWith (fun b x => if b then x else 0) labels w').sum = (List.zipWith (fun b x => if b then 0 else x) labels w').sum := by
  classical
  have hne : num true labels w + num false labels w ≠ 0 := by
    rw [Ne, num_add labels w hl]
    push Not
    exact h1
  have hner : ((num true labels w : ℝ) + num false labels w) ≠ 0 := by exact_mod_cast hne
  unfold balanced
  simp only [(countOnes_num labels w).1, (countOnes_num labels w).2, if_neg hne]
  refine ⟨_, rfl, by simp [hl], ?_, ?_⟩
  · intro k hk hw hw'
    simp only [List.getElem_zipWith]
    push_cast
    rcases h01 w[k] (List.getElem_mem hw) with h | h
    · rw [h]; simp
    · rw [h]
      simp only [one_ne_zero, if_false]
      cases labels[k] with
      | true => simp only [bit, if_true]; field_simp; ring
      | false => simp only [bit, Bool.false_eq_true, if_false]; field_simp; ring
  · have hsum : ∀ (p q : ℝ) (ls : List Bool) (v : List ℝ), (∀ x ∈ v, x = 0 ∨ x = 1) →
        (List.zipWith (fun b x => if b then x else 0) ls (List.zipWith (fun b w => w * bit b * p + w * (1 - bit b) * q) ls v)).sum = num true ls v * p ∧
        (List.zipWith (fun b x => if b then 0 else x) ls (List.zipWith (fun b w => w * bit b * p + w * (1 - bit b) * q) ls v)).sum = num false ls v * q := by
      intro p q ls
      induction ls with
      | nil => intro v _; simp [num]
      | cons b bs ih =>
        intro v hv
        cases v with
        | nil => simp [num]
        | cons a v =>
          obtain ⟨i1, i2⟩ := ih v fun x hx => hv x (List.mem_cons_of_mem _ hx)
          simp only [List.zipWith_cons_cons, List.sum_cons, i1, i2]
          unfold num
          simp only [List.zip_cons_cons, List.countP_cons]
          rcases hv a (List.mem_cons_self ..) with h | h <;> subst h <;> cases b <;> simp [bit] <;> ring
    obtain ⟨s1, s2⟩ := hsum (1 - (num true labels w : ℝ) / ((num true labels w + num false labels w : ℕ) : ℝ))
      (1 - (num false labels w : ℝ) / ((num true labels w + num false labels w : ℕ) : ℝ)) labels w h01
    rw [s1, s2]
    push_cast
    field_simp
    ring

theorem allSome_none {α : Type} (l : List (Option α)) : allSome l = none ↔ none ∈ l := by
  induction l with
  | nil => simp [allSome]
  | cons x xs ih =>
    cases x with
    | none => simp [allSome]
    | some a =>
      cases h : allSome xs with
      | none => simp only [allSome, h, true_iff]; exact List.mem_cons_of_mem _ (ih.1 h)
      | some as =>
        simp only [allSome, h]
        constructor
        · intro h'; cases h'
        · intro h'
          rcases List.mem_cons.1 h' with h' | h'
          · cases h'
          · rw [ih.2 h'] at h; cases h

/-- **C90, finding**: the loss of the classifier is NaN exactly if no position has the weight 1 (or there is only one layer).  With weights normalised
per sequence (`AVERAGE_PER_SEQUENCE`) that is so as soon as all sequences have at least two tokens. -/
theorem C90_meta_nan (ps : List (MPos P n)) (w : List ℝ) (hl : ps.length = w.length) (s z : ℝ) (lnf : Option ℝ) :
    metaLoss ps w s z lnf = none ↔ n = 0 ∨ ∀ x ∈ w, x ≠ 1 := by
  have hlayer : ∀ i : Fin (n + 1), layerLoss i ps w s z lnf = none ↔ ∀ x ∈ w, x ≠ 1 := by
    intro i
    rw [← num_add (ps.map fun x => label x i) w (by simpa using hl)]
    unfold layerLoss balanced
    simp only [(countOnes_num _ w).1, (countOnes_num _ w).2]
    by_cases h : num true (ps.map fun x => label x i) w + num false (ps.map fun x => label x i) w = 0
    · simp only [h, if_true]
    · simp only [h, if_false, iff_false]
      intro h'; cases h'
  unfold metaLoss
  by_cases h : none ∈ (List.finRange n).map fun i => layerLoss i.castSucc ps w s z lnf
  · rw [(allSome_none _).2 h]
    simp only [true_iff]
    obtain ⟨i, _, hi⟩ := List.mem_map.1 h
    exact Or.inr ((hlayer _).1 hi)
  · obtain ⟨ls, hls⟩ := Option.ne_none_iff_exists'.1 (fun h' => h ((allSome_none _).1 h'))
    rw [hls]
    simp only
    by_cases hn : n = 0
    · simp [hn]
    · rw [if_neg hn]
      simp only [reduceCtorEq, hn, false_or, false_iff]
      intro hw
      refine h (List.mem_map.2 ⟨⟨0, by omega⟩, List.mem_finRange _, (hlayer _).2 hw⟩)

theorem allSome_map {α β : Type} (f : α → Option β) (g : α → β) (l : List α) (h : ∀ x ∈ l, f x = some (g x)) : allSome (l.map f) = some (l.map g) := by
  induction l with
  | nil => rfl
  | cons a l ih =>
    simp only [List.map_cons, allSome, h a (List.mem_cons_self ..), ih fun x hx => h x (List.mem_cons_of_mem _ hx)]

/-- **C90**: the loss of the classifier is the average, over all layers but the last, of the cross entropy of "agrees with the last layer" with the
balanced weights of that layer. -/
theorem C90_meta (hn : n ≠ 0) (ps : List (MPos P n)) (w : List ℝ) (hl : ps.length = w.length) (h1 : ∃ x ∈ w, x = 1) (s z : ℝ) (lnf : Option ℝ) :
    ∃ lw : Fin n → List ℝ, (∀ i, balanced (ps.map fun x => decide (x.pred i.castSucc = x.pred (Fin.last n))) w = some (lw i)) ∧
      metaLoss ps w s z lnf = some
        ((∑ i, (weightedCE (ps.map fun x => (⟨![(x.logits i.castSucc).1, (x.logits i.castSucc).2],
          if x.pred i.castSucc = x.pred (Fin.last n) then 1 else 0⟩ : Pos (Fin 2))) (some (lw i)) s z lnf).1) / n,
        (∑ i, (weightedCE (ps.map fun x => (⟨![(x.logits i.castSucc).1, (x.logits i.castSucc).2],
          if x.pred i.castSucc = x.pred (Fin.last n) then 1 else 0⟩ : Pos (Fin 2))) (some (lw i)) s z lnf).2.1) / n) := by
  have hlab : ∀ i : Fin (n + 1), (ps.map fun x => label x i) = ps.map fun x => decide (x.pred i = x.pred (Fin.last n)) := fun i =>
    List.map_congr_left fun x _ => by unfold label; exact decide_eq_decide.2 eq_comm
  have hpos : ∀ i : Fin (n + 1), (ps.map fun x => (⟨two (x.logits i), if label x i then 1 else 0⟩ : Pos (Fin 2))) =
      ps.map fun x => (⟨![(x.logits i).1, (x.logits i).2], if x.pred i = x.pred (Fin.last n) then 1 else 0⟩ : Pos (Fin 2)) := fun i =>
    List.map_congr_left fun x _ => by
      have e1 : two (x.logits i) = ![(x.logits i).1, (x.logits i).2] := by
        funext j
        fin_cases j <;> simp [two]
      have e2 : (if label x i then (1 : Fin 2) else 0) = if x.pred i = x.pred (Fin.last n) then 1 else 0 := by
        unfold label
        by_cases h : x.pred i = x.pred (Fin.last n)
        · simp [h]
        · simp [h, Ne.symm h]
      rw [e1, e2]
  have hb : ∀ i : Fin n, ∃ v, balanced (ps.map fun x => decide (x.pred i.castSucc = x.pred (Fin.last n))) w = some v := by
    intro i
    have hne : num true (ps.map fun x => decide (x.pred i.castSucc = x.pred (Fin.last n))) w +
        num false (ps.map fun x => decide (x.pred i.castSucc = x.pred (Fin.last n))) w ≠ 0 := by
      rw [Ne, num_add _ w (by simpa using hl)]
      push Not
      exact h1
    unfold balanced
    simp only [(countOnes_num _ w).1, (countOnes_num _ w).2, if_neg hne]
    exact ⟨_, rfl⟩
  choose lw hlw using hb
  refine ⟨lw, hlw, ?_⟩
  unfold metaLoss
  rw [allSome_map _ (fun i : Fin n => ((weightedCE (ps.map fun x => (⟨![(x.logits i.castSucc).1, (x.logits i.castSucc).2],
          if x.pred i.castSucc = x.pred (Fin.last n) then 1 else 0⟩ : Pos (Fin 2))) (some (lw i)) s z lnf).1,
        (weightedCE (ps.map fun x => (⟨![(x.logits i.castSucc).1, (x.logits i.castSucc).2],
          if x.pred i.castSucc = x.pred (Fin.last n) then 1 else 0⟩ : Pos (Fin 2))) (some (lw i)) s z lnf).2.1))]
  · simp only [if_neg hn, List.map_map, Fin.univ_def, Finset.sum]
    rfl
  · intro i _
    unfold layerLoss
    rw [hlab, hlw]
    simp only [hpos]

theorem argmax_first (l : List ℕ) (h01 : ∀ x ∈ l, x = 0 ∨ x = 1) (h1 : 1 ∈ l) :
    l[argmax l]? = some 1 ∧ ∀ j, j < argmax l → l[j]? = some 0 := by
  induction l with
  | nil => cases h1
  | cons a l ih =>
    by_cases ha : a = 1
    · subst ha
      have hall : l.all (· ≤ 1) = true := by
        rw [List.all_eq_true]
        intro x hx
        rcases h01 x (List.mem_cons_of_mem _ hx) with h | h <;> simp [h]
      rw [argmax, if_pos hall]
      exact ⟨rfl, fun j hj => absurd hj (Nat.not_lt_zero j)⟩
    · have ha0 : a = 0 := (h01 a (List.mem_cons_self ..)).resolve_right ha
      have hm : 1 ∈ l := (List.mem_cons.1 h1).resolve_left (Ne.symm ha)
      have hall : ¬ l.all (· ≤ a) = true := by
        rw [List.all_eq_true]
        intro h
        have := h 1 hm
        rw [ha0] at this
        simp at this
      obtain ⟨i1, i2⟩ := ih (fun x hx => h01 x (List.mem_cons_of_mem _ hx)) hm
      rw [argmax, if_neg hall]
      refine ⟨by rw [List.getElem?_cons_succ]; exact i1, fun j hj => ?_⟩
      cases j with
      | zero => rw [ha0]; rfl
      | succ j => rw [List.getElem?_cons_succ]; exact i2 j (by omega)

/-- **C90**: the class of a position is the first layer that predicts what the last one does. -/
theorem C90_first_agreeing (x : MPos P n) : ∃ i : Fin (n + 1), (i : ℕ) = multiclass x ∧ x.pred i = x.pred (Fin.last n) ∧
    ∀ j, j < i → x.pred j ≠ x.pred (Fin.last n) := by
  obtain ⟨h1, h2⟩ := argmax_first ((List.finRange (n + 1)).map fun i => if label x i then 1 else 0)
    (fun v hv => by
      obtain ⟨i, _, rfl⟩ := List.mem_map.1 hv
      cases label x i <;> simp)
    (List.mem_map.2 ⟨Fin.last n, List.mem_finRange _, by simp [label]⟩)
  change ((List.finRange (n + 1)).map fun i => if label x i then 1 else 0)[multiclass x]? = some 1 at h1
  have hlt : multiclass x < n + 1 := by
    by_contra h
    rw [List.getElem?_eq_none (by simpa using Nat.le_of_not_lt h)] at h1
    cases h1
  have hget : ∀ j : Fin (n + 1), ((List.finRange (n + 1)).map fun i => if label x i then 1 else 0)[(j : ℕ)]? = some (if label x j then 1 else 0) := by
    intro j
    have hj : (j : ℕ) < (List.finRange (n + 1)).length := by rw [List.length_finRange]; exact j.2
    rw [List.getElem?_map, List.getElem?_eq_getElem hj, List.getElem_finRange]
    rfl
  refine ⟨⟨multiclass x, hlt⟩, rfl, ?_, fun j hj => ?_⟩
  · have h3 := (hget ⟨multiclass x, hlt⟩).symm.trans h1
    have hl : label x ⟨multiclass x, hlt⟩ = true := by
      by_contra h
      rw [if_neg h] at h3
      cases h3
    exact (of_decide_eq_true hl).symm
  · have h3 := (hget j).symm.trans (h2 j hj)
    intro he
    rw [if_pos (show label x j = true from decide_eq_true he.symm)] at h3
    cases h3

theorem softmax_two (y : ℝ × ℝ) :
    Real.exp (logSoftmax y).1 = 1 - Real.exp y.2 / (Real.exp y.1 + Real.exp y.2) ∧
    Real.exp (logSoftmax y).2 = Real.exp y.2 / (Real.exp y.1 + Real.exp y.2) := by
  have h1 := Real.exp_pos y.1
  have h2 := Real.exp_pos y.2
  unfold logSoftmax
  simp only [Real.exp_sub, Real.exp_log (add_pos h1 h2)]
  refine ⟨?_, trivial⟩
  field_simp
  ring

/-- **C90**: the scores are the log-probabilities of exiting at each layer. -/
theorem C90_geom (x : MPos P n) : (∀ i, Real.exp (geomLike x i) = exitAt x i) ∧ (∑ i, exitAt x i = exits x) ∧ 0 < exits x ∧ exits x < 1 := by
  have hq : ∀ i, 0 < exitProb x i ∧ exitProb x i < 1 := by
    intro i
    have h1 := Real.exp_pos (x.logits i).1
    have h2 := Real.exp_pos (x.logits i).2
    unfold exitProb
    exact ⟨by positivity, by rw [div_lt_one (by positivity)]; linarith⟩
  have hg : ∀ i, Real.exp (geomLike x i) = exitAt x i := by
    intro i
    have hfil : univ.filter (· ≤ i) = insert i (univ.filter (· < i)) := by
      ext j
      simp [le_iff_eq_or_lt]
    unfold geomLike exitAt
    simp only [hfil]
    rw [sum_insert (by simp), add_sub_cancel_left, Real.exp_add, Real.exp_sum, (softmax_two _).2]
    simp only [(softmax_two _).1]
    rfl
  have hsum : ∑ i, exitAt x i = exits x := by
    unfold exits exitAt
    rw [prod_one_sub_ordered, sub_sub_cancel]
    exact sum_congr rfl fun i _ => mul_comm _ _
  have hprod : 0 < ∏ j, (1 - exitProb x j) := prod_pos fun j _ => by linarith [(hq j).2]
  refine ⟨hg, hsum, ?_, by unfold exits; linarith⟩
  rw [← hsum]
  exact sum_pos (fun i _ => by rw [← hg]; exact Real.exp_pos _) ⟨0, mem_univ _⟩

/-- **C90**: without smoothing the loss of a position is minus the logarithm of the probability of exiting at the first layer that agrees, given that
one exits at all, plus the z-loss. -/
theorem C90_geom_loss (hn : 0 < n) (ps : List (MPos P n)) (w : List ℝ) (z : ℝ) :
    (geomLoss ps (some w) 0 z none).1 = (List.zipWith (fun x a =>
      (-Real.log (exitAt x (Fin.ofNat (n + 1) (multiclass x)) / exits x) + z * (Real.log (exits x)) ^ 2) * a) ps w).sum := by
  unfold geomLoss weightedCE
  simp only [List.map_map]
  rw [List.zipWith_map_left]
  congr 1
  congr 1
  funext x a
  obtain ⟨g1, g2, _⟩ := C90_geom x
  simp only [Function.comp]
  rw [C14_hard_labels (by rw [Fintype.card_fin]; omega)]
  have hs : ∑ j, Real.exp (geomLike x j) = exits x := by rw [← g2]; exact sum_congr rfl fun i _ => g1 i
  rw [hs]
  unfold softmax
  rw [hs, g1]

/-- **C90, finding**: the z-loss is part of the geometric-like loss but reported as zero. -/
theorem C90_z_unreported (hn : 0 < n) (x : MPos P n) (z : ℝ) (hz : 0 < z) :
    (geomLoss [x] (some [1]) 0 0 none).1 < (geomLoss [x] (some [1]) 0 z none).1 ∧ (geomLoss [x] (some [1]) 0 z none).2 = 0 := by
  obtain ⟨_, _, g3, g4⟩ := C90_geom x
  rw [C90_geom_loss hn, C90_geom_loss hn]
  refine ⟨?_, rfl⟩
  simp only [List.zipWith_cons_cons, List.zipWith_nil_left, List.sum_cons, List.sum_nil]
  have : 0 < (Real.log (exits x)) ^ 2 := by
    have := Real.log_neg g3 g4
    rw [pow_two]
    exact mul_pos_of_neg_of_neg this this
  nlinarith

/-! ### Witnesses -/

/-- `C90_balance` applies: two positions that agree, one that does not, one of padding. -/
example : ∃ w', balanced [true, false, true, true] [1, 1, 1, 0] = some w' ∧ w'.length = 4 := by
  obtain ⟨w', h1, h2, _⟩ := C90_balance [true, false, true, true] [1, 1, 1, 0] rfl (by simp) ⟨1, by simp, rfl⟩
  exact ⟨w', h1, h2⟩

/-- `C90_average` applies to three layers. -/
example (a b c : List (Pos (Fin 3))) : ∃ v u, anytimeLoss 1 [a, b, c] none 0 0 none = (some v, some u) := by
  obtain ⟨v, u, h, _⟩ := C90_average 1 (by norm_num) [a, b, c] (by simp) none 0 0 none
  exact ⟨v, u, h⟩

/-- Weights normalised per sequence: the loss is NaN, whatever the model says. -/
example (a b : MPos (Fin 5) 3) : metaLoss [a, b] [1 / 2, 1 / 2] 0 0 none = none :=
  (C90_meta_nan [a, b] [1 / 2, 1 / 2] rfl 0 0 none).2 (Or.inr (by norm_num))

end Verif.CalmLoss
