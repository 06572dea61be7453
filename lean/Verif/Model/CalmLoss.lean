import Verif.Model.Loss
import Mathlib.Analysis.SpecialFunctions.Pow.Real
/-
The losses of CALM: `/repo/t5x/contrib/calm/models.py`, `loss_fn` (lines 447-536), `loss_fn_meta_cls` (lines 237-342) and
`loss_fn_meta_cls_geom_like` (lines 344-445).

Simplifications: real numbers; a result that is NaN or infinite is `none`; the batch is a list of positions (C13, C14 model the cross entropy the same way); the prediction of a
layer (`argmax` of its logits) is given; the metrics are those of C77 and are left out except for what is passed as `z_loss`.  The decoder has
`n + 1` layers.
-/
namespace Verif.CalmLoss
open Verif.Loss Finset

/-! ### Anytime predictions -/

/-- `jnp.arange(a, b, step=s)`. -/
def arange (a b s : ℤ) : List ℤ :=
  (List.range (if 0 < s then ((b - a + s - 1) / s).toNat else ((a - b + -s - 1) / -s).toNat)).map fun (i : ℕ) => a + (i : ℤ) * s

/-- `jnp.geomspace(1, 2 ** (len - 1), len)`. -/
noncomputable def geomspace (len : ℕ) : List ℝ :=
  (List.range len).map fun (i : ℕ) => if len = 1 then 1 else ((2 : ℝ) ^ (len - 1)) ^ ((i : ℝ) / ((len - 1 : ℕ) : ℝ))

/-- Lines 499-509. -/
noncomputable def avgWeights (agg : ℤ) (len : ℕ) : List ℝ :=
  if agg = -1 then geomspace len
  else if agg = 0 then List.replicate len 1
  else (arange 1 (agg * len + 1) agg).map fun (i : ℤ) => (i : ℝ)

open Classical in
/-- `jnp.average(l, 0, w)`; a division by zero is not finite. -/
noncomputable def average (l w : List ℝ) : Option ℝ :=
  if l.length ≠ w.length ∨ w.sum = 0 then none else some ((List.zipWith (· * ·) l w).sum / w.sum)

variable {ι : Type} [Fintype ι] [DecidableEq ι]

/-- `loss_fn`, lines 478-511: (loss, z-loss); `layers` are the positions with the logits of each layer. -/
noncomputable def anytimeLoss (agg : ℤ) (layers : List (List (Pos ι))) (weights : Option (List ℝ)) (smoothing z : ℝ) (lnf : Option ℝ) :
    Option ℝ × Option ℝ :=
  let ls := layers.map fun ps => weightedCE ps weights smoothing z lnf
  let w := avgWeights agg layers.length
  (average (ls.map (·.1)) w, average (ls.map (·.2.1)) w)

/-! ### The early exit classifier -/

variable {P : Type} [DecidableEq P] {n : ℕ}

/-- One position: the two logits of the classifier (stay, exit) and the prediction after each layer. -/
structure MPos (P : Type) (n : ℕ) where
  logits : Fin (n + 1) → ℝ × ℝ
  pred : Fin (n + 1) → P

/-- Lines 281-283 and 389-391: whether the layer agrees with the last one. -/
def label (x : MPos P n) (i : Fin (n + 1)) : Bool := x.pred (Fin.last n) = x.pred i

def bit (b : Bool) : ℝ := if b then 1 else 0

open Classical in
/-- `(meta_labels * weights == 1).sum()`. -/
noncomputable def countOnes (l w : List ℝ) : ℕ := (List.zipWith (· * ·) l w).countP fun x => decide (x = 1)

/-- Lines 299-309; 0/0 is NaN. -/
noncomputable def balanced (labels : List Bool) (w : List ℝ) : Option (List ℝ) :=
  let pos := countOnes (labels.map bit) w
  let neg := countOnes (labels.map fun b => 1 - bit b) w
  if pos + neg = 0 then none
  else
    let posWeight := 1 - (pos : ℝ) / ((pos + neg : ℕ) : ℝ)
    let negWeight := 1 - (neg : ℝ) / ((pos + neg : ℕ) : ℝ)
    some (List.zipWith (fun b w => w * bit b * posWeight + w * (1 - bit b) * negWeight) labels w)

/-- The two logits as a vector. -/
def two (x : ℝ × ℝ) : Fin 2 → ℝ := fun i => if i = 0 then x.1 else x.2

/-- Lines 311-319: the loss of one layer. -/
noncomputable def layerLoss (i : Fin (n + 1)) (ps : List (MPos P n)) (w : List ℝ) (smoothing z : ℝ) (lnf : Option ℝ) : Option (ℝ × ℝ) :=
  match balanced (ps.map fun x => label x i) w with
  | none => none
  | some w' =>
    let r := weightedCE (ps.map fun x => (⟨two (x.logits i), if label x i then 1 else 0⟩ : Pos (Fin 2))) (some w') smoothing z lnf
    some (r.1, r.2.1)

/-- All or nothing: a NaN makes the average NaN. -/
def allSome {α : Type} : List (Option α) → Option (List α)
  | [] => some []
  | x :: xs =>
    match x, allSome xs with
    | some a, some as => some (a :: as)
    | _, _ => none

/-- `loss_fn_meta_cls`, lines 286-322: the average over all layers but the last; without such layers 0/0. -/
noncomputable def metaLoss (ps : List (MPos P n)) (w : List ℝ) (smoothing z : ℝ) (lnf : Option ℝ) : Option (ℝ × ℝ) :=
  match allSome ((List.finRange n).map fun i => layerLoss i.castSucc ps w smoothing z lnf) with
  | none => none
  | some ls => if n = 0 then none else some ((ls.map (·.1)).sum / n, (ls.map (·.2)).sum / n)

/-- `argmax(0)` of the labels of the layers, line 394: the first maximum. -/
def argmax : List ℕ → ℕ
  | [] => 0
  | a :: l => if l.all (· ≤ a) then 0 else argmax l + 1

def multiclass (x : MPos P n) : ℕ := argmax ((List.finRange (n + 1)).map fun i => if label x i then 1 else 0)

/-- `nn.log_softmax` of the two logits, line 397. -/
noncomputable def logSoftmax (x : ℝ × ℝ) : ℝ × ℝ :=
  let s := Real.log (Real.exp x.1 + Real.exp x.2)
  (x.1 - s, x.2 - s)

/-- `geom_like_probs` of one position, lines 397-402. -/
noncomputable def geomLike (x : MPos P n) (i : Fin (n + 1)) : ℝ :=
  let neg := fun j => (logSoftmax (x.logits j)).1
  ((∑ j ∈ univ.filter (· ≤ i), neg j) - neg i) + (logSoftmax (x.logits i)).2

/-- `loss_fn_meta_cls_geom_like`, lines 404-421: the loss and the `z_loss` that is reported. -/
noncomputable def geomLoss (ps : List (MPos P n)) (w : Option (List ℝ)) (smoothing z : ℝ) (lnf : Option ℝ) : ℝ × ℝ :=
  ((weightedCE (ps.map fun x => (⟨geomLike x, Fin.ofNat (n + 1) (multiclass x)⟩ : Pos (Fin (n + 1)))) w smoothing z lnf).1, 0)

end Verif.CalmLoss
