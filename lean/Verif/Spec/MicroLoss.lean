import Verif.Model.MicroLoss
/- Vocabulary for C104: the loss of a batch as a sum over its tokens, divided by a factor. -/
namespace Verif.MicroLoss.Spec
open Verif Verif.MicroLoss Verif.Masks Verif.Transformer Verif.PackedLoss
open Verif.LossWeights (LNF Special)

variable {P : Type} {n m V : Nat}

/-- The weights of the tokens of a row before any normalisation: `decoder_loss_weights`, or 1 for each target that is not padding. -/
noncomputable def given (weighted : Bool) (r : TrainRow n m) : List ℝ :=
  if weighted then List.ofFn r.weights else List.ofFn fun i => if r.decTargets i > 0 then 1 else 0

/-- The weights of the tokens of a row.  Without a special factor and without `decoder_loss_weights` each position counts.  For
`AVERAGE_PER_SEQUENCE` they are divided by their sum over the sequence (C15 says what `sumWeightsPerSegment` is for packed rows). -/
noncomputable def tokenWeights (lnf : LNF ℝ) (packed weighted : Bool) (r : TrainRow n m) : List ℝ :=
  match lnf with
  | .special .averagePerSequence =>
    if packed then List.zipWith LossWeights.safeDiv (given weighted r)
      (LossWeights.sumWeightsPerSegment (List.ofFn r.positions) (List.ofFn r.decSeg) (given weighted r))
    else (given weighted r).map fun a => a / (given weighted r).sum
  | .special _ => given weighted r
  | _ => if weighted then List.ofFn r.weights else List.replicate n 1

/-- The number by which the loss of these rows is divided. -/
noncomputable def factor (lnf : LNF ℝ) (packed weighted : Bool) (rows : List (TrainRow n m)) : ℝ :=
  match lnf with
  | .const k => k
  | .special .numTotal => (rows.length * n : ℕ)
  | .special _ => (rows.map fun r => (tokenWeights lnf packed weighted r).sum).sum
  | _ => 1

/-- The weighted loss of a row, with the logits `y`, and its z-loss. -/
noncomputable def rowLoss (lnf : LNF ℝ) (smoothing z : ℝ) (packed weighted : Bool) (r : TrainRow n m) (y : Fin n → Vec V) : ℝ :=
  ∑ i, (position smoothing z (y i) (r.decTargets i)).1 * (tokenWeights lnf packed weighted r).getD i 0

noncomputable def rowZ (lnf : LNF ℝ) (smoothing z : ℝ) (packed weighted : Bool) (r : TrainRow n m) (y : Fin n → Vec V) : ℝ :=
  ∑ i, (position smoothing z (y i) (r.decTargets i)).2 * (tokenWeights lnf packed weighted r).getD i 0

/-- The rows that `loss_fn` sees. -/
noncomputable def rowsOf (n m : Nat) (b : Train.Batch Cells) : List (TrainRow n m) := (toTrainBatch n m b).rows

/-- The weighted loss of a batch before it is divided, as a function of the parameters; `Y` are the logits. -/
noncomputable def undivided (c : Cfg P n m V) (Y : P → TrainRow n m → Fin n → Vec V) (b : Train.Batch Cells) (q : P) : ℝ :=
  ((rowsOf n m b).map fun r => rowLoss c.lnf c.smoothing c.z (has b "decoder_segment_ids") (has b "decoder_loss_weights") r (Y q r)).sum

noncomputable def undividedZ (c : Cfg P n m V) (Y : P → TrainRow n m → Fin n → Vec V) (b : Train.Batch Cells) (q : P) : ℝ :=
  ((rowsOf n m b).map fun r => rowZ c.lnf c.smoothing c.z (has b "decoder_segment_ids") (has b "decoder_loss_weights") r (Y q r)).sum

/-- The number by which its loss is divided. -/
noncomputable def divisor (c : Cfg P n m V) (b : Train.Batch Cells) : ℝ :=
  factor c.lnf (has b "decoder_segment_ids") (has b "decoder_loss_weights") (rowsOf n m b)

/-- The model has the logits `Y` on the rows of the batch for parameters near `p`, and they are differentiable at `p`. -/
structure Smooth [NormedAddCommGroup P] [NormedSpace ℝ P] (c : Cfg P n m V) (Y : P → TrainRow n m → Fin n → Vec V) (b : Train.Batch Cells)
    (p : P) : Prop where
  defined : ∀ᶠ q in nhds p, ∀ r ∈ rowsOf n m b, c.logits q (has b "decoder_segment_ids") r = some (Y q r)
  diff : ∀ r ∈ rowsOf n m b, ∀ i v, DifferentiableAt ℝ (fun q => Y q r i v) p

end Verif.MicroLoss.Spec
