import Verif.Model.PackedLoss
import Verif.Spec.Train
import Mathlib.Analysis.Calculus.FDeriv.Basic
/-
The differentiated training loss that `accumulate_grads_microbatched` (`/repo/t5x/trainer.py` lines 704-862) is given by the models of t5x:
`jax.value_and_grad(model.loss_fn, has_aux=True)` with `loss_fn` of `/repo/t5x/models.py` lines 288-337.

Simplifications: exact real numbers; no dropout, no mutables; `jax.grad` is the derivative (a linear map on the parameters).  The metrics are the
entries `loss` and `z_loss` of the dict of `compute_base_metrics`; all entries are in `Verif.Model.BaseMetrics`.  `_compute_logits` acts on every row.
-/
namespace Verif.MicroLoss
open Verif.Masks Verif.Transformer Verif.PackedLoss
open Verif.Train.Spec (Example examples)

/-- One row of a feature of a batch: token ids and the like, or weights. -/
inductive Cells where
  | ints (l : List ℤ)
  | reals (l : List ℝ)

/-- The value at a position. -/
def Cells.int : Option Cells → Nat → ℤ
  | some (.ints l), i => l.getD i 0
  | _, _ => 0

noncomputable def Cells.real : Option Cells → Nat → ℝ
  | some (.reals l), i => l.getD i 0
  | some (.ints l), i => l.getD i 0
  | none, _ => 0

/-- `batch[name]`, one row. -/
def feature (x : Example Cells) (name : String) : Option Cells := (x.find? (fun e => e.1 == name.toList)).bind Prod.snd

/-- The features that `loss_fn` reads from an example. -/
noncomputable def readRow (n m : Nat) (x : Example Cells) : TrainRow n m where
  encTokens := fun i => Cells.int (feature x "encoder_input_tokens") i
  decInputs := fun i => Cells.int (feature x "decoder_input_tokens") i
  decTargets := fun i => Cells.int (feature x "decoder_target_tokens") i
  causal := fun i => Cells.int (feature x "decoder_causal_attention") i
  weights := fun i => Cells.real (feature x "decoder_loss_weights") i
  encSeg := fun i => Cells.int (feature x "encoder_segment_ids") i
  decSeg := fun i => Cells.int (feature x "decoder_segment_ids") i
  positions := fun i => (Cells.int (feature x "decoder_positions") i).toNat

/-- `next(iter(batch.values())).shape[0]`, trainer.py line 732. -/
def batchSize {Row : Type} : Train.Batch Row → Nat
  | [] => 0
  | e :: _ => e.2.length

/-- `name in batch`. -/
def has {Row : Type} (b : Train.Batch Row) (name : String) : Bool := b.any fun e => e.1 == name.toList

/-- What `loss_fn` sees of a batch. -/
noncomputable def toTrainBatch (n m : Nat) (b : Train.Batch Cells) : TrainBatch n m where
  rows := (examples b (batchSize b)).map (readRow n m)
  packed := has b "decoder_segment_ids"
  weighted := has b "decoder_loss_weights"

variable {P R : Type} {n m V : Nat}

/-- A model: `_compute_logits` with given parameters, for a packed batch or one that is not, and the arguments of the loss. -/
structure Cfg (P : Type) (n m V : Nat) where
  logits : P → Bool → TrainRow n m → Option (Fin n → Vec V)
  lnf : LossWeights.LNF ℝ
  smoothing : ℝ
  z : ℝ

/-- (loss, z-loss) of `loss_fn`; the loss of a batch on which it fails is 0. -/
noncomputable def lossOf (c : Cfg P n m V) (b : Train.Batch Cells) (q : P) : ℝ × ℝ :=
  let t := toTrainBatch n m b
  let v := (lossFn (c.logits q t.packed) c.lnf c.smoothing c.z t).getD (0, 0, 0)
  (v.1, v.2.1)

/-- `jax.value_and_grad(model.loss_fn, has_aux=True)`: metrics, mutables, gradient. -/
noncomputable def lossGrad [NormedAddCommGroup P] [NormedSpace ℝ P] (c : Cfg P n m V) : Train.LossGrad ℝ P (P →L[ℝ] ℝ) Unit R Cells :=
  fun p b _ mu => ([("loss".toList, .avgStep (lossOf c b p).1 1), ("z_loss".toList, .avgStep (lossOf c b p).2 1)], mu,
    fderiv ℝ (fun q => (lossOf c b q).1) p)

end Verif.MicroLoss
