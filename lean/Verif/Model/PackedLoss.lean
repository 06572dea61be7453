import Verif.Model.DecoderOnly
import Verif.Model.Loss
import Verif.Model.LossWeights
/-
The training loss of a batch for the networks of `Verif.Model.Transformer` and `Verif.Model.DecoderOnly`: `BaseTransformerModel.loss_fn`,
`/repo/t5x/models.py` lines 284-337, with `compute_weighted_cross_entropy` and `get_loss_normalizing_factor_and_weights` of
`/repo/t5x/losses.py`.

Simplifications: those of the models used; no dropout (`dropout_rng=None`); the metrics are in `Verif.Model.BaseMetrics`.
-/
namespace Verif.PackedLoss
open Verif.Masks Verif.Transformer

/-- The features of one row.  `encTokens` and `encSeg` are used by encoder-decoder models, `causal` by decoder-only models. -/
structure TrainRow (n m : Nat) where
  encTokens : Row m
  decInputs : Row n
  decTargets : Row n
  causal : Row n
  weights : Fin n → ℝ
  encSeg : Row m
  decSeg : Row n
  positions : Fin n → ℕ

/-- A batch.  `packed` says whether it has the features `..._segment_ids` and `..._positions`, `weighted` whether it has
`decoder_loss_weights`. -/
structure TrainBatch (n m : Nat) where
  rows : List (TrainRow n m)
  packed : Bool
  weighted : Bool

/-- The features read by `get_loss_normalizing_factor_and_weights`. -/
def lossFeatures {n m : Nat} (b : TrainBatch n m) : LossWeights.Batch ℝ where
  targets := b.rows.map fun r => List.ofFn r.decTargets
  weights := if b.weighted then some (b.rows.map fun r => List.ofFn r.weights) else none
  packed := if b.packed then some (b.rows.map fun r => List.ofFn r.decSeg, b.rows.map fun r => List.ofFn r.positions) else none

/-- losses.py lines 159-177, for one position: loss and z-loss before weighting.  `common_utils.onehot` compares the target with every token
id, so a target outside the vocabulary has the low confidence everywhere. -/
noncomputable def position {V : Nat} (smoothing z : ℝ) (logits : Vec V) (target : Int) : ℝ × ℝ :=
  let l := Loss.crossEntropy logits (fun i => if (i.val : Int) = target then 1 - smoothing else Loss.lowConfidence V smoothing) z
  (l.1 - Loss.normConst V smoothing, l.2)

/-- losses.py lines 179-193: weighting, normalising and summing; (loss, z-loss, weight sum). -/
noncomputable def weighAndSum (l : List (List (ℝ × ℝ))) (weights : Option (List (List ℝ))) (lnf : Option ℝ) : ℝ × ℝ × ℝ :=
  let weigh : List (List ℝ) → List (List ℝ) := fun x => match weights with
    | some w => List.zipWith (List.zipWith (· * ·)) x w
    | none => x
  let norm : List (List ℝ) → List (List ℝ) := fun x => match lnf with
    | some k => x.map fun r => r.map (· / k)
    | none => x
  (LossWeights.total (norm (weigh (l.map fun r => r.map Prod.fst))), LossWeights.total (norm (weigh (l.map fun r => r.map Prod.snd))),
    match weights with
    | some w => LossWeights.total w
    | none => ((l.map List.length).sum : ℕ))

/-- `loss_fn`, models.py lines 284-318, for any `_compute_logits` that acts on each row: loss, z-loss and weight sum; none is an error. -/
noncomputable def lossFn {n m V : Nat} (computeLogits : TrainRow n m → Option (Fin n → Vec V)) (lnf : LossWeights.LNF ℝ) (smoothing z : ℝ)
    (b : TrainBatch n m) : Option (ℝ × ℝ × ℝ) :=
  (b.rows.mapM computeLogits).bind fun logits => (LossWeights.lnfAndWeights lnf (lossFeatures b)).map fun kw =>
    weighAndSum (List.zipWith (fun (y : Fin n → Vec V) (r : TrainRow n m) => List.ofFn fun i => position smoothing z (y i) (r.decTargets i))
      logits b.rows) kw.2 kw.1

/-- `EncoderDecoderModel._compute_logits`, models.py lines 456-482, for one row. -/
noncomputable def encDecLogits {d h e f V n m : Nat} (ex : ℝ → ℝ) (lg : ℕ → ℝ) (net : Transformer.Net d h e f V) (packed : Bool)
    (r : TrainRow n m) : Option (Fin n → Vec V) :=
  Transformer.apply ex lg net ⟨r.encTokens, r.decInputs, r.decTargets, if packed then some r.encSeg else none, if packed then some r.decSeg else none⟩

/-- `DecoderOnlyModel._compute_logits`, models.py lines 893-918, for one row. -/
noncomputable def lmLogits {d h e f V n m : Nat} (ex : ℝ → ℝ) (lg : ℕ → ℝ) (net : DecoderOnly.LmNet d h e f V) (bidirectional packed : Bool)
    (r : TrainRow n m) : Option (Fin n → Vec V) :=
  DecoderOnly.apply ex lg net ⟨r.decInputs, r.decTargets, KVCache.maybeCausal bidirectional r.causal, if packed then some r.decSeg else none⟩

end Verif.PackedLoss
