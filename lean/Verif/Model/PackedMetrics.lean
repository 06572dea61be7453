import Verif.Model.PackedLoss
import Verif.Model.BaseMetrics
/-
What `BaseTransformerModel.loss_fn` (`/repo/t5x/models.py` lines 287-337) gives to `compute_base_metrics` (lines 1371-1469), for the batches and
losses of `Verif.Model.PackedLoss`.

Simplifications: those of `Verif.Model.PackedLoss` and `Verif.Model.BaseMetrics`; `encoder_positions`, which no metric reads, is left out.
-/
namespace Verif.PackedMetrics
open Verif.PackedLoss Verif.Transformer

/-- The features of a batch that hold tokens, segment ids or positions, as `loss_fn` meets them in `batch.items()`.  `encoder` says whether the model
has an encoder. -/
def tokenFeatures {n m : Nat} (encoder : Bool) (b : TrainBatch n m) : List (BaseMetrics.Str × List (List ℤ)) :=
  (if encoder then [("encoder_input_tokens".toList, b.rows.map fun r => List.ofFn r.encTokens)] else
    [("decoder_causal_attention".toList, b.rows.map fun r => List.ofFn r.causal)]) ++
  [("decoder_input_tokens".toList, b.rows.map fun r => List.ofFn r.decInputs), ("decoder_target_tokens".toList, b.rows.map fun r => List.ofFn r.decTargets)] ++
  (if b.packed then
    (if encoder then [("encoder_segment_ids".toList, b.rows.map fun r => List.ofFn r.encSeg)] else []) ++
    [("decoder_segment_ids".toList, b.rows.map fun r => List.ofFn r.decSeg),
     ("decoder_positions".toList, b.rows.map fun r => List.ofFn fun i => (r.positions i : ℤ))] else [])

/-- models.py lines 294-336: the arguments of `compute_base_metrics`; none is an error. -/
noncomputable def metricArgs {n m V : Nat} (encoder : Bool) (computeLogits : TrainRow n m → Option (Fin n → Vec V)) (lnf : LossWeights.LNF ℝ)
    (smoothing z : ℝ) (b : TrainBatch n m) : Option (BaseMetrics.Args ℝ) :=
  (b.rows.mapM computeLogits).bind fun logits => (LossWeights.lnfAndWeights lnf (lossFeatures b)).map fun kw =>
    let l := weighAndSum (List.zipWith (fun (y : Fin n → Vec V) (r : TrainRow n m) => List.ofFn fun i => position smoothing z (y i) (r.decTargets i))
      logits b.rows) kw.2 kw.1
    { logits := logits.map fun y => List.ofFn fun i => List.ofFn (y i)
      targets := b.rows.map fun r => List.ofFn r.decTargets
      mask := kw.2
      loss := l.1
      zLoss := some l.2.1
      segments := some (BaseMetrics.segmentIds (tokenFeatures encoder b)) }

end Verif.PackedMetrics
