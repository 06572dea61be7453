import Verif.Model.Metrics
import Verif.Model.LossWeights
import Verif.Model.PyDict
/-
The metrics of a train or evaluation step: `/repo/t5x/models.py` lines 315-358 (`BaseTransformerModel.loss_fn`, `_compute_metrics`) and 1371-1469
(`compute_base_metrics`).

Numbers are an ordered field.  `clu.metrics.Accuracy.from_model_output` is modelled from its documentation: the average of `argmax(logits) == labels`
over the entries with non-zero mask.  Arrays are lists of rows of one length.  The assertion that there are devices is left out.
-/
namespace Verif.BaseMetrics
open Verif Verif.Metrics

variable {K : Type} [Field K] [LinearOrder K]

abbrev Str := List Char

/-- The arguments of `compute_base_metrics`. -/
structure Args (K : Type) where
  logits : List (List (List K))
  targets : List (List ℤ)
  mask : Option (List (List K))
  loss : K
  zLoss : Option K
  segments : Option (List (Str × Option (List (List ℤ))))

/-- `targets.shape[0]` and `targets.size`. -/
def Args.numExamples (a : Args K) : Nat := a.targets.length
def size {β : Type} (rows : List (List β)) : Nat := rows.flatten.length

/-- `jnp.argmax`: the first position of the maximum. -/
def argmax (v : List K) : Nat := v.findIdx (fun x => v.all (fun y => decide (y ≤ x)))

/-- `jnp.sum(mask) if mask is not None else targets.size`, line 1401. -/
def nonpadding (a : Args K) : K := a.mask.elim ((size a.targets : Nat) : K) (fun m => m.flatten.sum)

/-- `Accuracy.from_model_output(logits=…, labels=…, mask=…)`, lines 1403-1405. -/
def accuracy (a : Args K) : Metric K :=
  let values := List.zipWith (fun v (t : ℤ) => ((argmax v : Nat) : ℤ) == t) a.logits.flatten a.targets.flatten
  let mask : List Bool := a.mask.elim (values.map fun _ => true) (fun m => m.flatten.map fun w => decide (w ≠ 0))
  .average (List.zipWith (fun v (w : Bool) => if w then (if v then (1 : K) else 0) else 0) values mask).sum
    (mask.map fun w => if w then (1 : K) else 0).sum

/-- The dict of lines 1402-1435. -/
def common (devices : Nat) (a : Args K) : Dict K :=
  let examples : K := (a.numExamples : Nat)
  let tokens : K := (size a.targets : Nat)
  [("accuracy".toList, accuracy a),
   ("loss".toList, .avgStep a.loss 1),
   ("loss_per_nonpadding_target_token".toList, .average a.loss (nonpadding a)),
   ("loss_per_all_target_tokens".toList, .average a.loss tokens),
   ("timing/seqs_per_second".toList, .timeRate examples none),
   ("timing/steps_per_second".toList, .stepsPerTime 1 none),
   ("timing/seconds".toList, .time none),
   ("timing/seqs".toList, .sum examples),
   ("timing/seqs_per_second_per_core".toList, .timeRate (examples / devices) none),
   ("timing/target_tokens_per_second".toList, .timeRate tokens none),
   ("timing/target_tokens_per_second_per_core".toList, .timeRate (tokens / devices) none),
   ("non_padding_fraction/loss_weights".toList, .average (nonpadding a) tokens)]

/-- The update of lines 1436-1445. -/
def zPart (a : Args K) : Dict K :=
  match a.zLoss with
  | none => []
  | some z =>
    let tokens : K := (size a.targets : Nat)
    [("z_loss".toList, .avgStep z 1),
     ("z_loss_per_all_target_tokens".toList, .average z tokens),
     ("cross_ent_loss".toList, .avgStep (a.loss - z) 1),
     ("cross_ent_loss_per_all_target_tokens".toList, .average (a.loss - z) tokens)]

/-- The number of entries that are not 0, line 1457. -/
def nonzero (rows : List (List ℤ)) : Nat := (rows.flatten.filter (· ≠ 0)).length

/-- The features that are not skipped, lines 1449-1451: given, and with at least one column. -/
def kept (segs : List (Str × Option (List (List ℤ)))) : List (Str × List (List ℤ)) :=
  segs.filterMap fun e => e.2.bind fun rows => if (rows.head?.getD []).length = 0 then none else some (e.1, rows)

/-- The loop over the features, lines 1449-1465; `total` and `totalNonPadding` are added up on the way. -/
def segLoop : List (Str × List (List ℤ)) → Dict K → Nat → Nat → Dict K
  | [], d, total, nonPad => PyDict.set d "non_padding_fraction/overall".toList (.average (nonPad : Nat) (total : Nat))
  | (f, rows) :: rest, d, total, nonPad =>
    let d := PyDict.set d ("effective_batch_size/".toList ++ f) (.avgStep ((LossWeights.countPackedExamples rows : ℤ) : K) 1)
    let d := PyDict.set d ("non_padding_fraction/".toList ++ f) (.average (nonzero rows : Nat) (size rows : Nat))
    segLoop rest d (total + size rows) (nonPad + nonzero rows)

/-- `compute_base_metrics`. -/
def baseMetrics (devices : Nat) (a : Args K) : Dict K :=
  let d := PyDict.update (common devices a) (zPart a)
  match a.segments with
  | none => d
  | some segs => segLoop (kept segs) d 0 0

/-- `k.endswith('_segment_ids')`, and what is before it. -/
def stripSuffix (k : Str) : Option Str :=
  if "_segment_ids".toList.isSuffixOf k then some (k.take (k.length - "_segment_ids".toList.length)) else none

/-- Lines 315-328: the segment ids of a batch, or, without any, where its tokens are not padding. -/
def segmentIds (batch : List (Str × List (List ℤ))) : List (Str × Option (List (List ℤ))) :=
  let segs := batch.filterMap fun e => (stripSuffix e.1).map fun f => (f, some e.2)
  if segs.isEmpty then
    (batch.filter fun e => e.1 = "encoder_input_tokens".toList ∨ e.1 = "decoder_target_tokens".toList).map fun e =>
      (e.1, some (e.2.map fun r => r.map fun t => if t ≠ 0 then (1 : ℤ) else 0))
  else segs

end Verif.BaseMetrics
