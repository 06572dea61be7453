import Verif.Spec.MicroLoss
import Verif.Spec.Train
/- Vocabulary for C118: the features of a batch, and models made of a network. -/
namespace Verif.PackedTrain.Spec
open Verif.PackedLoss Verif.MicroLoss Verif.MicroLoss.Spec

/-- Two rows have the same features, as far as the batch has them. -/
structure Agree (packed weighted : Bool) {n m : Nat} (r r' : TrainRow n m) : Prop where
  enc : r.encTokens = r'.encTokens
  inputs : r.decInputs = r'.decInputs
  targets : r.decTargets = r'.decTargets
  causal : r.causal = r'.causal
  weights : weighted = true → r.weights = r'.weights
  encSeg : packed = true → r.encSeg = r'.encSeg
  decSeg : packed = true → r.decSeg = r'.decSeg
  positions : packed = true → r.positions = r'.positions

/-- The dict of features `b` is the batch `t`. -/
structure Carries {n m : Nat} (b : Train.Batch Cells) (t : TrainBatch n m) : Prop where
  rect : Train.Spec.Rect b t.rows.length
  packed : has b "decoder_segment_ids" = t.packed
  weighted : has b "decoder_loss_weights" = t.weighted
  rows : List.Forall₂ (Agree t.packed t.weighted) (rowsOf n m b) t.rows

/-- The features of a batch, as arrays. -/
def features {n m : Nat} (t : TrainBatch n m) : Train.Batch Cells :=
  [("encoder_input_tokens".toList, t.rows.map fun r => .ints (List.ofFn r.encTokens)), ("decoder_input_tokens".toList, t.rows.map fun r => .ints (List.ofFn r.decInputs)),
   ("decoder_target_tokens".toList, t.rows.map fun r => .ints (List.ofFn r.decTargets)), ("decoder_causal_attention".toList, t.rows.map fun r => .ints (List.ofFn r.causal))] ++
  ((if t.weighted then [("decoder_loss_weights".toList, t.rows.map fun r => .reals (List.ofFn r.weights))] else []) ++
  (if t.packed then [("encoder_segment_ids".toList, t.rows.map fun r => .ints (List.ofFn r.encSeg)), ("decoder_segment_ids".toList, t.rows.map fun r => .ints (List.ofFn r.decSeg)),
    ("decoder_positions".toList, t.rows.map fun r => .ints (List.ofFn fun i => (r.positions i : ℤ)))] else []))

end Verif.PackedTrain.Spec
