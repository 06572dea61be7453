import Verif.Model.Export
import Verif.Model.ArrayT5
import Verif.Model.T5Decode
/-
An exported encoder-decoder model that scores or predicts: the preprocessor of `Verif.Model.Export` followed by `score_batch` or
`predict_batch_with_aux`, as put together by `create_inference_function` and `ExportableModule.__call__`, `/repo/t5x/export_lib.py` lines
185-223 and 359-414.

Simplifications: those of the parts.  The tokenizer is left out.  `jax2tf` and the partitioner keep the meaning of functions.
-/
namespace Verif.ExportScore
open Verif.ND Verif.Export

/-- A list of rows as an array of shape [batch, length]. -/
def toArray (rows : List (List Int)) : NDArray Int :=
  ⟨[rows.length, (rows.headD []).length], fun i => (rows.getD (i.getD 0 0) []).getD (i.getD 1 0) 0⟩

/-- `_compute_logits`, models.py lines 456-482, then `score_batch`, lines 794-812, on the arrays of a batch: the cross entropy of every
position with one-hot targets and no z-loss, negated, times the weights, summed over the positions. -/
noncomputable def scoreBatch (ex : ℝ → ℝ) (lg : ℕ → ℝ) (cfg : ArrT5.Config) (p : ArrT5.Params) (a : ArrT5.Batch) (weights : NDArray Int) :
    Option (NDArray ℝ) :=
  (ArrT5.apply ex lg cfg p a).map fun logits =>
    ⟨[logits.shape.getD 0 0], fun i => ∑ j : Fin (logits.shape.getD 1 0),
      -(Loss.crossEntropy (fun v : Fin (logits.shape.getD 2 0) => logits.get [i.getD 0 0, j.val, v.val])
          (Score.oneHot (a.decTargets.get [i.getD 0 0, j.val])) 0).1 * (weights.get [i.getD 0 0, j.val] : ℝ)⟩

/-- The features as the arguments of the model; there are no segment ids. -/
def toBatch (e : EncDec) : ArrT5.Batch := ⟨toArray e.encoderInput, toArray e.decoderInput, toArray e.decoderTarget, none, none⟩

/-- The exported model with `inference_mode='score'` on the tokens of a batch of inputs and targets; `none` is an error. -/
noncomputable def servedScores (ex : ℝ → ℝ) (lg : ℕ → ℝ) (cfg : ArrT5.Config) (p : ArrT5.Params) (fi ft : Feature)
    (inputs targets : List (List Int)) : Option (NDArray ℝ) :=
  match preprocess fi ft inputs targets with
  | .ok e => scoreBatch ex lg cfg p (toBatch e) (toArray e.lossWeights)
  | .error _ => none

/-- `predict_batch_with_aux`, models.py lines 646-738, on features of `n` decoder and `m` encoder positions: the decoding function is
`temperature_sample` with `num_decodes=1` and no limit of steps, the prompts are `zeros_like(decoder_input_tokens)`, and the choice of tokens is
a function `pick` of the iteration, the row and the logits. -/
noncomputable def predictFeatures {d h e f V : Nat} (ex : ℝ → ℝ) (lg : ℕ → ℝ) (net : Transformer.Net d h e f V)
    (pick : Nat → Nat → Transformer.Vec V → Fin V) (eos : Int) (x : EncDec) (m n : Nat) : List (List Int × ℝ) :=
  T5Decode.predictBatch ex lg net (m := m) (n := n) (fun b j => (x.encoderInput.getD b []).getD j.val 0) pick eos (max 1 n)
    (x.decoderInput.map fun _ => ((fun _ => 0), none))

/-- The exported model with `inference_mode='predict'` on the tokens of a batch of inputs, export_lib.py lines 592-594: the targets are empty
texts. -/
noncomputable def servedPredictions {d h e f V : Nat} (ex : ℝ → ℝ) (lg : ℕ → ℝ) (net : Transformer.Net d h e f V)
    (pick : Nat → Nat → Transformer.Vec V → Fin V) (eos : Int) (fi ft : Feature) (inputs : List (List Int)) : Option (List (List Int × ℝ)) :=
  match preprocess fi ft inputs (inputs.map fun _ => []) with
  | .ok x => some (predictFeatures ex lg net pick eos x (x.encoderInput.headD []).length (x.decoderInput.headD []).length)
  | .error _ => none

end Verif.ExportScore
