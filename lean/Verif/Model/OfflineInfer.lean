import Verif.Model.ExportScore
import Verif.Model.Infer
/-
Offline inference with the T5 network: `infer_fn` of `/repo/t5x/utils.py` (`Verif.Model.Infer`) with `score_batch` or `predict_batch_with_aux`
of `/repo/t5x/models.py` as its step.

Simplifications: those of the parts.  An example is a pair of token lists (inputs and targets), as they leave the preprocessors of the task;
the feature converter of seqio cuts them to the task feature lengths `m` and `n`
and pads them.
-/
namespace Verif.OfflineInfer
open Verif.Export Verif.ExportScore

/-- `seqio.EncDecFeatureConverter` without packing (part of seqio; chosen by models.py line 367): the features of a batch of examples. -/
def convert (m n : Nat) (batch : List (List Int × List Int)) : EncDec :=
  ⟨batch.map fun x => cutPad m x.1, batch.map fun x => cutPad n x.2, batch.map fun x => arInputs (cutPad n x.2),
    batch.map fun x => nonPadding (cutPad n x.2)⟩

/-- The inference step with `mode='score'`, `/repo/t5x/utils.py` lines 1585-1604 with `score_batch`: one score for each example of the global
batch. -/
noncomputable def scoreStep (ex : ℝ → ℝ) (lg : ℕ → ℝ) (cfg : ArrT5.Config) (p : ArrT5.Params) (m n : Nat) (batch : List (List Int × List Int)) :
    List ℝ :=
  match scoreBatch ex lg cfg p (toBatch (convert m n batch)) (toArray (convert m n batch).lossWeights) with
  | some scores => (List.range batch.length).map fun i => scores.get [i]
  | none => []

/-- The inference step with `mode='predict'` and `predict_batch_with_aux`, decoding by `temperature_sample`: the tokens and the
log-probability of each example. -/
noncomputable def predictStep {d h e f V : Nat} (ex : ℝ → ℝ) (lg : ℕ → ℝ) (net : Transformer.Net d h e f V)
    (pick : Nat → Nat → Transformer.Vec V → Fin V) (eos : Int) (m n : Nat) (batch : List (List Int × List Int)) : List (List Int × ℝ) :=
  predictFeatures ex lg net pick eos (convert m n batch) m n

end Verif.OfflineInfer
