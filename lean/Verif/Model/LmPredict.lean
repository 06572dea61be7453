import Verif.Model.DecoderOnly
import Verif.Model.SampleToken
import Verif.Model.Align
/-
Prediction with a decoder-only model from the batch to the returned continuations: `DecoderOnlyModel.predict_batch_with_aux`,
`/repo/t5x/models.py` lines 1085-1245, with the network of `Verif.Model.DecoderOnly`, `temperature_sample` with its choice of tokens
(`Verif.Model.SampleToken`) and several decodes, the choice of the best decode, and the removal of the prompt.

Simplifications: those of the parts.  One temperature for the batch.
-/
namespace Verif.LmPredict
open Verif.DecoderOnly Verif.Transformer Verif.KVCache Verif.Sampling Verif.Score
open SampleToken (Cfg Noise Temp sampleAll)

variable {d h e f V : Nat} [NeZero V]

/-- Lines 1186-1193: mask the target part out, and prefill the caches. -/
noncomputable def fill (ex : ℝ → ℝ) (lg : ℕ → ℝ) (net : LmNet d h e f V) {n : Nat} (bidirectional : Bool) (r : LMRow n) :
    List (EncLayer d h e f × Cache h e n) × Nat :=
  computeKvCache ex lg net bidirectional (fun j => r.inputs j * r.causal j) r.causal

/-- What the decoding function is given for the rows, lines 1221-1229. -/
noncomputable def inps (ex : ℝ → ℝ) (lg : ℕ → ℝ) (net : LmNet d h e f V) {n : Nat} (bidirectional : Bool) (batch : List (LMRow n)) : List Inp :=
  batch.map fun r => ⟨List.ofFn fun j => r.inputs j * r.causal j, some (fill ex lg net bidirectional r).2, r.maxSteps⟩

/-- The prefilled caches of the rows. -/
noncomputable def caches (ex : ℝ → ℝ) (lg : ℕ → ℝ) (net : LmNet d h e f V) {n : Nat} (bidirectional : Bool) (batch : List (LMRow n)) (b : Nat) :
    List (EncLayer d h e f × Cache h e n) :=
  (batch[b]?.map fun r => (fill ex lg net bidirectional r).1).getD []

/-- Lines 1221-1229 with `decode_fn=temperature_sample` and `num_decodes`: for every row of the batch the decodes with their
log-probabilities, sorted. -/
noncomputable def decodeFn (ex : ℝ → ℝ) (lg : ℕ → ℝ) (net : LmNet d h e f V) {n : Nat} (bidirectional : Bool) (c : Cfg) (T : ℝ)
    (numDecodes : Nat) (noise : Noise V) (eos : Int) (fuel : Nat) (batch : List (LMRow n)) : Option (List (List (List Int) × List ℝ)) :=
  (sampleAll c (.scalar T) numDecodes noise (fun _ => step ex lg net) eos fuel (inps ex lg net bidirectional batch)
    (caches ex lg net bidirectional batch)).map fun flat =>
      (List.range batch.length).map fun b => sortedResult numDecodes b flat

/-- Lines 1231-1245 with `return_all_decodes=True`: the prompts are removed from all decodes of all rows. -/
noncomputable def predictAll (ex : ℝ → ℝ) (lg : ℕ → ℝ) (net : LmNet d h e f V) {n : Nat} (bidirectional : Bool) (c : Cfg) (T : ℝ)
    (numDecodes : Nat) (noise : Noise V) (eos : Int) (fuel : Nat) (batch : List (LMRow n)) : Option (List (List (List Int) × List ℝ)) :=
  (decodeFn ex lg net bidirectional c T numDecodes noise eos fuel batch).map fun res =>
    List.zipWith (fun (s : List (List Int) × List ℝ) r =>
      (s.1.map fun row => Align.removePrefix row (fill ex lg net bidirectional r).2, s.2)) res batch

/-- Lines 1231-1245 with `return_all_decodes=False`: the last decode and score of every row. -/
noncomputable def predictBest (ex : ℝ → ℝ) (lg : ℕ → ℝ) (net : LmNet d h e f V) {n : Nat} (bidirectional : Bool) (c : Cfg) (T : ℝ)
    (numDecodes : Nat) (noise : Noise V) (eos : Int) (fuel : Nat) (batch : List (LMRow n)) : Option (List (List Int × ℝ)) :=
  (decodeFn ex lg net bidirectional c T numDecodes noise eos fuel batch).map fun res =>
    List.zipWith (fun (s : List (List Int) × List ℝ) r =>
      (Align.removePrefix (s.1.getLastD []) (fill ex lg net bidirectional r).2, s.2.getLastD 0)) res batch

end Verif.LmPredict
