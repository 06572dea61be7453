import Verif.Model.ScoreBeam
import Verif.Model.T5Decode
import Verif.Model.OfflineInfer
/-
Prediction with the T5 network and beam search, the default of `EncoderDecoderModel`.
-/
namespace Verif.BeamIndep
open Verif.Beam

/-- `predict_batch_with_aux` with `beam_search`, `/repo/t5x/models.py` lines 646-758, without prompts: all beams of all rows with their scores,
the best one last.  The network is called with caches on the current token of every beam; `n` is the length of the decoder inputs. -/
noncomputable def beamT5 {d h e f V : Nat} (ex : ℝ → ℝ) (lg : ℕ → ℝ) (net : Transformer.Net d h e f V) {m : Nat} (n : Nat) (rows : List (Masks.Row m))
    (c : Cfg ℝ) : List (List (ℝ × List ℕ)) :=
  let enc : Nat → Masks.Row m := fun b => rows.getD b (fun _ => 0)
  (Score.beamRun (fun b => T5Decode.step ex lg net (enc b) (Transformer.encoder ex lg net (enc b) (Masks.makeEncoderMask (enc b) none))) c
    (rows.map fun _ => ⟨List.replicate n 0, 0⟩) (rows.map fun _ => (0, T5Decode.emptyCaches net n)) c.maxLen).map result

/-- The inference step with `mode='predict'`, beam search and `return_all_decodes`, `/repo/t5x/utils.py` lines 1585-1604; the features are those of
`OfflineInfer.convert`. -/
noncomputable def predictBeams {d h e f V : Nat} (ex : ℝ → ℝ) (lg : ℕ → ℝ) (net : Transformer.Net d h e f V) (c : Cfg ℝ) (m n : Nat)
    (batch : List (List Int × List Int)) : List (List (ℝ × List ℕ)) :=
  beamT5 (m := m) ex lg net n ((OfflineInfer.convert m n batch).encoderInput.map fun r j => r.getD j.val 0) c

end Verif.BeamIndep
