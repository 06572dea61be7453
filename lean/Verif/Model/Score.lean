import Verif.Model.Sampling
import Verif.Model.KVCache
import Verif.Model.Loss
/-
Prediction by sampling, and scoring, put together: `temperature_sample` (`Verif.Model.Sampling`) called with the cached decoder
(`Verif.Model.KVCache`) as `tokens_to_logits`, and `score_batch` (`/repo/t5x/models.py`, lines 760-812 and 948-1004).

Simplifications: those of the parts.  The vocabulary is `Fin V`.  `state_callback_fn` and `logit_callback_fn` are not used.  The choice of a
token from the logits (temperature, top-k, top-p, random draw, or argmax) is an arbitrary function `pick` of the iteration and the row.
-/
namespace Verif.Score
open Verif.Sampling

/-- `jax.nn.log_softmax`. -/
noncomputable def logSoftmax {V : Nat} (logits : Fin V → ℝ) (t : Fin V) : ℝ := logits t - Loss.logsumexp logits

/-- `decoding.py` lines 517-603 with `rescale_log_probs=False`: call the model on the current token of every row, choose the next token and
take its log-probability under the unscaled logits.  The state is the number of the iteration and the cache of every row. -/
noncomputable def next {S : Type} {V : Nat} (f : Nat → S → Int → (Fin V → ℝ) × S) (pick : Nat → Nat → (Fin V → ℝ) → Fin V)
    (s : St (Nat × (Nat → S)) ℝ) : (Nat × (Nat → S)) × (Nat → Int × ℝ) :=
  let call : Nat → (Fin V → ℝ) × S := fun b => f b (s.aux.2 b) ((s.rows[b]?.map (·.curToken)).getD 0)
  ((s.aux.1 + 1, fun b => (call b).2),
    fun b => let t := pick s.aux.1 b (call b).1; ((t.val : Int), logSoftmax (call b).1 t))

/-- `temperature_sample` with `num_decodes=1`. -/
noncomputable def sample {S : Type} {V : Nat} (f : Nat → S → Int → (Fin V → ℝ) × S) (pick : Nat → Nat → (Fin V → ℝ) → Fin V) (eos : Int)
    (fuel : Nat) (inps : List Inp) (caches : Nat → S) : List (List Int × ℝ) :=
  singleTrial eos (next f pick) fuel inps (0, caches)

/-- `common_utils.onehot(target_tokens, vocab, on_value=1, off_value=0)`. -/
def oneHot {V : Nat} (t : Int) : Fin V → ℝ := fun i => if (i.val : Int) = t then 1 else 0

/-- `score_batch` for one row, models.py lines 792-807 and 986-999: the weighted sum of the negated cross entropies, without z-loss. -/
noncomputable def scoreRow {n V : Nat} (logits : Fin n → Fin V → ℝ) (targets : Fin n → Int) (weights : Fin n → ℝ) : ℝ :=
  ∑ i, -(Loss.crossEntropy (logits i) (oneHot (targets i)) 0).1 * weights i

/-- Prediction with an encoder-decoder model by sampling, `EncoderDecoderModel.predict_batch_with_aux`, models.py lines 646-738, for a
module whose `decode` has no `prefill` parameter (`/repo/t5x/examples/t5/network.py`): every row starts with empty caches of the length `n` of
the decoder inputs.  `enc b` are the encoder inputs of row `b`. -/
noncomputable def predictEncDec {H : Type} {h d m n V : Nat} (net : KVCache.Net H (Fin V → ℝ) h d m) (enc : Nat → Masks.Row m)
    (pick : Nat → Nat → (Fin V → ℝ) → Fin V) (eos : Int) (fuel : Nat) (prompts : List (Masks.Row n × Option Nat)) : List (List Int × ℝ) :=
  sample (fun b => KVCache.step net (enc b)) pick eos fuel (prompts.map fun r => ⟨List.ofFn r.1, none, r.2⟩)
    (fun _ => net.layers.map fun l => (l, KVCache.Cache.init h d n))

/-- A row of a batch for a decoder-only model: `decoder_input_tokens`, `decoder_causal_attention`, and `max_decode_steps`. -/
structure LMRow (n : Nat) where
  inputs : Masks.Row n
  causal : Masks.Row n
  maxSteps : Option Nat

/-- Prediction with a decoder-only model by sampling, `DecoderOnlyModel.predict_batch_with_aux`, models.py lines 1183-1227: mask the target
part out, prefill the caches, sample from the initial index on. -/
noncomputable def predictLM {H : Type} {h d n V : Nat} (net : KVCache.Net H (Fin V → ℝ) h d 0) (bidirectional : Bool)
    (pick : Nat → Nat → (Fin V → ℝ) → Fin V) (eos : Int) (fuel : Nat) (batch : List (LMRow n)) : List (List Int × ℝ) :=
  let prefill : LMRow n → Option (List (KVCache.Layer H h d 0 × KVCache.Cache h d n) × Nat) := fun r =>
    KVCache.computeKvCache net bidirectional (fun j => r.inputs j * r.causal j) r.causal
  sample (fun _ => KVCache.stepOnly net) pick eos fuel
    (batch.map fun r => ⟨List.ofFn fun j => r.inputs j * r.causal j, (prefill r).map (·.2), r.maxSteps⟩)
    (fun b => ((batch[b]?.bind prefill).map (·.1)).getD [])

end Verif.Score
