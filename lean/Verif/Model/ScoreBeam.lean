import Verif.Model.Score
import Verif.Model.Beam
import Verif.Model.Align
/-
Prediction by beam search with the cached decoders: `beam_search` (`Verif.Model.Beam`) called by `predict_batch_with_aux`
(`/repo/t5x/models.py`, lines 584-758 and 1085-1245) with the decoders of `Verif.Model.KVCache`.

Simplifications: those of the parts.  Tokens are natural numbers in the search and integers elsewhere.
-/
namespace Verif.Score
open Verif.Beam Verif.KVCache

/-- `tokens_to_logits` and `jax.nn.log_softmax`, `/repo/t5x/decoding.py` lines 1319-1341, for one beam. -/
noncomputable def beamStep {S : Type} {V : Nat} (f : S → Int → (Fin V → ℝ) × S) : ℕ → ℕ → S → List ℝ × S := fun _ tok c =>
  let r := f c (tok : Int)
  (List.ofFn (logSoftmax r.1), r.2)

/-- Lines 1305-1341: the model is called on the current token of every beam of every row; `f b` is the decoder for row `b`. -/
noncomputable def batchDecoder {S : Type} {V : Nat} (f : ℕ → S → Int → (Fin V → ℝ) × S) (rows : ℕ) : Oracle ℝ S := fun s =>
  (List.range rows).map fun b =>
    match s.rows[b]? with
    | some r =>
      let out := List.zipWith (fun (l : ℝ × List ℕ) ch => beamStep (f b) s.cur (l.2.getD s.cur 0) ch) r.live r.cache
      (out.map (·.1), out.map (·.2))
    | none => ([], [])

/-- The rows of the final state. -/
noncomputable def beamRun {S : Type} {V : Nat} (f : ℕ → S → Int → (Fin V → ℝ) × S) (c : Cfg ℝ) (ins : List RowIn) (firsts : List (ℕ × S))
    (fuel : ℕ) : List (Beam.Row ℝ S) :=
  (loop c ins (batchDecoder f ins.length) fuel (init c firsts)).rows

/-- Encoder-decoder models: no prefill, empty caches; the last beam of each row is returned (models.py lines 755-758). -/
noncomputable def beamEncDec {H : Type} {h d m n V : Nat} (net : Net H (Fin V → ℝ) h d m) (enc : Nat → Masks.Row m) (c : Cfg ℝ) (fuel : ℕ)
    (prompts : List (Masks.Row n)) : List (Option (ℝ × List Int)) :=
  (beamRun (fun b => step net (enc b)) c (prompts.map fun r => ⟨(List.ofFn r).map Int.toNat, 0⟩)
    (prompts.map fun _ => (0, net.layers.map fun l => (l, Cache.init h d n))) fuel).map fun r =>
      (result r).getLast?.map fun x => (x.1, x.2.map Int.ofNat)

/-- What beam search gets for one row of a decoder-only model (decoding.py lines 1210-1235, models.py lines 1183-1191): the last prompt token,
the prefilled cache and the initial index. -/
noncomputable def prefillRow {H : Type} {h d n V : Nat} (net : Net H (Fin V → ℝ) h d 0) (bidirectional : Bool) (r : Masks.Row n × Masks.Row n) :
    RowIn × (ℕ × List (Layer H h d 0 × Cache h d n)) :=
  let x : Masks.Row n := fun j => r.1 j * r.2 j
  let last := ((Align.rightAlign (List.ofFn x)).getLast?.getD 0).toNat
  let kv := (computeKvCache net bidirectional x r.2).getD ([], 0)
  (⟨last :: List.replicate (n - 1) 0, kv.2⟩, (last, kv.1))

/-- Lines 1532-1564: put the prompt back in front of the tokens found. -/
def reassemble {n : Nat} (r : Masks.Row n × Masks.Row n) (seq : List Int) : List Int :=
  (Align.leftAlign (Align.rightAlign (List.ofFn fun j => r.1 j * r.2 j) ++ seq)).take n

/-- Decoder-only models with a prefilled prompt; the batch holds `decoder_input_tokens` and `decoder_causal_attention`. -/
noncomputable def beamLM {H : Type} {h d n V : Nat} (net : Net H (Fin V → ℝ) h d 0) (bidirectional : Bool) (c : Cfg ℝ) (fuel : ℕ)
    (batch : List (Masks.Row n × Masks.Row n)) : List (Option (ℝ × List Int)) :=
  let rows := beamRun (fun _ => stepOnly net) c (batch.map fun r => (prefillRow net bidirectional r).1)
    (batch.map fun r => (prefillRow net bidirectional r).2) fuel
  (batch.zip rows).map fun p => (result p.2).getLast?.map fun x => (x.1, reassemble p.1 (x.2.map Int.ofNat))

end Verif.Score
