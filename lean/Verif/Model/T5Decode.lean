import Verif.Model.Transformer
import Verif.Model.KVCache
import Verif.Model.Score
/-
The T5 network of `/repo/t5x/examples/t5` decoding one token at a time with key/value caches, with the numbers of
`Verif.Model.Transformer` (same simplifications; one row of the batch, all rows share the cache index).  The caches are those of
`Verif.Model.KVCache`.
-/
namespace Verif.T5Decode
open Verif.Masks Verif.Transformer Verif.KVCache

variable {d h e f V : Nat}

/-- layers.py lines 295-303: the row of `relative_embedding(L, L, False)` (network.py lines 118-120) for the current index, by a dynamic
slice. -/
noncomputable def biasRow (lg : ℕ → ℝ) (rel : Fin h → ℤ → ℝ) (L : Nat) (cur : Nat) : Fin h → Fin L → ℝ :=
  fun hd j => RelPos.bias lg (rel hd) false 32 (clampIndex cur L) j.val

/-- `MultiHeadDotProductAttention.__call__` with `decode=True`, layers.py lines 161-346, for one token: the key and the value are added to the
caches at the current index, the query sees the positions up to it. -/
noncomputable def selfStep (ex : ℝ → ℝ) {L : Nat} (p : Attn d h e) (row : Nat → Fin h → Fin L → ℝ) (c : Cache h e L) (x : Vec d) :
    Vec d × Cache h e L :=
  let key : Fin h → Fin e → Fin L → ℝ := fun hd a j => c.key hd a j + project p.key x hd a * oneHot c.index L j
  let value : Fin h → Fin e → Fin L → ℝ := fun hd a j => c.value hd a j + project p.value x hd a * oneHot c.index L j
  let mask : Fin L → Int := fun j => ofBool (j.val ≤ c.index)
  (projectOut p.out fun hd a =>
      ∑ j, softmax ex (logitsOf (project p.query x) (fun j hd a => key hd a j) (some mask) (some (row c.index)) hd) j * value hd a j,
    ⟨key, value, c.index + 1⟩)

/-- `DecoderLayer.__call__` with `decode=True`, network.py lines 105-179, for one token. -/
noncomputable def layerStep (ex : ℝ → ℝ) (lg : ℕ → ℝ) (net : Transformer.Net d h e f V) {L m : Nat} (cross : Fin m → Int) (encoded : Fin m → Vec d)
    (l : DecLayer d h e f) (c : Cache h e L) (inputs : Vec d) : Vec d × Cache h e L :=
  let a := selfStep ex l.self (biasRow lg net.decRel L) c (layerNorm net.eps l.preSelf inputs)
  let x' : Vec d := fun i => a.1 i + inputs i
  let b := Transformer.attention ex l.cross (layerNorm net.eps l.preCross x') encoded (some cross) none
  (mlpBlock net.eps l.preMlp l.mlp fun i => b i + x' i, a.2)

/-- The layers of `Decoder.__call__`, network.py lines 260-273, each with its own cache. -/
noncomputable def stackStep (ex : ℝ → ℝ) (lg : ℕ → ℝ) (net : Transformer.Net d h e f V) {L m : Nat} (cross : Fin m → Int)
    (encoded : Fin m → Vec d) : List (DecLayer d h e f × Cache h e L) → Vec d → Vec d × List (DecLayer d h e f × Cache h e L)
  | [], x => (x, [])
  | (l, c) :: rest, x =>
    let a := layerStep ex lg net cross encoded l c x
    let r := stackStep ex lg net cross encoded rest a.1
    (r.1, (l, a.2) :: r.2)

/-- `Transformer.decode` with `decode=True` for one token, network.py lines 345-409: no decoder mask, and an encoder-decoder mask with ones
on the decoder side. -/
noncomputable def step (ex : ℝ → ℝ) (lg : ℕ → ℝ) (net : Transformer.Net d h e f V) {L m : Nat} (encTokens : Row m) (encoded : Fin m → Vec d)
    (cs : List (DecLayer d h e f × Cache h e L)) (token : Int) : Vec V × List (DecLayer d h e f × Cache h e L) :=
  let cross : Mask 1 m := makeAttentionMask (fun _ => 1) (fun i => ofBool (encTokens i > 0)) multiply
  let r := stackStep ex lg net (cross 0) encoded cs (embed net.table token)
  (toLogits net r.1, r.2)

/-- The caches after the initialisation call. -/
def emptyCaches (net : Transformer.Net d h e f V) (L : Nat) : List (DecLayer d h e f × Cache h e L) :=
  net.dec.map fun l => (l, Cache.init h e L)

/-- `EncoderDecoderModel.predict_batch_with_aux`, `/repo/t5x/models.py` lines 610-674, as far as the model is concerned: the inputs are
encoded once, then tokens are fed one by one with caches of length `L`; the logits after each. -/
noncomputable def predict (ex : ℝ → ℝ) (lg : ℕ → ℝ) (net : Transformer.Net d h e f V) {m : Nat} (L : Nat) (encTokens : Row m)
    (tokens : List Int) : Option (List (Vec V)) :=
  (makeEncoderMask encTokens none).map fun mask =>
    feed (step ex lg net encTokens (encoder ex lg net encTokens (some mask))) (emptyCaches net L) tokens

/-- Prediction by sampling, `predict_batch_with_aux` with `temperature_sample`, models.py lines 646-738: all rows of a batch, with encoder inputs
`enc b`, prompts and numbers of steps; the choice of tokens is an arbitrary function `pick` as in `Verif.Model.Score`. -/
noncomputable def predictBatch (ex : ℝ → ℝ) (lg : ℕ → ℝ) (net : Transformer.Net d h e f V) {m n : Nat} (enc : Nat → Row m)
    (pick : Nat → Nat → Vec V → Fin V) (eos : Int) (fuel : Nat) (prompts : List (Row n × Option Nat)) : List (List Int × ℝ) :=
  Score.sample (fun b => step ex lg net (enc b) (encoder ex lg net (enc b) (makeEncoderMask (enc b) none))) pick eos fuel
    (prompts.map fun r => ⟨List.ofFn r.1, none, r.2⟩) (fun _ => emptyCaches net n)

end Verif.T5Decode
