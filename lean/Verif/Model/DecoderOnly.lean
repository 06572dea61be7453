import Verif.Model.T5Decode
/-
The decoder-only network of `/repo/t5x/examples/decoder_only/network.py` and `layers.py` with numbers: training and scoring on whole rows,
packed or not, with a bidirectional prefix or without; prefilling the caches with a prompt; and decoding one token at a time.

Simplifications: those of `Verif.Model.Transformer` and `Verif.Model.T5Decode`.  The functions `DenseGeneral`, `LayerNorm`, `Embed`, `MlpBlock`,
`RelativePositionBiases` and `dot_product_attention` of `decoder_only/layers.py` are the same as in `t5/layers.py`; the biases that are
cached with `decode=True` are those that would be computed again.
-/
namespace Verif.DecoderOnly
open Verif.Masks Verif.Transformer Verif.KVCache

variable {d h e f V : Nat}

/-- The parameters.  A layer has the same parts as an encoder layer of T5. -/
structure LmNet (d h e f V : Nat) where
  eps : ℝ
  table : Kernel V d
  rel : Fin h → ℤ → ℝ
  layers : List (EncLayer d h e f)
  norm : Vec d
  head : Head d V

/-- `DecoderLayer.__call__`, network.py lines 49-118, without `decode`. -/
noncomputable def layer (ex : ℝ → ℝ) (lg : ℕ → ℝ) (net : LmNet d h e f V) {n : Nat} (mask : Option (Mask n n))
    (inputs : Fin n → Vec d) (l : EncLayer d h e f) : Fin n → Vec d := fun i =>
  let x := fun j => layerNorm net.eps l.preAttention (inputs j)
  let a := Transformer.attention ex l.attention (x i) x (mask.map fun m => m i) (some (relBias lg net.rel false n i))
  mlpBlock net.eps l.preMlp l.mlp fun c => a c + inputs i c

/-- The end of `Decoder.__call__`, network.py lines 225-244. -/
noncomputable def toLogits (net : LmNet d h e f V) (y : Vec d) : Vec V :=
  let y := layerNorm net.eps net.norm y
  match net.head with
  | .viaEmbedding => fun v => attendEmbedding net.table y v / √d
  | .denseKernel kernel => dense kernel y

/-- One row of a batch.  `causal` is `decoder_causal_attention` if it is passed to the module. -/
structure Input (n : Nat) where
  inputs : Row n
  targets : Row n
  causal : Option (Row n)
  seg : Option (Row n)

/-- `Decoder.__call__` with `decode=False` and `enable_dropout=False`, network.py lines 127-244: the logits of every position. -/
noncomputable def apply (ex : ℝ → ℝ) (lg : ℕ → ℝ) (net : LmNet d h e f V) {n : Nat} (b : Input n) : Option (Fin n → Vec V) :=
  (makeDecoderMask b.targets b.causal b.seg).map fun mask i =>
    toLogits net (net.layers.foldl (layer ex lg net (some mask)) (fun i => embed net.table (b.inputs i)) i)

/-- `update_cache_prefill`, layers.py lines 157-236: keys and values from `len` on are multiplied by 0, and the index is set to `len`. -/
noncomputable def prefillCache {n : Nat} (eps : ℝ) (l : EncLayer d h e f) (x : Fin n → Vec d) (len : Nat) : Cache h e n where
  key hd a j := project l.attention.key (layerNorm eps l.preAttention (x j)) hd a * (if j.val < len then 1 else 0)
  value hd a j := project l.attention.value (layerNorm eps l.preAttention (x j)) hd a * (if j.val < len then 1 else 0)
  index := len

/-- The layers with `prefill=True`: their outputs are those of the forward pass. -/
noncomputable def prefill (ex : ℝ → ℝ) (lg : ℕ → ℝ) (net : LmNet d h e f V) {n : Nat} (mask : Option (Mask n n)) (len : Nat) :
    List (EncLayer d h e f) → (Fin n → Vec d) → List (EncLayer d h e f × Cache h e n)
  | [], _ => []
  | l :: rest, x => (l, prefillCache net.eps l x len) :: prefill ex lg net mask len rest (layer ex lg net mask x l)

/-- `DecoderLayer.__call__` with `decode=True` for one token; the row of the biases is found by an einsum with a one-hot vector, layers.py
lines 495-511. -/
noncomputable def layerStep (ex : ℝ → ℝ) (lg : ℕ → ℝ) (net : LmNet d h e f V) {L : Nat} (l : EncLayer d h e f) (c : Cache h e L)
    (inputs : Vec d) : Vec d × Cache h e L :=
  let a := T5Decode.selfStep ex l.attention (einsumRow L fun hd i j => RelPos.bias lg (net.rel hd) false 32 i j) c
    (layerNorm net.eps l.preAttention inputs)
  (mlpBlock net.eps l.preMlp l.mlp fun i => a.1 i + inputs i, a.2)

/-- The layers for one token, each with its own cache. -/
noncomputable def stackStep (ex : ℝ → ℝ) (lg : ℕ → ℝ) (net : LmNet d h e f V) {L : Nat} :
    List (EncLayer d h e f × Cache h e L) → Vec d → Vec d × List (EncLayer d h e f × Cache h e L)
  | [], x => (x, [])
  | (l, c) :: rest, x =>
    let a := layerStep ex lg net l c x
    let r := stackStep ex lg net rest a.1
    (r.1, (l, a.2) :: r.2)

/-- `Decoder.__call__` with `decode=True` for one token (`_compute_logits_from_slice`, `/repo/t5x/models.py` lines 920-946). -/
noncomputable def step (ex : ℝ → ℝ) (lg : ℕ → ℝ) (net : LmNet d h e f V) {L : Nat} (cs : List (EncLayer d h e f × Cache h e L))
    (token : Int) : Vec V × List (EncLayer d h e f × Cache h e L) :=
  let r := stackStep ex lg net cs (embed net.table token)
  (toLogits net r.1, r.2)

/-- `_compute_kv_cache`, models.py lines 1006-1083: the caches and the initial index. -/
noncomputable def computeKvCache (ex : ℝ → ℝ) (lg : ℕ → ℝ) (net : LmNet d h e f V) {n : Nat} (bidirectional : Bool) (inputs causal : Row n) :
    List (EncLayer d h e f × Cache h e n) × Nat :=
  (prefill ex lg net (makeDecoderMask causal (maybeCausal bidirectional causal) none) (inputsLength inputs) net.layers
    (fun j => embed net.table (inputs j)), inputsLength inputs)

/-- `predict_batch_with_aux`, models.py lines 1186-1201, up to the decoding loop: the tokens given to it, the initial index, and the logits it
gets for the tokens that it feeds. -/
noncomputable def predict (ex : ℝ → ℝ) (lg : ℕ → ℝ) (net : LmNet d h e f V) {n : Nat} (bidirectional : Bool) (decoderInputs causal : Row n) :
    Row n × Nat × (List Int → List (Vec V)) :=
  let inputs : Row n := fun j => decoderInputs j * causal j
  let r := computeKvCache ex lg net bidirectional inputs causal
  (inputs, r.2, feed (step ex lg net) r.1)

/-- Prediction by sampling for a batch, models.py lines 1183-1227; tokens are chosen by `pick`, as in `Verif.Model.Score`. -/
noncomputable def predictBatch (ex : ℝ → ℝ) (lg : ℕ → ℝ) (net : LmNet d h e f V) {n : Nat} (bidirectional : Bool)
    (pick : Nat → Nat → Vec V → Fin V) (eos : Int) (fuel : Nat) (batch : List (Score.LMRow n)) : List (List Int × ℝ) :=
  let fill : Score.LMRow n → List (EncLayer d h e f × Cache h e n) × Nat := fun r =>
    computeKvCache ex lg net bidirectional (fun j => r.inputs j * r.causal j) r.causal
  Score.sample (fun _ => step ex lg net) pick eos fuel
    (batch.map fun r => ⟨List.ofFn fun j => r.inputs j * r.causal j, some (fill r).2, r.maxSteps⟩)
    (fun b => (batch[b]?.map fun r => (fill r).1).getD [])

end Verif.DecoderOnly
