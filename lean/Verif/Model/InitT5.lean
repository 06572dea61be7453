import Verif.Model.ArrayT5
import Verif.Model.CkptName
/-
The variables that `module.init` creates for the networks of `/repo/t5x/examples/t5` and `/repo/t5x/examples/decoder_only`:
`get_initial_variables`, `/repo/t5x/models.py` lines 400-454 and 861-877, and the `param_with_axes` calls of the layers.

`init` runs the network; here it runs on shapes.  `none` is an exception.

Simplifications: a variable of the collection `params` and its names in the collection `params_axes` are one entry; initial values are
left out (only shapes matter here); attention masks are left out (the masks of a batch always fit, C105); addition and multiplication
ask for equal shapes (no broadcasting happens in these networks); attention is only defined for one batch dimension.
-/
namespace Verif.InitT5
open Verif.Ckpt (dec)

abbrev Name := List Char

/-- A parameter: its path, shape and logical axis names. -/
structure Var where
  path : List Name
  shape : List Nat
  axes : List Name
deriving DecidableEq, Repr

/-- The fields of `T5Config` (network.py lines 26-44) that parameters depend on; `numActs` is `len(mlp_activations)`.  In a decoder-only
model `numDec` is `num_layers` and `numEnc` is not used. -/
structure Config where
  vocabSize : Nat
  embDim : Nat
  numHeads : Nat
  numEnc : Nat
  numDec : Nat
  headDim : Nat
  mlpDim : Nat
  numActs : Nat
  viaEmbedding : Bool

/-- `param_with_axes` during `init`: a variable that the module has created before is used again (a shape that differs raises). -/
def param (scope : List Name) (name : Name) (shape : List Nat) (axes : List Name) (vars : List Var) : Option (List Var) :=
  match vars.find? fun v => v.path = scope ++ [name] with
  | some v => if v.shape = shape then some vars else none
  | none => some (vars ++ [⟨scope ++ [name], shape, axes⟩])

/-- `_normalize_axes`, layers.py lines 350-352, for one axis. -/
def normAxis (ndim : Nat) (ax : Int) : Nat := (if 0 ≤ ax then ax else ndim + ax).toNat

/-- The dimensions of a shape that are not contracted. -/
def others (axis : List Nat) (x : List Nat) : List Nat := (x.zipIdx.filter fun e => !axis.contains e.2).map Prod.fst

/-- `DenseGeneral.__call__`, layers.py lines 383-414. -/
def dense (features : List Nat) (axis : List Int) (axes : List Name) (scope : List Name) (x : List Nat) (vars : List Var) :
    Option (List Nat × List Var) :=
  let axis := axis.map (normAxis x.length)
  (axis.mapM fun a => x[a]?).bind fun dims =>
    (param scope "kernel".toList [dims.prod, features.prod] axes vars).map fun vars => (others axis x ++ features, vars)

/-- The assertions and the result of `dot_product_attention`, layers.py lines 88-129. -/
def attend : List Nat → List Nat → List Nat → Option (List Nat)
  | [b, n, h, e], [b', m, h', e'], [b'', m', h'', e''] =>
    if b = b' ∧ b' = b'' ∧ h = h' ∧ h' = h'' ∧ m = m' ∧ e = e' then some [b, n, h, e''] else none
  | _, _, _ => none

/-- `MultiHeadDotProductAttention.__call__` without cache, layers.py lines 199-346. -/
def attention (cfg : Config) (scope : List Name) (xq xkv : List Nat) (vars : List Var) : Option (List Nat × List Var) :=
  (dense [cfg.numHeads, cfg.headDim] [-1] ["embed".toList, "joined_kv".toList] (scope ++ ["query".toList]) xq vars).bind fun q =>
  (dense [cfg.numHeads, cfg.headDim] [-1] ["embed".toList, "joined_kv".toList] (scope ++ ["key".toList]) xkv q.2).bind fun k =>
  (dense [cfg.numHeads, cfg.headDim] [-1] ["embed".toList, "joined_kv".toList] (scope ++ ["value".toList]) xkv k.2).bind fun v =>
  (attend q.1 k.1 v.1).bind fun x =>
  xq.getLast?.bind fun d =>
  dense [d] [-2, -1] ["joined_kv".toList, "embed".toList] (scope ++ ["out".toList]) x v.2

/-- `dense_name`, layers.py line 462. -/
def wiName (numActs idx : Nat) : Name := if numActs = 1 then "wi".toList else "wi_".toList ++ dec idx

/-- The loop over the activations, layers.py lines 461-475; `acc` is the shape of the product so far. -/
def activations (cfg : Config) (scope : List Name) (x : List Nat) : List Nat → Option (List Nat) → List Var → Option (Option (List Nat) × List Var)
  | [], acc, vars => some (acc, vars)
  | idx :: rest, acc, vars =>
    (dense [cfg.mlpDim] [-1] ["embed".toList, "mlp".toList] (scope ++ [wiName cfg.numActs idx]) x vars).bind fun y =>
      match acc with
      | none => activations cfg scope x rest (some y.1) y.2
      | some s => if s = y.1 then activations cfg scope x rest (some s) y.2 else none

/-- `MlpBlock.__call__`, layers.py lines 456-488; without activations `functools.reduce` raises. -/
def mlp (cfg : Config) (scope : List Name) (x : List Nat) (vars : List Var) : Option (List Nat × List Var) :=
  (activations cfg scope x (List.range cfg.numActs) none vars).bind fun y =>
  y.1.bind fun s =>
  x.getLast?.bind fun d =>
  dense [d] [-1] ["mlp".toList, "embed".toList] (scope ++ ["wo".toList]) s y.2

/-- `LayerNorm.__call__`, layers.py lines 690-704. -/
def layerNorm (scope : List Name) (x : List Nat) (vars : List Var) : Option (List Nat × List Var) :=
  x.getLast?.bind fun d => (param scope "scale".toList [d] ["embed".toList] vars).map fun vars => (x, vars)

/-- `Embed`, layers.py lines 511-541. -/
def embed (cfg : Config) (scope : List Name) (tokens : List Nat) (vars : List Var) : Option (List Nat × List Var) :=
  (param scope "embedding".toList [cfg.vocabSize, cfg.embDim] ["vocab".toList, "embed".toList] vars).map fun vars => (tokens ++ [cfg.embDim], vars)

/-- `RelativePositionBiases.__call__`, layers.py lines 651-657, with 32 buckets. -/
def relpos (cfg : Config) (scope : List Name) (vars : List Var) : Option (List Var) :=
  param scope "rel_embedding".toList [cfg.numHeads, 32] ["heads".toList, "relpos_buckets".toList] vars

/-- Addition of the residual. -/
def add (x y : List Nat) : Option (List Nat) := if x = y then some x else none

/-- `EncoderLayer.__call__`, network.py lines 53-96; the module for relative positions belongs to the encoder. -/
def encLayer (cfg : Config) (rel scope : List Name) (x0 : List Nat) (vars : List Var) : Option (List Nat × List Var) :=
  (relpos cfg rel vars).bind fun vars =>
  if x0.length ≠ 3 then none else
  (layerNorm (scope ++ ["pre_attention_layer_norm".toList]) x0 vars).bind fun x =>
  (attention cfg (scope ++ ["attention".toList]) x.1 x.1 x.2).bind fun x =>
  (add x.1 x0).bind fun x1 =>
  (layerNorm (scope ++ ["pre_mlp_layer_norm".toList]) x1 x.2).bind fun y =>
  (mlp cfg (scope ++ ["mlp".toList]) y.1 y.2).bind fun y =>
  (add y.1 x1).map fun z => (z, y.2)

/-- `DecoderLayer.__call__`, network.py lines 106-177. -/
def decLayer (cfg : Config) (encoded : List Nat) (rel scope : List Name) (x0 : List Nat) (vars : List Var) : Option (List Nat × List Var) :=
  (relpos cfg rel vars).bind fun vars =>
  (layerNorm (scope ++ ["pre_self_attention_layer_norm".toList]) x0 vars).bind fun x =>
  (attention cfg (scope ++ ["self_attention".toList]) x.1 x.1 x.2).bind fun x =>
  (add x.1 x0).bind fun x1 =>
  (layerNorm (scope ++ ["pre_cross_attention_layer_norm".toList]) x1 x.2).bind fun y =>
  (attention cfg (scope ++ ["encoder_decoder_attention".toList]) y.1 encoded y.2).bind fun y =>
  (add y.1 x1).bind fun x2 =>
  (layerNorm (scope ++ ["pre_mlp_layer_norm".toList]) x2 y.2).bind fun z =>
  (mlp cfg (scope ++ ["mlp".toList]) z.1 z.2).bind fun z =>
  (add z.1 x2).map fun w => (w, z.2)

/-- `DecoderLayer.__call__` of the decoder-only network, decoder_only/network.py lines 49-118. -/
def lmLayer (cfg : Config) (rel scope : List Name) (x0 : List Nat) (vars : List Var) : Option (List Nat × List Var) :=
  (relpos cfg rel vars).bind fun vars =>
  (layerNorm (scope ++ ["pre_self_attention_layer_norm".toList]) x0 vars).bind fun x =>
  (attention cfg (scope ++ ["self_attention".toList]) x.1 x.1 x.2).bind fun x =>
  (add x.1 x0).bind fun x1 =>
  (layerNorm (scope ++ ["pre_mlp_layer_norm".toList]) x1 x.2).bind fun y =>
  (mlp cfg (scope ++ ["mlp".toList]) y.1 y.2).bind fun y =>
  (add y.1 x1).map fun z => (z, y.2)

/-- `layers_{lyr}`. -/
def layerName (n : Nat) : Name := "layers_".toList ++ dec n

/-- The loops over the layers, network.py lines 214-218 and 262-276, decoder_only/network.py lines 206-219. -/
def loop (layer : List Name → List Nat → List Var → Option (List Nat × List Var)) (scope : List Name) :
    List Nat → List Nat → List Var → Option (List Nat × List Var)
  | [], x, vars => some (x, vars)
  | n :: rest, x, vars => (layer (scope ++ [layerName n]) x vars).bind fun y => loop layer scope rest y.1 y.2

/-- The logits, network.py lines 283-297: a kernel of its own unless the embedding is used. -/
def logits (cfg : Config) (scope : List Name) (x : List Nat) (vars : List Var) : Option (List Nat × List Var) :=
  if cfg.viaEmbedding then (x.getLast?).bind fun d => if d = cfg.embDim then some (x.dropLast ++ [cfg.vocabSize], vars) else none
  else dense [cfg.vocabSize] [-1] ["embed".toList, "vocab".toList] (scope ++ ["logits_dense".toList]) x vars

/-- `Encoder.__call__`, network.py lines 186-221. -/
def encoder (cfg : Config) (tokens : List Nat) (vars : List Var) : Option (List Nat × List Var) :=
  if tokens.length ≠ 2 then none else
  (embed cfg ["token_embedder".toList] tokens vars).bind fun x =>
  (loop (encLayer cfg ["encoder".toList, "relpos_bias".toList]) ["encoder".toList] (List.range cfg.numEnc) x.1 x.2).bind fun x =>
  layerNorm ["encoder".toList, "encoder_norm".toList] x.1 x.2

/-- `Decoder.__call__`, network.py lines 230-298. -/
def decoder (cfg : Config) (encoded tokens : List Nat) (vars : List Var) : Option (List Nat × List Var) :=
  if tokens.length ≠ 2 then none else
  (embed cfg ["token_embedder".toList] tokens vars).bind fun x =>
  (loop (decLayer cfg encoded ["decoder".toList, "relpos_bias".toList]) ["decoder".toList] (List.range cfg.numDec) x.1 x.2).bind fun x =>
  (layerNorm ["decoder".toList, "decoder_norm".toList] x.1 x.2).bind fun x =>
  logits cfg ["decoder".toList] x.1 x.2

/-- `EncoderDecoderModel.get_initial_variables`, models.py lines 400-454, and `Transformer.__call__`, network.py lines 320-466; `encSeg` and
`decSeg` tell whether `input_shapes` has segment ids of the encoder and the decoder.  The targets have the shape of the decoder inputs. -/
def initT5 (cfg : Config) (encShape decShape : List Nat) (encSeg decSeg : Bool) : Option (List Var) :=
  if encShape.length ≠ 2 then none else
  (encoder cfg encShape []).bind fun e =>
  if encSeg && !decSeg then none else
  (decoder cfg e.1 decShape e.2).map Prod.snd

/-- `DecoderOnlyModel.get_initial_variables`, models.py lines 861-877, `DecoderWrapper` and `Decoder.__call__`, decoder_only/network.py lines
126-260. -/
def initLm (cfg : Config) (shape : List Nat) : Option (List Var) :=
  if shape.length ≠ 2 then none else
  (embed cfg ["decoder".toList, "token_embedder".toList] shape []).bind fun x =>
  (loop (lmLayer cfg ["decoder".toList, "relpos_bias".toList]) ["decoder".toList] (List.range cfg.numDec) x.1 x.2).bind fun x =>
  (layerNorm ["decoder".toList, "decoder_norm".toList] x.1 x.2).bind fun x =>
  (logits cfg ["decoder".toList] x.1 x.2).map Prod.snd

/-! ### Reading the variables back

`module.apply` finds every parameter under the path under which `init` created it. -/

/-- The parameters of an attention layer. -/
def attnOf (arr : List Name → ND.NDArray ℝ) (scope : List Name) : ArrT5.Attn where
  query := arr (scope ++ ["query".toList, "kernel".toList])
  key := arr (scope ++ ["key".toList, "kernel".toList])
  value := arr (scope ++ ["value".toList, "kernel".toList])
  out := arr (scope ++ ["out".toList, "kernel".toList])

/-- The parameters of an MLP block with activation functions `act :: acts`. -/
def mlpOf (arr : List Name → ND.NDArray ℝ) (act : ℝ → ℝ) (acts : List (ℝ → ℝ)) (scope : List Name) : ArrT5.Mlp where
  first := (act, arr (scope ++ [wiName (acts.length + 1) 0, "kernel".toList]))
  others := acts.zipIdx.map fun a => (a.1, arr (scope ++ [wiName (acts.length + 1) (a.2 + 1), "kernel".toList]))
  wo := arr (scope ++ ["wo".toList, "kernel".toList])

/-- The parameters of an encoder layer. -/
def encLayerOf (arr : List Name → ND.NDArray ℝ) (act : ℝ → ℝ) (acts : List (ℝ → ℝ)) (n : Nat) : ArrT5.EncLayer where
  preAttention := arr ["encoder".toList, layerName n, "pre_attention_layer_norm".toList, "scale".toList]
  attention := attnOf arr ["encoder".toList, layerName n, "attention".toList]
  preMlp := arr ["encoder".toList, layerName n, "pre_mlp_layer_norm".toList, "scale".toList]
  mlp := mlpOf arr act acts ["encoder".toList, layerName n, "mlp".toList]

/-- The parameters of a decoder layer. -/
def decLayerOf (arr : List Name → ND.NDArray ℝ) (act : ℝ → ℝ) (acts : List (ℝ → ℝ)) (n : Nat) : ArrT5.DecLayer where
  preSelf := arr ["decoder".toList, layerName n, "pre_self_attention_layer_norm".toList, "scale".toList]
  self := attnOf arr ["decoder".toList, layerName n, "self_attention".toList]
  preCross := arr ["decoder".toList, layerName n, "pre_cross_attention_layer_norm".toList, "scale".toList]
  cross := attnOf arr ["decoder".toList, layerName n, "encoder_decoder_attention".toList]
  preMlp := arr ["decoder".toList, layerName n, "pre_mlp_layer_norm".toList, "scale".toList]
  mlp := mlpOf arr act acts ["decoder".toList, layerName n, "mlp".toList]

/-- The parameters of the network; `act :: acts` are the activation functions of `mlp_activations`. -/
def paramsOf (cfg : Config) (act : ℝ → ℝ) (acts : List (ℝ → ℝ)) (arr : List Name → ND.NDArray ℝ) : ArrT5.Params where
  table := arr ["token_embedder".toList, "embedding".toList]
  encRel := arr ["encoder".toList, "relpos_bias".toList, "rel_embedding".toList]
  enc := (List.range cfg.numEnc).map (encLayerOf arr act acts)
  encNorm := arr ["encoder".toList, "encoder_norm".toList, "scale".toList]
  decRel := arr ["decoder".toList, "relpos_bias".toList, "rel_embedding".toList]
  dec := (List.range cfg.numDec).map (decLayerOf arr act acts)
  decNorm := arr ["decoder".toList, "decoder_norm".toList, "scale".toList]
  logitsDense := if cfg.viaEmbedding then none else some (arr ["decoder".toList, "logits_dense".toList, "kernel".toList])

/-- The configuration as the network on arrays sees it. -/
def netConfig (cfg : Config) (eps : ℝ) : ArrT5.Config where
  numHeads := cfg.numHeads
  headDim := cfg.headDim
  mlpDim := cfg.mlpDim
  vocabSize := cfg.vocabSize
  eps := eps

end Verif.InitT5
