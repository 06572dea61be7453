import Verif.Model.InitT5
/-
The variables that `module.init` creates for the network of `/repo/t5x/examples/scalable_t5` with scanned and with separate layers:
`get_initial_variables`, `/repo/t5x/models.py` lines 400-454, and the `param_with_axes` calls of the layers.

Simplifications: those of `Verif.Model.InitT5`.  `nn.scan` and `scan_with_axes` are modelled from the flax source: the layer is initialised in
a scope of its own, every parameter gets a dimension of the number of layers at the position `param_scan_axis` (an error if the parameter
has too few dimensions) and the name `layers` at the same place among its axis names; the hidden states must keep their shape.
`remat_policy` does not change the parameters and is left out.
-/
namespace Verif.InitScalable
open Verif.InitT5 (Name Var param normAxis others attend wiName layerNorm embed relpos add loop)

/-- The fields of `T5Config` (network.py lines 34-53) that parameters depend on. -/
structure Config extends InitT5.Config where
  scanLayers : Bool
  paramScanAxis : Nat

/-- `DenseGeneral.__call__`, layers.py lines 398-430: unlike in `/repo/t5x/examples/t5`, the kernel keeps all its dimensions. -/
def dense (features : List Nat) (axis : List Int) (axes : List Name) (scope : List Name) (x : List Nat) (vars : List Var) :
    Option (List Nat × List Var) :=
  let axis := axis.map (normAxis x.length)
  (axis.mapM fun a => x[a]?).bind fun dims =>
    (param scope "kernel".toList (dims ++ features) axes vars).map fun vars => (others axis x ++ features, vars)

/-- `MultiHeadDotProductAttention.__call__` without cache, layers.py lines 216-363. -/
def attention (cfg : Config) (scope : List Name) (xq xkv : List Nat) (vars : List Var) : Option (List Nat × List Var) :=
  (dense [cfg.numHeads, cfg.headDim] [-1] ["embed".toList, "heads".toList, "kv".toList] (scope ++ ["query".toList]) xq vars).bind fun q =>
  (dense [cfg.numHeads, cfg.headDim] [-1] ["embed".toList, "heads".toList, "kv".toList] (scope ++ ["key".toList]) xkv q.2).bind fun k =>
  (dense [cfg.numHeads, cfg.headDim] [-1] ["embed".toList, "heads".toList, "kv".toList] (scope ++ ["value".toList]) xkv k.2).bind fun v =>
  (attend q.1 k.1 v.1).bind fun x =>
  xq.getLast?.bind fun d =>
  dense [d] [-2, -1] ["heads".toList, "kv".toList, "embed".toList] (scope ++ ["out".toList]) x v.2

/-- The loop over the activations, layers.py lines 472-484; `acc` is the shape of the product so far. -/
def activations (cfg : Config) (scope : List Name) (x : List Nat) : List Nat → Option (List Nat) → List Var → Option (Option (List Nat) × List Var)
  | [], acc, vars => some (acc, vars)
  | idx :: rest, acc, vars =>
    (dense [cfg.mlpDim] [-1] ["embed".toList, "mlp".toList] (scope ++ [wiName cfg.numActs idx]) x vars).bind fun y =>
      match acc with
      | none => activations cfg scope x rest (some y.1) y.2
      | some s => if s = y.1 then activations cfg scope x rest (some s) y.2 else none

/-- `MlpBlock.__call__`, layers.py lines 467-499; without activations `functools.reduce` raises. -/
def mlp (cfg : Config) (scope : List Name) (x : List Nat) (vars : List Var) : Option (List Nat × List Var) :=
  (activations cfg scope x (List.range cfg.numActs) none vars).bind fun y =>
  y.1.bind fun s =>
  x.getLast?.bind fun d =>
  dense [d] [-1] ["mlp".toList, "embed".toList] (scope ++ ["wo".toList]) s y.2

/-- `EncoderLayer.__call__`, network.py lines 61-118; every layer has its own module for relative positions.  `LayerNorm`,
`RelativePositionBiases` and `Embed` create the same parameters as in `/repo/t5x/examples/t5` (layers.py lines 703-714, 663-669 and 523-530). -/
def encLayer (cfg : Config) (scope : List Name) (x0 : List Nat) (vars : List Var) : Option (List Nat × List Var) :=
  (relpos cfg.toConfig (scope ++ ["relpos_bias".toList]) vars).bind fun vars =>
  if x0.length ≠ 3 then none else
  (layerNorm (scope ++ ["pre_attention_layer_norm".toList]) x0 vars).bind fun x =>
  (attention cfg (scope ++ ["attention".toList]) x.1 x.1 x.2).bind fun x =>
  (add x.1 x0).bind fun x1 =>
  (layerNorm (scope ++ ["pre_mlp_layer_norm".toList]) x1 x.2).bind fun y =>
  (mlp cfg (scope ++ ["mlp".toList]) y.1 y.2).bind fun y =>
  (add y.1 x1).map fun z => (z, y.2)

/-- `DecoderLayer.__call__`, network.py lines 126-218. -/
def decLayer (cfg : Config) (encoded : List Nat) (scope : List Name) (x0 : List Nat) (vars : List Var) : Option (List Nat × List Var) :=
  (relpos cfg.toConfig (scope ++ ["relpos_bias".toList]) vars).bind fun vars =>
  (layerNorm (scope ++ ["pre_self_attention_layer_norm".toList]) x0 vars).bind fun x =>
  (attention cfg (scope ++ ["self_attention".toList]) x.1 x.1 x.2).bind fun x =>
  (add x.1 x0).bind fun x1 =>
  (layerNorm (scope ++ ["pre_cross_attention_layer_norm".toList]) x1 x.2).bind fun y =>
  (attention cfg (scope ++ ["encoder_decoder_attention".toList]) y.1 encoded y.2).bind fun y =>
  (add y.1 x1).bind fun x2 =>
  (layerNorm (scope ++ ["pre_mlp_layer_norm".toList]) x2 y.2).bind fun z =>
  (mlp cfg (scope ++ ["mlp".toList]) z.1 z.2).bind fun z =>
  (add z.1 x2).map fun w => (w, z.2)

/-- The parameter of `n` layers: flax inserts the dimension of the scan and the axis name at the position `ax`. -/
def stack (ax n : Nat) (v : Var) : Var := ⟨v.path, v.shape.insertIdx ax n, v.axes.insertIdx ax "layers".toList⟩

/-- `scan_with_axes(layer, ..., length=n, axis_name='layers')(name=...)` during `init`, network.py lines 255-271 and 324-352. -/
def scan (layer : List Name → List Nat → List Var → Option (List Nat × List Var)) (ax n : Nat) (scope : List Name) (x : List Nat)
    (vars : List Var) : Option (List Nat × List Var) :=
  (layer scope x []).bind fun y =>
  if y.1 = x ∧ y.2.all (fun v => ax ≤ v.shape.length) then some (x, vars ++ y.2.map (stack ax n)) else none

/-- The layers of a tower, network.py lines 255-277 and 324-364. -/
def tower (cfg : Config) (layer : List Name → List Nat → List Var → Option (List Nat × List Var)) (name : Name) (n : Nat) (x : List Nat)
    (vars : List Var) : Option (List Nat × List Var) :=
  if cfg.scanLayers then scan layer cfg.paramScanAxis n [name, name] x vars else loop layer [name] (List.range n) x vars

/-- The logits, network.py lines 371-384. -/
def logits (cfg : Config) (scope : List Name) (x : List Nat) (vars : List Var) : Option (List Nat × List Var) :=
  if cfg.viaEmbedding then (x.getLast?).bind fun d => if d = cfg.embDim then some (x.dropLast ++ [cfg.vocabSize], vars) else none
  else dense [cfg.vocabSize] [-1] ["embed".toList, "vocab".toList] (scope ++ ["logits_dense".toList]) x vars

/-- `Encoder.__call__`, network.py lines 227-280. -/
def encoder (cfg : Config) (tokens : List Nat) (vars : List Var) : Option (List Nat × List Var) :=
  if tokens.length ≠ 2 then none else
  (embed cfg.toConfig ["token_embedder".toList] tokens vars).bind fun x =>
  (tower cfg (encLayer cfg) "encoder".toList cfg.numEnc x.1 x.2).bind fun x =>
  layerNorm ["encoder".toList, "encoder_norm".toList] x.1 x.2

/-- `Decoder.__call__`, network.py lines 289-384. -/
def decoder (cfg : Config) (encoded tokens : List Nat) (vars : List Var) : Option (List Nat × List Var) :=
  if tokens.length ≠ 2 then none else
  (embed cfg.toConfig ["token_embedder".toList] tokens vars).bind fun x =>
  (tower cfg (decLayer cfg encoded) "decoder".toList cfg.numDec x.1 x.2).bind fun x =>
  (layerNorm ["decoder".toList, "decoder_norm".toList] x.1 x.2).bind fun x =>
  logits cfg ["decoder".toList] x.1 x.2

/-- `EncoderDecoderModel.get_initial_variables`, models.py lines 400-454, and `Transformer.__call__`, network.py lines 416-558; `encSeg` and
`decSeg` tell whether `input_shapes` has segment ids of the encoder and the decoder. -/
def init (cfg : Config) (encShape decShape : List Nat) (encSeg decSeg : Bool) : Option (List Var) :=
  if encShape.length ≠ 2 then none else
  (encoder cfg encShape []).bind fun e =>
  if encSeg && !decSeg then none else
  (decoder cfg e.1 decShape e.2).map Prod.snd

end Verif.InitScalable
