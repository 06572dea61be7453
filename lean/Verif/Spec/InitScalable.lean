import Verif.Model.InitScalable
import Verif.Spec.AdafactorStack
/-
The parameters of the scalable T5 network: tables of paths, shapes and axes.
-/
namespace Verif.InitScalable.Spec
open Verif.InitT5 (Name Var wiName layerName)

/-- A parameter below `scope`. -/
def at' (scope : List Name) (rest : List String) (dims : List (String × Nat)) : Var :=
  ⟨scope ++ rest.map String.toList, dims.map (·.2), dims.map (·.1.toList)⟩

variable (cfg : InitT5.Config)

/-- The kernels of an attention block. -/
def attention (scope : List Name) (name : String) : List Var :=
  [at' scope [name, "query", "kernel"] [("embed", cfg.embDim), ("heads", cfg.numHeads), ("kv", cfg.headDim)],
   at' scope [name, "key", "kernel"] [("embed", cfg.embDim), ("heads", cfg.numHeads), ("kv", cfg.headDim)],
   at' scope [name, "value", "kernel"] [("embed", cfg.embDim), ("heads", cfg.numHeads), ("kv", cfg.headDim)],
   at' scope [name, "out", "kernel"] [("heads", cfg.numHeads), ("kv", cfg.headDim), ("embed", cfg.embDim)]]

/-- The kernels of an MLP block: `wi`, or `wi_0`, `wi_1`, ..., and `wo`. -/
def mlp (scope : List Name) : List Var :=
  (List.range cfg.numActs).map (fun i => ⟨scope ++ ["mlp".toList, wiName cfg.numActs i, "kernel".toList], [cfg.embDim, cfg.mlpDim],
    ["embed".toList, "mlp".toList]⟩) ++ [at' scope ["mlp", "wo", "kernel"] [("mlp", cfg.mlpDim), ("embed", cfg.embDim)]]

/-- The scale of a layer norm. -/
def norm (scope : List Name) (name : String) : Var := at' scope [name, "scale"] [("embed", cfg.embDim)]

/-- The table of relative positions. -/
def relpos (scope : List Name) : Var := at' scope ["relpos_bias", "rel_embedding"] [("heads", cfg.numHeads), ("relpos_buckets", 32)]

/-- The parameters of a layer of the encoder. -/
def encLayer (scope : List Name) : List Var :=
  [relpos cfg scope, norm cfg scope "pre_attention_layer_norm"] ++ attention cfg scope "attention" ++ [norm cfg scope "pre_mlp_layer_norm"] ++
    mlp cfg scope

/-- The parameters of a layer of the decoder. -/
def decLayer (scope : List Name) : List Var :=
  [relpos cfg scope, norm cfg scope "pre_self_attention_layer_norm"] ++ attention cfg scope "self_attention" ++
    [norm cfg scope "pre_cross_attention_layer_norm"] ++ attention cfg scope "encoder_decoder_attention" ++ [norm cfg scope "pre_mlp_layer_norm"] ++
    mlp cfg scope

/-- The parameters outside of the layers. -/
def embedding : Var := at' [] ["token_embedder", "embedding"] [("vocab", cfg.vocabSize), ("embed", cfg.embDim)]

def encNorm : Var := norm cfg ["encoder".toList] "encoder_norm"

def decNorm : Var := norm cfg ["decoder".toList] "decoder_norm"

def head : List Var :=
  if cfg.viaEmbedding then [] else [at' ["decoder".toList] ["logits_dense", "kernel"] [("embed", cfg.embDim), ("vocab", cfg.vocabSize)]]

/-- The parameters with separate layers. -/
def separate : List Var :=
  [embedding cfg] ++ (List.range cfg.numEnc).flatMap (fun i => encLayer cfg ["encoder".toList, layerName i]) ++ [encNorm cfg] ++
    (List.range cfg.numDec).flatMap (fun i => decLayer cfg ["decoder".toList, layerName i]) ++ [decNorm cfg] ++ head cfg

/-- A parameter of `n` layers, stacked along the dimension `ax`. -/
def stackOf (ax n : Nat) (v : Var) : Var := ⟨v.path, AdafactorStack.Spec.ins ax n v.shape, AdafactorStack.Spec.ins ax "layers".toList v.axes⟩

/-- The parameters with layers stacked along the dimension `ax`. -/
def stacked (ax : Nat) : List Var :=
  [embedding cfg] ++ (encLayer cfg ["encoder".toList, "encoder".toList]).map (stackOf ax cfg.numEnc) ++ [encNorm cfg] ++
    (decLayer cfg ["decoder".toList, "decoder".toList]).map (stackOf ax cfg.numDec) ++ [decNorm cfg] ++ head cfg

end Verif.InitScalable.Spec
