import Verif.Spec.Importer
import Verif.Model.InitT5
/-
The parameters of the T5 networks: which there are, and their paths, shapes and logical axes.
-/
namespace Verif.InitT5.Spec
open Verif.Importer.Spec

/-- The path; the relative position biases are shared by the layers of a tower. -/
def pathOf : Param → List Name
  | .rel e _ => [side e, "relpos_bias".toList, "rel_embedding".toList]
  | p => p.path

/-- The shape. -/
def shapeOf (cfg : Config) : Param → List Nat
  | .shared => [cfg.vocabSize, cfg.embDim]
  | .emb _ => [cfg.vocabSize, cfg.embDim]
  | .rel _ _ => [cfg.numHeads, 32]
  | .attn _ _ _ .o => [cfg.numHeads * cfg.headDim, cfg.embDim]
  | .attn _ _ _ _ => [cfg.embDim, cfg.numHeads * cfg.headDim]
  | .mlp _ _ false _ => [cfg.embDim, cfg.mlpDim]
  | .mlp _ _ true _ => [cfg.mlpDim, cfg.embDim]
  | .ln _ _ _ => [cfg.embDim]
  | .finalLn _ => [cfg.embDim]
  | .logits => [cfg.embDim, cfg.vocabSize]

/-- The logical axes. -/
def axesOf : Param → List Name
  | .shared => ["vocab".toList, "embed".toList]
  | .emb _ => ["vocab".toList, "embed".toList]
  | .rel _ _ => ["heads".toList, "relpos_buckets".toList]
  | .attn _ _ _ .o => ["joined_kv".toList, "embed".toList]
  | .attn _ _ _ _ => ["embed".toList, "joined_kv".toList]
  | .mlp _ _ false _ => ["embed".toList, "mlp".toList]
  | .mlp _ _ true _ => ["mlp".toList, "embed".toList]
  | .ln _ _ _ => ["embed".toList]
  | .finalLn _ => ["embed".toList]
  | .logits => ["embed".toList, "vocab".toList]

/-- Number of layers of the encoder or the decoder. -/
def layersOf (cfg : Config) (enc : Bool) : Nat := if enc then cfg.numEnc else cfg.numDec

/-- The first kernels of an MLP block: one kernel `wi`, or kernels `wi_0`, `wi_1`, ... -/
inductive HasWi (cfg : Config) : Option Nat → Prop
  | one : cfg.numActs = 1 → HasWi cfg none
  | many {i : Nat} : cfg.numActs ≠ 1 → i < cfg.numActs → HasWi cfg (some i)

/-- The parameters of the encoder-decoder network. -/
inductive HasT5 (cfg : Config) : Param → Prop
  | shared : HasT5 cfg .shared
  | rel {e : Bool} : 0 < layersOf cfg e → HasT5 cfg (.rel e 0)
  | encAttn {n : Nat} (m : Mat) : n < cfg.numEnc → HasT5 cfg (.attn true n .encoderSelf m)
  | decAttn {n : Nat} (m : Mat) : n < cfg.numDec → HasT5 cfg (.attn false n .decoderSelf m)
  | cross {n : Nat} (m : Mat) : n < cfg.numDec → HasT5 cfg (.attn false n .cross m)
  | wi {e : Bool} {n : Nat} {i : Option Nat} : n < layersOf cfg e → HasWi cfg i → HasT5 cfg (.mlp e n false i)
  | wo {e : Bool} {n : Nat} : n < layersOf cfg e → HasT5 cfg (.mlp e n true none)
  | preAttention {n : Nat} : n < cfg.numEnc → HasT5 cfg (.ln true n .preAttention)
  | preSelf {n : Nat} : n < cfg.numDec → HasT5 cfg (.ln false n .preSelf)
  | preCross {n : Nat} : n < cfg.numDec → HasT5 cfg (.ln false n .preCross)
  | preMlp {e : Bool} {n : Nat} : n < layersOf cfg e → HasT5 cfg (.ln e n .preMlp)
  | finalLn (e : Bool) : HasT5 cfg (.finalLn e)
  | logits : cfg.viaEmbedding = false → HasT5 cfg .logits

/-- The parameters of the decoder-only network. -/
inductive HasLm (cfg : Config) : Param → Prop
  | emb : HasLm cfg (.emb false)
  | rel : 0 < cfg.numDec → HasLm cfg (.rel false 0)
  | attn {n : Nat} (m : Mat) : n < cfg.numDec → HasLm cfg (.attn false n .decoderSelf m)
  | wi {n : Nat} {i : Option Nat} : n < cfg.numDec → HasWi cfg i → HasLm cfg (.mlp false n false i)
  | wo {n : Nat} : n < cfg.numDec → HasLm cfg (.mlp false n true none)
  | preSelf {n : Nat} : n < cfg.numDec → HasLm cfg (.ln false n .preSelf)
  | preMlp {n : Nat} : n < cfg.numDec → HasLm cfg (.ln false n .preMlp)
  | finalLn : HasLm cfg (.finalLn false)
  | logits : cfg.viaEmbedding = false → HasLm cfg .logits

/-- The variables are these parameters, each once, with their shapes and axes. -/
def Are (cfg : Config) (Has : Param → Prop) (vars : List Var) : Prop :=
  (vars.map (·.path)).Nodup ∧ ∀ v : Var, v ∈ vars ↔ ∃ p, Has p ∧ v = ⟨pathOf p, shapeOf cfg p, axesOf p⟩

/-- The size that a logical axis name stands for. -/
def axisSize (cfg : Config) (name : Name) : Nat :=
  if name = "vocab".toList then cfg.vocabSize
  else if name = "embed".toList then cfg.embDim
  else if name = "joined_kv".toList then cfg.numHeads * cfg.headDim
  else if name = "mlp".toList then cfg.mlpDim
  else if name = "heads".toList then cfg.numHeads
  else if name = "relpos_buckets".toList then 32
  else 0

end Verif.InitT5.Spec
