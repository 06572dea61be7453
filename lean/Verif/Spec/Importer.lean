import Verif.Model.Importer
/-
The variables of a T5 checkpoint and the T5X variables they stand for, without strings or patterns; and how both are spelled.
-/
namespace Verif.Importer.Spec
open Verif Verif.Ckpt

inductive Tower where
  | encoder | decoder | transformer
deriving DecidableEq

/-- A parameter or one of its second-moment slots. -/
inductive Slot where
  | param | vCol | vRow | v
deriving DecidableEq

inductive Mat where
  | q | k | v | o
deriving DecidableEq

/-- A variable of a T5 (Mesh TensorFlow) checkpoint. -/
inductive Var where
  | step
  | shared (sl : Slot)
  | emb (t : Tower) (sl : Slot)
  | rel (t : Tower) (block : Nat) (sl : Slot)
  | attn (t : Tower) (block layer : Nat) (cross : Bool) (m : Mat) (sl : Slot)
  | mlp (t : Tower) (block layer : Nat) (out : Bool) (num : Option Nat) (sl : Slot)
  | ln (t : Tower) (block layer : Nat) (rms : Bool) (sl : Slot)
  | finalLn (t : Tower) (rms : Bool) (sl : Slot)
  | logits (decoderOnly : Bool) (sl : Slot)
deriving DecidableEq

inductive Attn where
  | encoderSelf | decoderSelf | cross
deriving DecidableEq

inductive Norm where
  | preAttention | preSelf | preCross | preMlp
deriving DecidableEq

/-- A parameter of a T5X model; `enc` is encoder or decoder. -/
inductive Param where
  | shared
  | emb (enc : Bool)
  | rel (enc : Bool) (layer : Nat)
  | attn (enc : Bool) (layer : Nat) (kind : Attn) (m : Mat)
  | mlp (enc : Bool) (layer : Nat) (out : Bool) (num : Option Nat)
  | ln (enc : Bool) (layer : Nat) (n : Norm)
  | finalLn (enc : Bool)
  | logits
deriving DecidableEq

/-- A leaf of the T5X state dict. -/
inductive Target where
  | step
  | leaf (sl : Slot) (p : Param)
deriving DecidableEq

/-- An encoder? (A decoder-only model's single tower counts as decoder.) -/
def Tower.enc : Tower → Bool
  | .encoder => true
  | _ => false

/-- The normalisation in front of sub-layer number `layer`. -/
def normAt : Tower → Nat → Option Norm
  | .transformer, 0 => some .preSelf
  | .transformer, 1 => some .preMlp
  | .encoder, 0 => some .preAttention
  | .encoder, 1 => some .preMlp
  | .decoder, 0 => some .preSelf
  | .decoder, 1 => some .preCross
  | .decoder, 2 => some .preMlp
  | _, _ => none

/-- What a checkpoint variable stands for. -/
def meaning : Var → Option Target
  | .step => some .step
  | .shared sl => some (.leaf sl .shared)
  | .emb t sl => some (.leaf sl (.emb t.enc))
  | .rel t b sl => some (.leaf sl (.rel t.enc b))
  | .attn t b _ cross m sl =>
    some (.leaf sl (.attn t.enc b (if t.enc then .encoderSelf else if cross then .cross else .decoderSelf) m))
  | .mlp t b _ out num sl => some (.leaf sl (.mlp t.enc b out num))
  | .ln t b l _ sl => (normAt t l).map fun n => .leaf sl (.ln t.enc b n)
  | .finalLn t _ sl => some (.leaf sl (.finalLn t.enc))
  | .logits _ sl => some (.leaf sl .logits)

/-! ### Spelling -/

def Tower.name : Tower → Name
  | .encoder => "encoder".toList
  | .decoder => "decoder".toList
  | .transformer => "transformer".toList

def Slot.tf : Slot → Name
  | .param => []
  | .vCol => "_slot_vc".toList
  | .vRow => "_slot_vr".toList
  | .v => "_slot_v".toList

def Mat.tf : Mat → Name
  | .q => ['q']
  | .k => ['k']
  | .v => ['v']
  | .o => ['o']

def ioName (out : Bool) (num : Option Nat) : Name :=
  match out, num with
  | false, none => "wi".toList
  | true, none => "wo".toList
  | false, some n => "wi_".toList ++ dec n
  | true, some n => "wo_".toList ++ dec n

/-- The name in the T5 checkpoint; block and layer numbers are zero-filled to widths `wb` and `wl`. -/
def Var.name (wb wl : Nat) : Var → Key
  | .step => ["global_step".toList]
  | .shared sl => ["shared".toList, "embedding".toList ++ sl.tf]
  | .emb t sl => [t.name, "embedding".toList ++ sl.tf]
  | .rel t b sl => [t.name, "block_".toList ++ decPad wb b, "layer_000".toList, "SelfAttention".toList, "relative_attention_bias".toList ++ sl.tf]
  | .attn t b l cross m sl =>
    [t.name, "block_".toList ++ decPad wb b, "layer_".toList ++ decPad wl l, if cross then "EncDecAttention".toList else "SelfAttention".toList,
      m.tf ++ sl.tf]
  | .mlp t b l out num sl =>
    [t.name, "block_".toList ++ decPad wb b, "layer_".toList ++ decPad wl l, "DenseReluDense".toList, ioName out num, "kernel".toList ++ sl.tf]
  | .ln t b l rms sl =>
    [t.name, "block_".toList ++ decPad wb b, "layer_".toList ++ decPad wl l, if rms then "rms_norm".toList else "layer_norm".toList,
      "scale".toList ++ sl.tf]
  | .finalLn t rms sl => [t.name, if rms then "rms_norm".toList else "final_layer_norm".toList, "scale".toList ++ sl.tf]
  | .logits dec sl => [if dec then "transformer".toList else "decoder".toList, "logits".toList, "kernel".toList ++ sl.tf]

def side (enc : Bool) : Name := if enc then "encoder".toList else "decoder".toList

def Attn.name : Attn → Name
  | .encoderSelf => "attention".toList
  | .decoderSelf => "self_attention".toList
  | .cross => "encoder_decoder_attention".toList

def Norm.name : Norm → Name
  | .preAttention => "pre_attention_layer_norm".toList
  | .preSelf => "pre_self_attention_layer_norm".toList
  | .preCross => "pre_cross_attention_layer_norm".toList
  | .preMlp => "pre_mlp_layer_norm".toList

def Mat.name : Mat → Name
  | .q => "query".toList
  | .k => "key".toList
  | .v => "value".toList
  | .o => "out".toList

/-- The path of a parameter in a T5X model. -/
def Param.path : Param → Key
  | .shared => ["token_embedder".toList, "embedding".toList]
  | .emb e => [side e, "token_embedder".toList, "embedding".toList]
  | .rel e n => [side e, "layers_".toList ++ dec n, "relpos_bias".toList, "rel_embedding".toList]
  | .attn e n k m => [side e, "layers_".toList ++ dec n, k.name, m.name, "kernel".toList]
  | .mlp e n out num => [side e, "layers_".toList ++ dec n, "mlp".toList, ioName out num, "kernel".toList]
  | .ln e n k => [side e, "layers_".toList ++ dec n, k.name, "scale".toList]
  | .finalLn e => [side e, if e then "encoder_norm".toList else "decoder_norm".toList, "scale".toList]
  | .logits => ["decoder".toList, "logits_dense".toList, "kernel".toList]

def Slot.name : Slot → Key
  | .param => []
  | .vCol => ["v_col".toList]
  | .vRow => ["v_row".toList]
  | .v => ["v".toList]

/-- The flat key of a leaf of the state dict. -/
def Target.path : Target → Key
  | .step => ["state".toList, "step".toList]
  | .leaf .param p => "target".toList :: p.path
  | .leaf sl p => "state".toList :: "param_states".toList :: (p.path ++ sl.name)

end Verif.Importer.Spec
