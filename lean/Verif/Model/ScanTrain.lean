import Verif.Model.AdafactorNum
import Verif.Model.AdafactorAxes
import Verif.Model.ApplyGrad
import Verif.Model.InitScalable
import Verif.Model.ScalableT5
/-
Training of a network with Adafactor on its whole parameter tree: the state made by `FlaxOptimTrainState.create`
(`/repo/t5x/train_state.py`, lines 125-144: `init_state` after `set_param_axes`) and repeated `apply_gradient` (lines 188-194) with the learning rate of
the step (`/repo/t5x/trainer.py`, lines 880-884).  Gradients are given by a function of the step and of the parameters; arithmetic is real.  The same
hyper parameters hold for all parameters (`multiply_by_parameter_scale` is a boolean).
-/
namespace Verif.ScanTrain
open Verif.StateDict Verif.ND Verif.Adafactor Verif.AdafactorNum

/-- The optimizer for a list of parameters with their axes: `set_param_axes`, `/repo/t5x/adafactor.py` lines 629-660, with the standard factor rules.
Paths are joined by slashes (`flatten_dict_string_keys`). -/
def optimizer (lower : List Char → List Char) (D : Def) (vars : List InitT5.Var) : Except AdafactorAxes.Err Def :=
  AdafactorAxes.setParamAxes lower (some AdafactorAxes.standardRules) D (vars.map fun v => (join v.path, v.axes.map some))

/-- Parameters, step and states of the optimizer. -/
abbrev St := Dict (NDArray ℝ) × (Nat × Dict (PState ℝ))

/-- `init_state`, `/repo/t5x/adafactor.py` lines 450-462. -/
noncomputable def start (D : Def) (H : HP ℝ) (params : Dict (NDArray ℝ)) : Except (ApplyGrad.Err Adafactor.Err) St :=
  match ApplyGrad.initState (fun path p => initParam realOps D H.beta1.isSome path p.shape) params with
  | .error e => .error e
  | .ok s => .ok (params, s)

/-- One `apply_gradient` with the learning rate given, lines 580-627; `thr` is `global_norm_clip_threshold`. -/
noncomputable def step (D : Def) (H : HP ℝ) (thr : Option ℝ) (lr : ℝ) (grads : Dict (NDArray ℝ)) (s : St) : Except (ApplyGrad.Err Adafactor.Err) St :=
  ApplyGrad.applyGradient (fun n path p st g => applyParam realOps D { H with learningRate := some lr } n path p st g) thr s.1 s.2 grads

/-- `T` training steps.  `grad t params` are the gradients for the batch of step `t`. -/
noncomputable def train (D : Def) (H : HP ℝ) (thr : Option ℝ) (lr : Nat → ℝ) (grad : Nat → Dict (NDArray ℝ) → Dict (NDArray ℝ)) (params : Dict (NDArray ℝ)) :
    Nat → Except (ApplyGrad.Err Adafactor.Err) St
  | 0 => start D H params
  | T + 1 =>
    match train D H thr lr grad params T with
    | .error e => .error e
    | .ok s => step D H thr (lr T) (grad T s.1) s

/-! ### The network of a tree of parameters

`module.apply({'params': params}, ...)`: every module reads the parameters below its own name.  Elements of parameters are given by path and index. -/

open Verif.InitT5 (Name wiName layerName)

section
variable {d h e f V : Nat}

/-- The table of relative positions, `/repo/t5x/examples/scalable_t5/layers.py` lines 662-690: a bucket outside of the table would add nothing (one-hot). -/
noncomputable def relOf (r : List Name → List Nat → ℝ) : Fin h → ℤ → ℝ := fun a b =>
  if 0 ≤ b ∧ b < 32 then r ["relpos_bias".toList, "rel_embedding".toList] [a.val, b.toNat] else 0

/-- `MultiHeadDotProductAttention` called `name`, layers.py lines 217-231 and 351-362. -/
noncomputable def attnOf (name : String) (r : List Name → List Nat → ℝ) : ScalableT5.Attn d h e :=
  ⟨fun a b c => r [name.toList, "query".toList, "kernel".toList] [a.val, b.val, c.val],
   fun a b c => r [name.toList, "key".toList, "kernel".toList] [a.val, b.val, c.val],
   fun a b c => r [name.toList, "value".toList, "kernel".toList] [a.val, b.val, c.val],
   fun a b c => r [name.toList, "out".toList, "kernel".toList] [a.val, b.val, c.val]⟩

/-- `MlpBlock`, layers.py lines 456-500, with the activations `cfg.mlp_activations`. -/
noncomputable def mlpOf (acts : (ℝ → ℝ) × List (ℝ → ℝ)) (r : List Name → List Nat → ℝ) : Transformer.Mlp d f :=
  let wi := fun (k : Nat) (a : Fin d) (b : Fin f) => r ["mlp".toList, wiName (acts.2.length + 1) k, "kernel".toList] [a.val, b.val]
  ⟨(acts.1, wi 0), acts.2.mapIdx fun k g => (g, wi (k + 1)), fun a b => r ["mlp".toList, "wo".toList, "kernel".toList] [a.val, b.val]⟩

/-- The scale of the `LayerNorm` called `name`. -/
noncomputable def normOf (name : String) (r : List Name → List Nat → ℝ) : Transformer.Vec d := fun a => r [name.toList, "scale".toList] [a.val]

/-- `EncoderLayer`, `/repo/t5x/examples/scalable_t5/network.py` lines 62-118. -/
noncomputable def encOf (acts : (ℝ → ℝ) × List (ℝ → ℝ)) (r : List Name → List Nat → ℝ) : ScalableT5.EncLayer d h e f :=
  ⟨relOf r, normOf "pre_attention_layer_norm" r, attnOf "attention" r, normOf "pre_mlp_layer_norm" r, mlpOf acts r⟩

/-- `DecoderLayer`, network.py lines 127-218. -/
noncomputable def decOf (acts : (ℝ → ℝ) × List (ℝ → ℝ)) (r : List Name → List Nat → ℝ) : ScalableT5.DecLayer d h e f :=
  ⟨relOf r, normOf "pre_self_attention_layer_norm" r, attnOf "self_attention" r, normOf "pre_cross_attention_layer_norm" r,
    attnOf "encoder_decoder_attention" r, normOf "pre_mlp_layer_norm" r, mlpOf acts r⟩

/-- The arrays of a scanned attention block; `r k p i` is the element of the parameter `p` with index `i` without the layer dimension, where that is `k`. -/
noncomputable def attnStackOf {N : Nat} (name : String) (r : Nat → List Name → List Nat → ℝ) : ScalableT5.AttnStack N d h e :=
  ⟨fun a k b c => r k [name.toList, "query".toList, "kernel".toList] [a.val, b.val, c.val],
   fun a k b c => r k [name.toList, "key".toList, "kernel".toList] [a.val, b.val, c.val],
   fun a k b c => r k [name.toList, "value".toList, "kernel".toList] [a.val, b.val, c.val],
   fun a k b c => r k [name.toList, "out".toList, "kernel".toList] [a.val, b.val, c.val]⟩

/-- The arrays of a scanned MLP block. -/
noncomputable def mlpStackOf {N : Nat} (acts : (ℝ → ℝ) × List (ℝ → ℝ)) (r : Nat → List Name → List Nat → ℝ) : ScalableT5.MlpStack N d f :=
  let wi := fun (j : Nat) (a : Fin d) (k : Fin N) (b : Fin f) => r k ["mlp".toList, wiName (acts.2.length + 1) j, "kernel".toList] [a.val, b.val]
  ⟨(acts.1, wi 0), acts.2.mapIdx fun j g => (g, wi (j + 1)), fun a k b => r k ["mlp".toList, "wo".toList, "kernel".toList] [a.val, b.val]⟩

/-- The scanned `EncoderLayer`, network.py lines 255-271. -/
noncomputable def encStackOf {N : Nat} (acts : (ℝ → ℝ) × List (ℝ → ℝ)) (r : Nat → List Name → List Nat → ℝ) : ScalableT5.EncStack N d h e f :=
  ⟨fun a k b => relOf (r k) a b, fun a k => normOf "pre_attention_layer_norm" (r k) a, attnStackOf "attention" r,
    fun a k => normOf "pre_mlp_layer_norm" (r k) a, mlpStackOf acts r⟩

/-- The scanned `DecoderLayer`, network.py lines 324-352. -/
noncomputable def decStackOf {N : Nat} (acts : (ℝ → ℝ) × List (ℝ → ℝ)) (r : Nat → List Name → List Nat → ℝ) : ScalableT5.DecStack N d h e f :=
  ⟨fun a k b => relOf (r k) a b, fun a k => normOf "pre_self_attention_layer_norm" (r k) a, attnStackOf "self_attention" r,
    fun a k => normOf "pre_cross_attention_layer_norm" (r k) a, attnStackOf "encoder_decoder_attention" r, fun a k => normOf "pre_mlp_layer_norm" (r k) a,
    mlpStackOf acts r⟩

/-- The output projection, network.py lines 366-384. -/
noncomputable def headOf (viaEmbedding : Bool) (r : List Name → List Nat → ℝ) : Transformer.Head d V :=
  if viaEmbedding then .viaEmbedding else .denseKernel fun a b => r ["decoder".toList, "logits_dense".toList, "kernel".toList] [a.val, b.val]

end

section
variable (cfg : InitT5.Config) (eps : ℝ) (acts : (ℝ → ℝ) × List (ℝ → ℝ)) (W : List Name → List Nat → ℝ)

/-- The network with `scan_layers=False`, network.py lines 221-384: layers `layers_0`, `layers_1`, ... -/
noncomputable def netOf : ScalableT5.Net cfg.embDim cfg.numHeads cfg.headDim cfg.mlpDim cfg.vocabSize :=
  ⟨eps, fun v a => W ["token_embedder".toList, "embedding".toList] [v.val, a.val],
    List.ofFn fun k : Fin cfg.numEnc => encOf acts fun p => W ("encoder".toList :: layerName k :: p), normOf "encoder_norm" fun p => W ("encoder".toList :: p),
    List.ofFn fun k : Fin cfg.numDec => decOf acts fun p => W ("decoder".toList :: layerName k :: p), normOf "decoder_norm" fun p => W ("decoder".toList :: p),
    headOf cfg.viaEmbedding W⟩

/-- The network with `scan_layers=True`: the scanned modules `encoder` and `decoder`; `ax` is `param_scan_axis`. -/
noncomputable def scannedOf (ax : Nat) : ScalableT5.Scanned cfg.numEnc cfg.numDec cfg.embDim cfg.numHeads cfg.headDim cfg.mlpDim cfg.vocabSize :=
  ⟨eps, fun v a => W ["token_embedder".toList, "embedding".toList] [v.val, a.val],
    encStackOf acts fun k p i => W ("encoder".toList :: "encoder".toList :: p) (i.insertIdx ax k), normOf "encoder_norm" fun p => W ("encoder".toList :: p),
    decStackOf acts fun k p i => W ("decoder".toList :: "decoder".toList :: p) (i.insertIdx ax k), normOf "decoder_norm" fun p => W ("decoder".toList :: p),
    headOf cfg.viaEmbedding W⟩

end

end Verif.ScanTrain
