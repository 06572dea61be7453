import Verif.Model.ArrayOps
import Verif.Model.Masks
import Verif.Model.RelPos
/-
The network of `/repo/t5x/examples/t5/network.py` and the layers of `/repo/t5x/examples/t5/layers.py` as they are written: as operations on
whole arrays with a batch dimension, with axes, reshapes, transpositions, einsum strings, broadcasting and the layout of the caches.

Simplifications: real arithmetic, the casts to `dtype` are left out, and the exponential is a parameter `ex`; no dropout
(`enable_dropout=False`); sharding constraints are left out; the parameters are records of arrays; relative position buckets are those of
`Verif.Model.RelPos`.  A shape that does not fit raises (here `none`), also that of a stored parameter (flax checks it against the
initialiser).
-/
namespace Verif.ArrT5
open Verif.ND Verif.Arr Verif.Masks

/-- `DenseGeneral.__call__`, layers.py lines 383-414, with `_normalize_axes` (349-351): the kernel parameter is 2-D. -/
noncomputable def denseGeneral (features : List Nat) (axis : List Int) (kernel : NDArray ℝ) (inputs : NDArray ℝ) : Option (NDArray ℝ) :=
  (normAxes inputs.shape.length axis).bind fun axis =>
  let ins := sizes inputs.shape axis
  if kernel.shape = [ins.prod, features.prod] then
    (reshape kernel (ins ++ features)).bind fun k => dotGeneral inputs k axis (List.range axis.length)
  else none

/-- `LayerNorm.__call__`, layers.py lines 688-702. -/
noncomputable def layerNorm (eps : ℝ) (scale : NDArray ℝ) (x : NDArray ℝ) : Option (NDArray ℝ) :=
  let mean2 := meanLast (mapA (fun v => v ^ 2) x)
  (zipA (fun v m => v * m) x (mapA (fun v => (√(v + eps))⁻¹) mean2)).bind fun y =>
  if scale.shape = [x.shape.getLastD 1] then zipA (fun v s => v * s) y scale else none

/-- `Embed.__call__` with `one_hot=True`, layers.py lines 520-541; the table is the parameter `embedding`. -/
noncomputable def embed (table : NDArray ℝ) (inputs : NDArray Int) : Option (NDArray ℝ) :=
  (expandDims inputs (-1)).bind fun x =>
  (zipA (fun t v => if t = v then (1 : ℝ) else 0) x (arange (table.shape.getD 0 0))).bind fun oneHot =>
    dotGeneral oneHot table [oneHot.shape.length - 1] [0]

/-- `Embed.attend`, layers.py lines 543-557: `jnp.dot(query, embedding.T)`. -/
noncomputable def attendA (table : NDArray ℝ) (query : NDArray ℝ) : Option (NDArray ℝ) :=
  (transpose table [1, 0]).bind fun t => dotGeneral query t [query.shape.length - 1] [0]

/-- `RelativePositionBiases.__call__`, layers.py lines 622-668, with 32 buckets (network.py lines 195-204 and 241-250; the distance 128 is part of
`lg`); the shape is (1, num_heads, qlen, klen). -/
noncomputable def relativeBias (lg : ℕ → ℝ) (rel : NDArray ℝ) (qlen klen : Nat) (bidirectional : Bool) : Option (NDArray ℝ) :=
  (expandDims (arange qlen) 1).bind fun context =>
  (expandDims (arange klen) 0).bind fun memory =>
  (zipA (fun (m c : Int) => m - c) memory context).bind fun relativePosition =>
  let bucket := mapA (fun r => RelPos.bucket lg r bidirectional 32) relativePosition
  (expandDims bucket 0).bind fun bucket =>
  (zipA (fun (b i : Int) => if b = i then (1 : ℝ) else 0) bucket ⟨[32, 1, 1], fun i => (i.getD 0 0 : Nat)⟩).bind fun oneHot =>
  (dotGeneral rel oneHot [1] [0]).bind fun values => expandDims values 0

/-! ### Masks -/

/-- layers.py lines 708-743, `make_attention_mask` (no extra batch dimensions). -/
def makeAttentionMask (query key : NDArray Int) (pairwise : Int → Int → Int) : Option (NDArray Int) :=
  (expandDims query (-1)).bind fun q =>
  (expandDims key (-2)).bind fun k =>
  (zipA pairwise q k).bind fun mask => expandDims mask (-3)

/-- layers.py lines 746-777, `make_causal_mask`. -/
def makeCausalMask (x : NDArray Int) : Option (NDArray Int) :=
  (broadcastTo (arange (x.shape.getLastD 1)) x.shape).bind fun idxs => makeAttentionMask idxs idxs greaterEqual

/-- `functools.reduce` of an elementwise operation over further masks or biases. -/
def combine {α : Type} (f : α → α → α) (first : NDArray α) : List (NDArray α) → Option (NDArray α)
  | [] => some first
  | o :: rest => (zipA f first o).bind fun m => combine f m rest

/-- layers.py lines 780-799, `combine_masks`: the inner `none` is the value None, the outer one the failed assertion. -/
def combineMasks (masks : List (Option (NDArray Int))) : Option (Option (NDArray Int)) :=
  match masks.filterMap id with
  | [] => some none
  | mask :: others =>
    if ∀ o ∈ others, o.shape.length = mask.shape.length then (combine logicalAnd mask others).map some else none

/-- layers.py lines 802-822, `combine_biases`. -/
noncomputable def combineBiases (biases : List (Option (NDArray ℝ))) : Option (Option (NDArray ℝ)) :=
  match biases.filterMap id with
  | [] => some none
  | bias :: others =>
    if ∀ o ∈ others, o.shape.length = bias.shape.length then (combine (fun u v => u + v) bias others).map some else none

/-- layers.py lines 825-924, `make_decoder_mask` without `decoder_causal_attention`, which this network does not pass. -/
def makeDecoderMask (tokens : NDArray Int) (segmentIds : Option (NDArray Int)) : Option (Option (NDArray Int)) :=
  (makeCausalMask tokens).bind fun causal =>
  let nonpad := mapA (fun t => ofBool (t > 0)) tokens
  (makeAttentionMask nonpad nonpad multiply).bind fun padding =>
  match segmentIds with
  | some s => (makeAttentionMask s s equal).bind fun packing => combineMasks [some causal, some padding, some packing]
  | none => combineMasks [some causal, some padding]

/-! ### Attention -/

/-- layers.py lines 108-110: the bias is added to the logits if there is one. -/
noncomputable def addBias (w : NDArray ℝ) : Option (NDArray ℝ) → Option (NDArray ℝ)
  | some b => zipA (fun u v => u + v) w b
  | none => some w

/-- `dot_product_attention`, layers.py lines 52-131, without dropout. -/
noncomputable def dotProductAttention (ex : ℝ → ℝ) (query key value : NDArray ℝ) (bias : Option (NDArray ℝ)) : Option (NDArray ℝ) :=
  (einsum ['b', 'q', 'h', 'd'] ['b', 'k', 'h', 'd'] ['b', 'h', 'q', 'k'] query key).bind fun w =>
  (addBias w bias).bind fun w =>
  einsum ['b', 'h', 'q', 'k'] ['b', 'k', 'h', 'd'] ['b', 'q', 'h', 'd'] (softmaxLast ex w) value

/-- The parameters of `MultiHeadDotProductAttention`. -/
structure Attn where
  query : NDArray ℝ
  key : NDArray ℝ
  value : NDArray ℝ
  out : NDArray ℝ

/-- The variables of the collection `cache` of one attention layer, layers.py lines 225-244. -/
structure Cache where
  key : NDArray ℝ
  value : NDArray ℝ
  index : Nat

/-- layers.py lines 304-318: the mask as a bias, added up with the given bias. -/
noncomputable def attentionBias (mask : Option (NDArray Int)) (bias : Option (NDArray ℝ)) : Option (Option (NDArray ℝ)) :=
  let fromMask := mask.map (mapA fun m => if m > 0 then (0 : ℝ) else -1e10)
  match bias with
  | some b => combineBiases [fromMask, some b]
  | none => some fromMask

/-- layers.py lines 304-346: mask and bias are turned into one bias, attention is applied and the heads are joined again. -/
noncomputable def attendOut (ex : ℝ → ℝ) (p : Attn) (query key value : NDArray ℝ) (mask : Option (NDArray Int)) (bias : Option (NDArray ℝ))
    (features : Nat) : Option (NDArray ℝ) :=
  (attentionBias mask bias).bind fun bias =>
  (dotProductAttention ex query key value bias).bind fun x => denseGeneral [features] [-2, -1] p.out x

/-- `MultiHeadDotProductAttention.__call__` without `decode`, layers.py lines 161-346. -/
noncomputable def attention (ex : ℝ → ℝ) (numHeads headDim : Nat) (p : Attn) (inputsQ inputsKV : NDArray ℝ) (mask : Option (NDArray Int))
    (bias : Option (NDArray ℝ)) : Option (NDArray ℝ) :=
  (denseGeneral [numHeads, headDim] [-1] p.query inputsQ).bind fun query =>
  (denseGeneral [numHeads, headDim] [-1] p.key inputsKV).bind fun key =>
  (denseGeneral [numHeads, headDim] [-1] p.value inputsKV).bind fun value =>
    attendOut ex p query key value mask bias (inputsQ.shape.getLastD 1)

/-- `swap_dims`, layers.py line 231, for the shape of a 4-D key: [batch, length, num_heads, head_dim] to [batch, num_heads, head_dim, length]. -/
def swapDims : List Nat → List Nat
  | [b, n, h, e] => [b, h, e, n]
  | s => s

/-- The cache that the initialisation call leaves behind, layers.py lines 225-244: zeros, for inputs of the maximal length. -/
noncomputable def initCache (numHeads headDim : Nat) (p : Attn) (inputs : NDArray ℝ) : Option Cache :=
  (denseGeneral [numHeads, headDim] [-1] p.key inputs).bind fun key =>
  (denseGeneral [numHeads, headDim] [-1] p.value inputs).map fun value =>
    ⟨zerosA (swapDims key.shape), zerosA (swapDims value.shape), 0⟩

/-- layers.py lines 291-303: the row of the relative position biases for the current index. -/
def sliceBias (cur : Nat) : Option (NDArray ℝ) → Option (Option (NDArray ℝ))
  | some b => (squeezeFirst b).bind fun b => (vectorSlice b [cur]).map some
  | none => some none

/-- `MultiHeadDotProductAttention.__call__` with `decode=True` and an initialised cache, layers.py lines 161-346. -/
noncomputable def attentionStep (ex : ℝ → ℝ) (numHeads headDim : Nat) (p : Attn) (c : Cache) (inputs : NDArray ℝ) (mask : Option (NDArray Int))
    (bias : Option (NDArray ℝ)) : Option (NDArray ℝ × Cache) :=
  (denseGeneral [numHeads, headDim] [-1] p.query inputs).bind fun query =>
  (denseGeneral [numHeads, headDim] [-1] p.key inputs).bind fun key =>
  (denseGeneral [numHeads, headDim] [-1] p.value inputs).bind fun value =>
  match c.key.shape with
  | [batch, heads, dim, length] =>
    if query.shape = [batch, 1, heads, dim] then
      let oneHot := oneHotA c.index length
      (moveAxis key (-3) (-1)).bind fun oneTokenKey =>
      (moveAxis value (-3) (-1)).bind fun oneTokenValue =>
      (zipA (fun u v => u * v) oneTokenKey oneHot).bind fun addKey =>
      (zipA (fun u v => u * v) oneTokenValue oneHot).bind fun addValue =>
      (zipA (fun u v => u + v) c.key addKey).bind fun cachedKey =>
      (zipA (fun u v => u + v) c.value addValue).bind fun cachedValue =>
      (moveAxis cachedKey (-1) (-3)).bind fun key =>
      (moveAxis cachedValue (-1) (-3)).bind fun value =>
      (broadcastTo (mapA (fun j : Int => ofBool (j ≤ c.index)) (arange length)) [batch, 1, 1, length]).bind fun causal =>
      (combineMasks [mask, some causal]).bind fun mask =>
      (sliceBias c.index bias).bind fun bias =>
      (attendOut ex p query key value mask bias (inputs.shape.getLastD 1)).map fun y => (y, ⟨cachedKey, cachedValue, c.index + 1⟩)
    else none
  | _ => none

/-! ### The network -/

/-- The parameters of `MlpBlock`, with its activation functions. -/
structure Mlp where
  first : (ℝ → ℝ) × NDArray ℝ
  others : List ((ℝ → ℝ) × NDArray ℝ)
  wo : NDArray ℝ

/-- One activation of `MlpBlock`, layers.py lines 461-472. -/
noncomputable def activation (mlpDim : Nat) (a : (ℝ → ℝ) × NDArray ℝ) (x : NDArray ℝ) : Option (NDArray ℝ) :=
  (denseGeneral [mlpDim] [-1] a.2 x).map (mapA a.1)

/-- `functools.reduce(operator.mul, activations)`, layers.py line 475. -/
noncomputable def products (mlpDim : Nat) (x : NDArray ℝ) (acc : NDArray ℝ) : List ((ℝ → ℝ) × NDArray ℝ) → Option (NDArray ℝ)
  | [] => some acc
  | a :: rest => (activation mlpDim a x).bind fun y => (zipA (fun u v => u * v) acc y).bind fun acc => products mlpDim x acc rest

/-- `MlpBlock.__call__`, layers.py lines 456-487. -/
noncomputable def mlp (mlpDim : Nat) (p : Mlp) (x : NDArray ℝ) : Option (NDArray ℝ) :=
  (activation mlpDim p.first x).bind fun y =>
  (products mlpDim x y p.others).bind fun y => denseGeneral [x.shape.getLastD 1] [-1] p.wo y

/-- The parameters of `EncoderLayer`. -/
structure EncLayer where
  preAttention : NDArray ℝ
  attention : Attn
  preMlp : NDArray ℝ
  mlp : Mlp

/-- The parameters of `DecoderLayer`. -/
structure DecLayer where
  preSelf : NDArray ℝ
  self : Attn
  preCross : NDArray ℝ
  cross : Attn
  preMlp : NDArray ℝ
  mlp : Mlp

/-- The parameters of the model; `logitsDense` is absent with `logits_via_embedding`. -/
structure Params where
  table : NDArray ℝ
  encRel : NDArray ℝ
  enc : List EncLayer
  encNorm : NDArray ℝ
  decRel : NDArray ℝ
  dec : List DecLayer
  decNorm : NDArray ℝ
  logitsDense : Option (NDArray ℝ)

/-- The fields of `T5Config` in use, network.py lines 26-44, and the epsilon of the layer norms. -/
structure Config where
  numHeads : Nat
  headDim : Nat
  mlpDim : Nat
  vocabSize : Nat
  eps : ℝ

/-- The end of a layer, network.py lines 79-94 and 162-177. -/
noncomputable def mlpBlock (cfg : Config) (scale : NDArray ℝ) (p : Mlp) (x : NDArray ℝ) : Option (NDArray ℝ) :=
  (layerNorm cfg.eps scale x).bind fun y => (mlp cfg.mlpDim p y).bind fun y => zipA (fun u v => u + v) y x

/-- `EncoderLayer.__call__`, network.py lines 53-96. -/
noncomputable def encLayer (ex : ℝ → ℝ) (lg : ℕ → ℝ) (cfg : Config) (rel : NDArray ℝ) (mask : Option (NDArray Int)) (l : EncLayer)
    (inputs : NDArray ℝ) : Option (NDArray ℝ) :=
  if inputs.shape.length = 3 then
    (relativeBias lg rel (inputs.shape.getD 1 0) (inputs.shape.getD 1 0) true).bind fun bias =>
    (layerNorm cfg.eps l.preAttention inputs).bind fun x =>
    (attention ex cfg.numHeads cfg.headDim l.attention x x mask (some bias)).bind fun x =>
    (zipA (fun u v => u + v) x inputs).bind fun x => mlpBlock cfg l.preMlp l.mlp x
  else none

/-- The second half of `DecoderLayer.__call__`, network.py lines 142-179, from the sum after self-attention on. -/
noncomputable def crossAndMlp (ex : ℝ → ℝ) (cfg : Config) (cross : Option (NDArray Int)) (encoded : NDArray ℝ) (l : DecLayer) (x : NDArray ℝ) :
    Option (NDArray ℝ) :=
  (layerNorm cfg.eps l.preCross x).bind fun y =>
  (attention ex cfg.numHeads cfg.headDim l.cross y encoded cross none).bind fun y =>
  (zipA (fun u v => u + v) y x).bind fun y => mlpBlock cfg l.preMlp l.mlp y

/-- `DecoderLayer.__call__` without `decode`, network.py lines 105-179. -/
noncomputable def decLayer (ex : ℝ → ℝ) (lg : ℕ → ℝ) (cfg : Config) (rel : NDArray ℝ) (mask cross : Option (NDArray Int)) (encoded : NDArray ℝ)
    (l : DecLayer) (inputs : NDArray ℝ) : Option (NDArray ℝ) :=
  (relativeBias lg rel (inputs.shape.getD 1 0) (inputs.shape.getD 1 0) false).bind fun bias =>
  (layerNorm cfg.eps l.preSelf inputs).bind fun x =>
  (attention ex cfg.numHeads cfg.headDim l.self x x mask (some bias)).bind fun x =>
  (zipA (fun u v => u + v) x inputs).bind fun x => crossAndMlp ex cfg cross encoded l x

/-- `DecoderLayer.__call__` with `decode=True` and `max_decode_length`, network.py lines 105-179. -/
noncomputable def decLayerStep (ex : ℝ → ℝ) (lg : ℕ → ℝ) (cfg : Config) (rel : NDArray ℝ) (maxLength : Nat) (cross : Option (NDArray Int))
    (encoded : NDArray ℝ) (l : DecLayer) (c : Cache) (inputs : NDArray ℝ) : Option (NDArray ℝ × Cache) :=
  (relativeBias lg rel maxLength maxLength false).bind fun bias =>
  (layerNorm cfg.eps l.preSelf inputs).bind fun x =>
  (attentionStep ex cfg.numHeads cfg.headDim l.self c x none (some bias)).bind fun r =>
  (zipA (fun u v => u + v) r.1 inputs).bind fun x => (crossAndMlp ex cfg cross encoded l x).map fun z => (z, r.2)

/-- The loop over the layers of `Encoder.__call__`, network.py lines 212-216. -/
noncomputable def encLayers (ex : ℝ → ℝ) (lg : ℕ → ℝ) (cfg : Config) (rel : NDArray ℝ) (mask : Option (NDArray Int)) :
    List EncLayer → NDArray ℝ → Option (NDArray ℝ)
  | [], x => some x
  | l :: ls, x => (encLayer ex lg cfg rel mask l x).bind fun y => encLayers ex lg cfg rel mask ls y

/-- `Encoder.__call__`, network.py lines 182-219. -/
noncomputable def encoder (ex : ℝ → ℝ) (lg : ℕ → ℝ) (cfg : Config) (p : Params) (tokens : NDArray Int) (mask : Option (NDArray Int)) :
    Option (NDArray ℝ) :=
  if tokens.shape.length = 2 then
    (embed p.table tokens).bind fun x =>
    (encLayers ex lg cfg p.encRel mask p.enc x).bind fun x => layerNorm cfg.eps p.encNorm x
  else none

/-- The final norm and the logits, network.py lines 272-293. -/
noncomputable def toLogits (cfg : Config) (p : Params) (y : NDArray ℝ) : Option (NDArray ℝ) :=
  (layerNorm cfg.eps p.decNorm y).bind fun y =>
  match p.logitsDense with
  | none => (attendA p.table y).map (mapA fun v => v / √((y.shape.getLastD 1 : Nat) : ℝ))
  | some kernel => denseGeneral [cfg.vocabSize] [-1] kernel y

/-- The loop over the layers of `Decoder.__call__`, network.py lines 259-270. -/
noncomputable def decLayers (ex : ℝ → ℝ) (lg : ℕ → ℝ) (cfg : Config) (rel : NDArray ℝ) (mask cross : Option (NDArray Int)) (encoded : NDArray ℝ) :
    List DecLayer → NDArray ℝ → Option (NDArray ℝ)
  | [], x => some x
  | l :: ls, x => (decLayer ex lg cfg rel mask cross encoded l x).bind fun y => decLayers ex lg cfg rel mask cross encoded ls y

/-- `Decoder.__call__` without `decode`, network.py lines 222-293. -/
noncomputable def decoder (ex : ℝ → ℝ) (lg : ℕ → ℝ) (cfg : Config) (p : Params) (encoded : NDArray ℝ) (tokens : NDArray Int)
    (mask cross : Option (NDArray Int)) : Option (NDArray ℝ) :=
  if tokens.shape.length = 2 then
    (embed p.table tokens).bind fun y =>
    (decLayers ex lg cfg p.decRel mask cross encoded p.dec y).bind fun y => toLogits cfg p y
  else none

/-- The same loop with `decode=True`; every layer has its own cache. -/
noncomputable def decLayersStep (ex : ℝ → ℝ) (lg : ℕ → ℝ) (cfg : Config) (rel : NDArray ℝ) (maxLength : Nat) (cross : Option (NDArray Int))
    (encoded : NDArray ℝ) : List (DecLayer × Cache) → NDArray ℝ → Option (NDArray ℝ × List (DecLayer × Cache))
  | [], x => some (x, [])
  | (l, c) :: rest, x =>
    (decLayerStep ex lg cfg rel maxLength cross encoded l c x).bind fun a =>
    (decLayersStep ex lg cfg rel maxLength cross encoded rest a.1).map fun r => (r.1, (l, a.2) :: r.2)

/-- The arguments of `Transformer.__call__`, each of shape [batch, length]. -/
structure Batch where
  encTokens : NDArray Int
  decInputs : NDArray Int
  decTargets : NDArray Int
  encSeg : Option (NDArray Int)
  decSeg : Option (NDArray Int)

/-- The encoder mask of `Transformer.encode`, network.py lines 325-339. -/
def encoderMask (tokens : NDArray Int) (segmentIds : Option (NDArray Int)) : Option (Option (NDArray Int)) :=
  let nonpad := mapA (fun t => ofBool (t > 0)) tokens
  (makeAttentionMask nonpad nonpad multiply).bind fun mask =>
  match segmentIds with
  | some s => (makeAttentionMask s s equal).bind fun packing => combineMasks [some mask, some packing]
  | none => some (some mask)

/-- `Transformer.encode`, network.py lines 315-343. -/
noncomputable def encode (ex : ℝ → ℝ) (lg : ℕ → ℝ) (cfg : Config) (p : Params) (tokens : NDArray Int) (segmentIds : Option (NDArray Int)) :
    Option (NDArray ℝ) :=
  if tokens.shape.length = 2 then
    (encoderMask tokens segmentIds).bind fun mask => encoder ex lg cfg p tokens mask
  else none

/-- The encoder-decoder mask of `Transformer.decode` with `decode=False`, network.py lines 371-397. -/
def crossMask (b : Batch) : Option (Option (NDArray Int)) :=
  (makeAttentionMask (mapA (fun t => ofBool (t > 0)) b.decTargets) (mapA (fun t => ofBool (t > 0)) b.encTokens) multiply).bind fun cross =>
  match b.encSeg with
  | none => some (some cross)
  | some es =>
    b.decSeg.bind fun ds => (makeAttentionMask ds es equal).bind fun packing => combineMasks [some cross, some packing]

/-- `Transformer.__call__` with `decode=False` and `enable_dropout=False`, network.py lines 345-465. -/
noncomputable def apply (ex : ℝ → ℝ) (lg : ℕ → ℝ) (cfg : Config) (p : Params) (b : Batch) : Option (NDArray ℝ) :=
  (encode ex lg cfg p b.encTokens b.encSeg).bind fun encoded =>
  (makeDecoderMask b.decTargets b.decSeg).bind fun mask =>
  (crossMask b).bind fun cross => decoder ex lg cfg p encoded b.decInputs mask cross

/-- `Transformer.decode` with `decode=True`, network.py lines 345-409: tokens of shape [batch, 1], which are passed as the targets too. -/
noncomputable def step (ex : ℝ → ℝ) (lg : ℕ → ℝ) (cfg : Config) (p : Params) (maxLength : Nat) (encTokens : NDArray Int) (encoded : NDArray ℝ)
    (cs : List (DecLayer × Cache)) (tokens : NDArray Int) : Option (NDArray ℝ × List (DecLayer × Cache)) :=
  (makeAttentionMask (mapA (fun _ => 1) tokens) (mapA (fun t => ofBool (t > 0)) encTokens) multiply).bind fun cross =>
  if tokens.shape.length = 2 then
    (embed p.table tokens).bind fun y =>
    (decLayersStep ex lg cfg p.decRel maxLength (some cross) encoded cs y).bind fun r => (toLogits cfg p r.1).map fun logits => (logits, r.2)
  else none

/-- The caches after the initialisation call, `_compute_kv_cache` (`/repo/t5x/models.py` lines 517-599): the hidden states of all layers have
the shape [batch, length, emb_dim], and only their shape matters. -/
noncomputable def initCaches (cfg : Config) (hidden : NDArray ℝ) : List DecLayer → Option (List (DecLayer × Cache))
  | [] => some []
  | l :: ls => (initCache cfg.numHeads cfg.headDim l.self hidden).bind fun c => (initCaches cfg hidden ls).map fun cs => (l, c) :: cs

/-- Tokens fed one by one, one for every row at a time, `_compute_logits_from_slice` (`/repo/t5x/models.py` lines 484-515) in the decoding loop;
the logits after each, of shape [batch, 1, vocab] (the squeeze of the second axis is left out). -/
noncomputable def feed (ex : ℝ → ℝ) (lg : ℕ → ℝ) (cfg : Config) (p : Params) (maxLength : Nat) (encTokens : NDArray Int) (encoded : NDArray ℝ) :
    List (DecLayer × Cache) → List (NDArray Int) → Option (List (NDArray ℝ))
  | _, [] => some []
  | cs, t :: ts =>
    (step ex lg cfg p maxLength encTokens encoded cs t).bind fun r =>
    (feed ex lg cfg p maxLength encTokens encoded r.2 ts).map fun ys => r.1 :: ys

end Verif.ArrT5
