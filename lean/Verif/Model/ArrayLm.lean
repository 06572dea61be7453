import Verif.Model.ArrayT5
/-
The decoder-only network of `/repo/t5x/examples/decoder_only/network.py` and `layers.py` as it is written: on whole arrays with a batch
dimension.  Unlike in `/repo/t5x/examples/t5/layers.py`, the cache index may be a vector with one entry per row, the caches can be filled
with a whole prompt at once, the biases for the current index are found by an einsum with one-hot rows, and the relative position biases
are kept in the cache.

`DenseGeneral`, `MlpBlock`, `Embed`, `LayerNorm`, `dot_product_attention`, `make_attention_mask`, `make_causal_mask`, `combine_masks` and
`combine_biases` are the same text as in `t5/layers.py`: they are those of `Verif.Model.ArrayT5`.

Simplifications: those of `Verif.Model.ArrayT5`.
-/
namespace Verif.ArrLm
open Verif.ND Verif.Arr Verif.Masks Verif.ArrT5

/-! ### Operations of jax.numpy -/

/-- The size of a label of `jnp.einsum`: that of the operand that has it; of two sizes one may be 1. -/
def labelSize (la lb : List (Char × Nat)) (l : Char) : Option Nat :=
  match la.lookup l, lb.lookup l with
  | some m, some n => bdim m n
  | some m, none => some m
  | none, some n => some n
  | none, none => none

/-- `jnp.einsum('la,lb->lo', a, b)` as in `Verif.Arr.einsum`, with dimensions of size 1 broadcast. -/
noncomputable def einsumB (la lb lo : List Char) (a b : NDArray ℝ) : Option (NDArray ℝ) :=
  let size := labelSize (la.zip a.shape) (lb.zip b.shape)
  let summed := (la ++ lb).dedup.filter fun l => l ∉ lo
  if la.length = a.shape.length ∧ lb.length = b.shape.length ∧ ∀ l ∈ la ++ lb, (size l).isSome then
    some ⟨lo.map fun l => (size l).getD 0, fun i => sumBox (summed.map fun l => (size l).getD 0) fun c =>
      let env := lo.zip i ++ summed.zip c
      a.get (List.zipWith (fun l n => if n = 1 then 0 else labelOf env l) la a.shape) *
        b.get (List.zipWith (fun l n => if n = 1 then 0 else labelOf env l) lb b.shape)⟩
  else none

/-- `jax.nn.one_hot(x, n)` and `flax.training.common_utils.onehot(x, num_classes=n)`: a new last axis. -/
def oneHot (x : NDArray Nat) (n : Nat) : Option (NDArray ℝ) :=
  (expandDims x (-1)).bind fun x => zipA (fun (t : Nat) (v : Int) => if v = t then (1 : ℝ) else 0) x (arange n)

/-- `jnp.reshape(x, (-1,) + (1,) * k)`. -/
def reshapeLead {α : Type} (x : NDArray α) (k : Nat) : Option (NDArray α) := reshape x (x.shape.prod :: List.replicate k 1)

/-- `lax.broadcasted_iota(jnp.int32, shape, len(shape) - 1)`. -/
def iotaLast (shape : List Nat) : NDArray Nat := ⟨shape, fun i => i.getLastD 0⟩

/-- `a[:, 1:]` of a 2-D array. -/
def fromSecond {α : Type} (a : NDArray α) : Option (NDArray α) :=
  match a.shape with
  | [b, n] => some ⟨[b, n - 1], fun i => a.get [i.getD 0 0, i.getD 1 0 + 1]⟩
  | _ => none

/-- `jnp.sum(a, axis=-1)`. -/
def sumLast (a : NDArray Nat) : NDArray Nat :=
  ⟨a.shape.dropLast, fun i => ∑ k ∈ Finset.range (a.shape.getLastD 0), a.get (i ++ [k])⟩

/-! ### Attention with caches -/

/-- The variables of the collection `cache` of one attention layer, layers.py lines 401-422; `index` is a scalar or has one entry per row. -/
structure Cache where
  key : NDArray ℝ
  value : NDArray ℝ
  index : NDArray Nat

/-- What `update_cache_prefill` and `update_cache_decode` return. -/
structure Updated where
  key : NDArray ℝ
  value : NDArray ℝ
  cur : NDArray Nat
  cache : Cache

/-- `update_cache_prefill`, layers.py lines 157-236. -/
noncomputable def updateCachePrefill (c : Cache) (key value : NDArray ℝ) (lengths : NDArray Nat) : Option Updated :=
  (moveAxis key (-3) (-1)).bind fun keyCached =>
  (moveAxis value (-3) (-1)).bind fun valueCached =>
  (reshapeLead lengths (c.key.shape.length - 1)).bind fun batchFirst =>
  (zipA (fun j i : Nat => if j < i then (1 : ℝ) else 0) (iotaLast c.key.shape) batchFirst).bind fun keyMask =>
  (zipA (fun j i : Nat => if j < i then (1 : ℝ) else 0) (iotaLast c.value.shape) batchFirst).bind fun valueMask =>
  (zipA (fun u v => u * v) keyCached keyMask).bind fun k =>
  (zipA (fun u v => u * v) valueCached valueMask).map fun v => ⟨key, value, lengths, ⟨k, v, lengths⟩⟩

/-- `update_cache_decode`, layers.py lines 238-317. -/
noncomputable def updateCacheDecode (c : Cache) (key value : NDArray ℝ) : Option Updated :=
  (reshapeLead c.index 0).bind fun cur =>
  (oneHot cur (c.key.shape.getLastD 1)).bind fun hot =>
  (moveAxis key (-3) (-1)).bind fun oneTokenKey =>
  (moveAxis value (-3) (-1)).bind fun oneTokenValue =>
  (expandDims hot 1).bind fun hot =>
  (expandDims hot 1).bind fun hot =>
  (zipA (fun u v => u * v) oneTokenKey hot).bind fun addKey =>
  (zipA (fun u v => u * v) oneTokenValue hot).bind fun addValue =>
  (zipA (fun u v => u + v) c.key addKey).bind fun cachedKey =>
  (zipA (fun u v => u + v) c.value addValue).bind fun cachedValue =>
  (moveAxis cachedKey (-1) (-3)).bind fun key =>
  (moveAxis cachedValue (-1) (-3)).map fun value => ⟨key, value, cur, ⟨cachedKey, cachedValue, mapA (fun i => i + 1) c.index⟩⟩

/-- layers.py lines 493-511: the rows of the biases for the current indices. -/
noncomputable def pickBias (cur : NDArray Nat) (length : Nat) : Option (NDArray ℝ) → Option (Option (NDArray ℝ))
  | some b =>
    (oneHot cur length).bind fun hot =>
    (einsumB ['b', 'q'] ['b', 'h', 'q', 'k'] ['b', 'h', 'k'] hot b).bind fun b => (expandDims b 2).map some
  | none => some none

/-- `MultiHeadDotProductAttention.__call__` with `decode=True` and an initialised cache, layers.py lines 320-564. -/
noncomputable def attentionStep (ex : ℝ → ℝ) (numHeads headDim : Nat) (p : Attn) (c : Cache) (inputs : NDArray ℝ) (mask : Option (NDArray Int))
    (bias : Option (NDArray ℝ)) : Option (NDArray ℝ × Cache) :=
  (denseGeneral [numHeads, headDim] [-1] p.query inputs).bind fun query =>
  (denseGeneral [numHeads, headDim] [-1] p.key inputs).bind fun key =>
  (denseGeneral [numHeads, headDim] [-1] p.value inputs).bind fun value =>
  match c.key.shape with
  | [batch, heads, dim, length] =>
    if query.shape = [batch, 1, heads, dim] then
      (updateCacheDecode c key value).bind fun u =>
      (broadcastTo (arange length) [batch, 1, 1, length]).bind fun positions =>
      (reshapeLead u.cur 3).bind fun cur =>
      (zipA (fun (j : Int) (i : Nat) => ofBool (j ≤ i)) positions cur).bind fun causal =>
      (combineMasks [mask, some causal]).bind fun mask =>
      (pickBias u.cur length bias).bind fun bias =>
      (attendOut ex p query u.key u.value mask bias (inputs.shape.getLastD 1)).map fun y => (y, u.cache)
    else none
  | _ => none

/-- `MultiHeadDotProductAttention.__call__` with `prefill=True`, `prefill_lengths` and an initialised cache, layers.py lines 320-564. -/
noncomputable def attentionPrefill (ex : ℝ → ℝ) (numHeads headDim : Nat) (p : Attn) (c : Cache) (lengths : NDArray Nat) (inputs : NDArray ℝ)
    (mask : Option (NDArray Int)) (bias : Option (NDArray ℝ)) : Option (NDArray ℝ × Cache) :=
  (denseGeneral [numHeads, headDim] [-1] p.query inputs).bind fun query =>
  (denseGeneral [numHeads, headDim] [-1] p.key inputs).bind fun key =>
  (denseGeneral [numHeads, headDim] [-1] p.value inputs).bind fun value =>
  (updateCachePrefill c key value lengths).bind fun u =>
  (attendOut ex p query u.key u.value mask bias (inputs.shape.getLastD 1)).map fun y => (y, u.cache)

/-- The same with `decode=True` and no cache: caches of zeros are made, layers.py lines 401-422, and attention is as without `decode`. -/
noncomputable def attentionInit (ex : ℝ → ℝ) (numHeads headDim : Nat) (p : Attn) (inputs : NDArray ℝ) (mask : Option (NDArray Int))
    (bias : Option (NDArray ℝ)) : Option (NDArray ℝ × Cache) :=
  (denseGeneral [numHeads, headDim] [-1] p.key inputs).bind fun key =>
  (denseGeneral [numHeads, headDim] [-1] p.value inputs).bind fun value =>
  (attention ex numHeads headDim p inputs inputs mask bias).map fun y =>
    (y, ⟨zerosA (swapDims key.shape), zerosA (swapDims value.shape), ⟨[], fun _ => 0⟩⟩)

/-- `RelativePositionBiases.__call__` with `decode=True`, layers.py lines 846-933: the biases in the cache, if there are any; otherwise they
are computed and stored. -/
noncomputable def cachedBias (lg : ℕ → ℝ) (rel : NDArray ℝ) (numHeads length : Nat) (cached : Option (NDArray ℝ)) : Option (NDArray ℝ) :=
  match cached with
  | some b => if b.shape = [1, numHeads, length, length] then some b else none
  | none => relativeBias lg rel length length false

/-! ### The network -/

/-- The parameters of the model; a layer has the same parts as an encoder layer of T5. -/
structure Params where
  table : NDArray ℝ
  rel : NDArray ℝ
  layers : List EncLayer
  norm : NDArray ℝ
  logitsDense : Option (NDArray ℝ)

/-- The variables of the collection `cache`: those of every layer, and the biases. -/
structure Vars where
  layers : List (EncLayer × Cache)
  bias : Option (NDArray ℝ)

/-- The end of `DecoderLayer.__call__`, network.py lines 97-118, after self-attention. -/
noncomputable def finish (cfg : Config) (l : EncLayer) (inputs x : NDArray ℝ) : Option (NDArray ℝ) :=
  (zipA (fun u v => u + v) x inputs).bind fun x => mlpBlock cfg l.preMlp l.mlp x

/-- `DecoderLayer.__call__` without `decode` and `prefill`, network.py lines 49-118. -/
noncomputable def layer (ex : ℝ → ℝ) (lg : ℕ → ℝ) (cfg : Config) (rel : NDArray ℝ) (mask : Option (NDArray Int)) (l : EncLayer)
    (inputs : NDArray ℝ) : Option (NDArray ℝ) :=
  (relativeBias lg rel (inputs.shape.getD 1 0) (inputs.shape.getD 1 0) false).bind fun bias =>
  (layerNorm cfg.eps l.preAttention inputs).bind fun x =>
  (attention ex cfg.numHeads cfg.headDim l.attention x x mask (some bias)).bind fun x => finish cfg l inputs x

/-- `DecoderLayer.__call__` with `prefill=True`. -/
noncomputable def layerPrefill (ex : ℝ → ℝ) (lg : ℕ → ℝ) (cfg : Config) (rel : NDArray ℝ) (mask : Option (NDArray Int)) (lengths : NDArray Nat)
    (l : EncLayer) (c : Cache) (inputs : NDArray ℝ) : Option (NDArray ℝ × Cache) :=
  (relativeBias lg rel (inputs.shape.getD 1 0) (inputs.shape.getD 1 0) false).bind fun bias =>
  (layerNorm cfg.eps l.preAttention inputs).bind fun x =>
  (attentionPrefill ex cfg.numHeads cfg.headDim l.attention c lengths x mask (some bias)).bind fun r =>
  (finish cfg l inputs r.1).map fun y => (y, r.2)

/-- `DecoderLayer.__call__` with `decode=True` and without `max_decode_length`, in the call that makes the caches. -/
noncomputable def layerInit (ex : ℝ → ℝ) (lg : ℕ → ℝ) (cfg : Config) (rel : NDArray ℝ) (cached : Option (NDArray ℝ)) (l : EncLayer)
    (inputs : NDArray ℝ) : Option (NDArray ℝ × Cache × NDArray ℝ) :=
  (cachedBias lg rel cfg.numHeads (inputs.shape.getD 1 0) cached).bind fun bias =>
  (layerNorm cfg.eps l.preAttention inputs).bind fun x =>
  (attentionInit ex cfg.numHeads cfg.headDim l.attention x none (some bias)).bind fun r =>
  (finish cfg l inputs r.1).map fun y => (y, r.2, bias)

/-- `DecoderLayer.__call__` with `decode=True` and `max_decode_length`. -/
noncomputable def layerStep (ex : ℝ → ℝ) (lg : ℕ → ℝ) (cfg : Config) (rel : NDArray ℝ) (maxLength : Nat) (cached : Option (NDArray ℝ)) (l : EncLayer)
    (c : Cache) (inputs : NDArray ℝ) : Option (NDArray ℝ × Cache × NDArray ℝ) :=
  (cachedBias lg rel cfg.numHeads maxLength cached).bind fun bias =>
  (layerNorm cfg.eps l.preAttention inputs).bind fun x =>
  (attentionStep ex cfg.numHeads cfg.headDim l.attention c x none (some bias)).bind fun r =>
  (finish cfg l inputs r.1).map fun y => (y, r.2, bias)

/-- The loop over the layers of `Decoder.__call__`, network.py lines 211-223. -/
noncomputable def layers (ex : ℝ → ℝ) (lg : ℕ → ℝ) (cfg : Config) (rel : NDArray ℝ) (mask : Option (NDArray Int)) :
    List EncLayer → NDArray ℝ → Option (NDArray ℝ)
  | [], x => some x
  | l :: ls, x => (layer ex lg cfg rel mask l x).bind fun y => layers ex lg cfg rel mask ls y

/-- The same loop with `prefill=True`. -/
noncomputable def layersPrefill (ex : ℝ → ℝ) (lg : ℕ → ℝ) (cfg : Config) (rel : NDArray ℝ) (mask : Option (NDArray Int)) (lengths : NDArray Nat) :
    List (EncLayer × Cache) → NDArray ℝ → Option (NDArray ℝ × List (EncLayer × Cache))
  | [], x => some (x, [])
  | (l, c) :: rest, x =>
    (layerPrefill ex lg cfg rel mask lengths l c x).bind fun a =>
    (layersPrefill ex lg cfg rel mask lengths rest a.1).map fun r => (r.1, (l, a.2) :: r.2)

/-- The same loop in the call that makes the caches; all layers share the module of the biases. -/
noncomputable def layersInit (ex : ℝ → ℝ) (lg : ℕ → ℝ) (cfg : Config) (rel : NDArray ℝ) :
    Option (NDArray ℝ) → List EncLayer → NDArray ℝ → Option (NDArray ℝ × Vars)
  | cached, [], x => some (x, ⟨[], cached⟩)
  | cached, l :: ls, x =>
    (layerInit ex lg cfg rel cached l x).bind fun a =>
    (layersInit ex lg cfg rel (some a.2.2) ls a.1).map fun r => (r.1, ⟨(l, a.2.1) :: r.2.layers, r.2.bias⟩)

/-- The same loop with `decode=True`. -/
noncomputable def layersStep (ex : ℝ → ℝ) (lg : ℕ → ℝ) (cfg : Config) (rel : NDArray ℝ) (maxLength : Nat) :
    Option (NDArray ℝ) → List (EncLayer × Cache) → NDArray ℝ → Option (NDArray ℝ × Vars)
  | cached, [], x => some (x, ⟨[], cached⟩)
  | cached, (l, c) :: rest, x =>
    (layerStep ex lg cfg rel maxLength cached l c x).bind fun a =>
    (layersStep ex lg cfg rel maxLength (some a.2.2) rest a.1).map fun r => (r.1, ⟨(l, a.2.1) :: r.2.layers, r.2.bias⟩)

/-- The final norm and the logits, network.py lines 225-244. -/
noncomputable def toLogits (cfg : Config) (p : Params) (y : NDArray ℝ) : Option (NDArray ℝ) :=
  (layerNorm cfg.eps p.norm y).bind fun y =>
  match p.logitsDense with
  | none => (attendA p.table y).map (mapA fun v => v / √((y.shape.getLastD 1 : Nat) : ℝ))
  | some kernel => denseGeneral [cfg.vocabSize] [-1] kernel y

/-- layers.py lines 1149-1163: the causal mask, and within the marked positions also forward. -/
def prefixMask (causalMask : NDArray Int) : Option (NDArray Int) → Option (NDArray Int)
  | some c => (makeAttentionMask c c logicalAnd).bind fun inputs => zipA logicalOr causalMask inputs
  | none => some causalMask

/-- layers.py lines 1077-1180, `make_decoder_mask`. -/
def makeDecoderMask (tokens : NDArray Int) (causalAttention segmentIds : Option (NDArray Int)) : Option (Option (NDArray Int)) :=
  (makeCausalMask tokens).bind fun causal =>
  (prefixMask causal causalAttention).bind fun causal =>
  let nonpad := mapA (fun t => ofBool (t > 0)) tokens
  (makeAttentionMask nonpad nonpad multiply).bind fun padding =>
  match segmentIds with
  | some s => (makeAttentionMask s s equal).bind fun packing => combineMasks [some causal, some padding, some packing]
  | none => combineMasks [some causal, some padding]

/-- The arguments of `Decoder.__call__`, each of shape [batch, length]. -/
structure Batch where
  inputs : NDArray Int
  targets : NDArray Int
  causal : Option (NDArray Int)
  seg : Option (NDArray Int)

/-- `Decoder.__call__` with `decode=False` and `enable_dropout=False`, network.py lines 127-244. -/
noncomputable def apply (ex : ℝ → ℝ) (lg : ℕ → ℝ) (cfg : Config) (p : Params) (b : Batch) : Option (NDArray ℝ) :=
  if b.inputs.shape.length = 2 then
    (makeDecoderMask b.targets b.causal b.seg).bind fun mask =>
    (embed p.table b.inputs).bind fun y =>
    (layers ex lg cfg p.rel mask p.layers y).bind fun y => toLogits cfg p y
  else none

/-- `Decoder.__call__` with `prefill=True`: the caches; the logits are not used. -/
noncomputable def prefill (ex : ℝ → ℝ) (lg : ℕ → ℝ) (cfg : Config) (p : Params) (vars : Vars) (b : Batch) (lengths : NDArray Nat) :
    Option Vars :=
  if b.inputs.shape.length = 2 then
    (makeDecoderMask b.targets b.causal b.seg).bind fun mask =>
    (embed p.table b.inputs).bind fun y =>
    (layersPrefill ex lg cfg p.rel mask lengths vars.layers y).bind fun r =>
    (toLogits cfg p r.1).map fun _ => ⟨r.2, vars.bias⟩
  else none

/-- `Decoder.__call__` with `decode=True` and without caches. -/
noncomputable def init (ex : ℝ → ℝ) (lg : ℕ → ℝ) (cfg : Config) (p : Params) (tokens : NDArray Int) : Option Vars :=
  if tokens.shape.length = 2 then
    (embed p.table tokens).bind fun y =>
    (layersInit ex lg cfg p.rel none p.layers y).bind fun r => (toLogits cfg p r.1).map fun _ => r.2
  else none

/-- `Decoder.__call__` with `decode=True` and caches, as `_compute_logits_from_slice` calls it (`/repo/t5x/models.py` lines 920-946): tokens of
shape [batch, 1], logits of shape [batch, 1, vocab] (the squeeze of the second axis is left out). -/
noncomputable def step (ex : ℝ → ℝ) (lg : ℕ → ℝ) (cfg : Config) (p : Params) (maxLength : Nat) (vars : Vars) (tokens : NDArray Int) :
    Option (NDArray ℝ × Vars) :=
  if tokens.shape.length = 2 then
    (embed p.table tokens).bind fun y =>
    (layersStep ex lg cfg p.rel maxLength vars.bias vars.layers y).bind fun r => (toLogits cfg p r.1).map fun logits => (logits, r.2)
  else none

/-- `_compute_kv_cache`, models.py lines 1006-1083: the caches and the initial index. -/
noncomputable def computeKvCache (ex : ℝ → ℝ) (lg : ℕ → ℝ) (cfg : Config) (p : Params) (bidirectional : Bool) (inputs causal : NDArray Int) :
    Option (Vars × NDArray Nat) :=
  (fromSecond inputs).bind fun rest =>
  let lengths := sumLast (mapA (fun t : Int => if t ≠ 0 then 1 else 0) rest)
  (init ex lg cfg p (mapA (fun _ => 1) inputs)).bind fun vars =>
  (prefill ex lg cfg p vars ⟨inputs, causal, if bidirectional then some causal else none, none⟩ lengths).map fun vars => (vars, lengths)

/-- `predict_batch_with_aux`, models.py lines 1186-1195, up to the decoding loop: the tokens given to it, the caches and the initial index. -/
noncomputable def predict (ex : ℝ → ℝ) (lg : ℕ → ℝ) (cfg : Config) (p : Params) (bidirectional : Bool) (decoderInputs causal : NDArray Int) :
    Option (NDArray Int × Vars × NDArray Nat) :=
  (zipA (fun u v : Int => u * v) decoderInputs causal).bind fun inputs =>
  (computeKvCache ex lg cfg p bidirectional inputs causal).map fun r => (inputs, r)

/-- Tokens fed one by one, one for every row at a time; the logits after each. -/
noncomputable def feed (ex : ℝ → ℝ) (lg : ℕ → ℝ) (cfg : Config) (p : Params) (maxLength : Nat) : Vars → List (NDArray Int) →
    Option (List (NDArray ℝ))
  | _, [] => some []
  | vars, t :: ts =>
    (step ex lg cfg p maxLength vars t).bind fun r => (feed ex lg cfg p maxLength r.2 ts).map fun ys => r.1 :: ys

end Verif.ArrLm
