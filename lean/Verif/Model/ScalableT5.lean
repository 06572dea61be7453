import Verif.Model.T5Decode
/-
The network of `/repo/t5x/examples/scalable_t5/network.py` with the layers of `/repo/t5x/examples/scalable_t5/layers.py`.  It differs from
`/repo/t5x/examples/t5` in three things: every layer has its own table of relative position biases, the kernels of the attention
projections are stored with separate axes for heads and features of a head, and with `scan_layers` the parameters of all layers of a
stack are kept in common arrays with a layer axis (`param_scan_axis`, 1 by default) and the stack is run by `nn.scan`.

Simplifications: those of `Verif.Model.Transformer` and `Verif.Model.T5Decode`; `remat_policy` only says what is recomputed in the
backward pass and is left out; `nn.scan` is taken to run the layer for each index of the layer axis in turn, with the parameters and caches
sliced at that index, handing on the hidden states and stacking the new caches.
-/
namespace Verif.ScalableT5
open Verif.Masks Verif.KVCache
open Verif.Transformer (Vec Kernel Mlp Head Input)

/-- The parameters of `MultiHeadDotProductAttention`: kernels of shape (embed, heads, kv) and (heads, kv, embed), layers.py lines 217-222,
355-361 and 411-423. -/
structure Attn (d h e : Nat) where
  query : Fin d → Fin h → Fin e → ℝ
  key : Fin d → Fin h → Fin e → ℝ
  value : Fin d → Fin h → Fin e → ℝ
  out : Fin h → Fin e → Fin d → ℝ

/-- `EncoderLayer`, network.py lines 56-118; `rel` is the table `rel_embedding` of `relpos_bias`. -/
structure EncLayer (d h e f : Nat) where
  rel : Fin h → ℤ → ℝ
  preAttention : Vec d
  attention : Attn d h e
  preMlp : Vec d
  mlp : Mlp d f

/-- `DecoderLayer`, network.py lines 121-218. -/
structure DecLayer (d h e f : Nat) where
  rel : Fin h → ℤ → ℝ
  preSelf : Vec d
  self : Attn d h e
  preCross : Vec d
  cross : Attn d h e
  preMlp : Vec d
  mlp : Mlp d f

/-- The parameters of the whole model with `scan_layers=False`: the layers `layers_0`, `layers_1`, … of both stacks. -/
structure Net (d h e f V : Nat) where
  eps : ℝ
  table : Kernel V d
  enc : List (EncLayer d h e f)
  encNorm : Vec d
  dec : List (DecLayer d h e f)
  decNorm : Vec d
  head : Head d V

variable {d h e f V : Nat}

/-- `DenseGeneral(features=(num_heads, head_dim), axis=-1)`, layers.py lines 398-430. -/
noncomputable def project (kernel : Fin d → Fin h → Fin e → ℝ) (x : Vec d) (hd : Fin h) (c : Fin e) : ℝ := ∑ i, x i * kernel i hd c

/-- `DenseGeneral(features=embed, axis=(-2, -1))`, layers.py lines 398-430. -/
noncomputable def projectOut (kernel : Fin h → Fin e → Fin d → ℝ) (y : Fin h → Fin e → ℝ) : Vec d :=
  fun i => ∑ hd, ∑ c, y hd c * kernel hd c i

/-- `MultiHeadDotProductAttention.__call__` without `decode`, layers.py lines 178-363, for one query position. -/
noncomputable def attention (ex : ℝ → ℝ) {L : Nat} (p : Attn d h e) (xq : Vec d) (xkv : Fin L → Vec d)
    (mask : Option (Fin L → Int)) (bias : Option (Fin h → Fin L → ℝ)) : Vec d :=
  projectOut p.out fun hd c =>
    ∑ j, Transformer.softmax ex (Transformer.logitsOf (project p.query xq) (fun j => project p.key (xkv j)) mask bias hd) j *
      project p.value (xkv j) hd c

/-- `EncoderLayer.__call__`, network.py lines 62-118. -/
noncomputable def encLayer (ex : ℝ → ℝ) (lg : ℕ → ℝ) (eps : ℝ) {n : Nat} (mask : Option (Mask n n)) (inputs : Fin n → Vec d)
    (l : EncLayer d h e f) : Fin n → Vec d := fun i =>
  let x := fun j => Transformer.layerNorm eps l.preAttention (inputs j)
  let a := attention ex l.attention (x i) x (mask.map fun m => m i) (some (Transformer.relBias lg l.rel true n i))
  Transformer.mlpBlock eps l.preMlp l.mlp fun c => a c + inputs i c

/-- `DecoderLayer.__call__` without `decode`, network.py lines 127-218. -/
noncomputable def decLayer (ex : ℝ → ℝ) (lg : ℕ → ℝ) (eps : ℝ) {n m : Nat} (mask : Option (Mask n n))
    (cross : Option (Mask n m)) (encoded : Fin m → Vec d) (inputs : Fin n → Vec d) (l : DecLayer d h e f) : Fin n → Vec d := fun i =>
  let x := fun j => Transformer.layerNorm eps l.preSelf (inputs j)
  let a := attention ex l.self (x i) x (mask.map fun m => m i) (some (Transformer.relBias lg l.rel false n i))
  let x' : Vec d := fun c => a c + inputs i c
  let b := attention ex l.cross (Transformer.layerNorm eps l.preCross x') encoded (cross.map fun m => m i) none
  Transformer.mlpBlock eps l.preMlp l.mlp fun c => b c + x' c

/-- `Encoder.__call__` with `scan_layers=False`, network.py lines 221-242 and 272-280. -/
noncomputable def encoder (ex : ℝ → ℝ) (lg : ℕ → ℝ) (net : Net d h e f V) {n : Nat} (tokens : Row n) (mask : Option (Mask n n)) :
    Fin n → Vec d := fun i =>
  Transformer.layerNorm net.eps net.encNorm
    (net.enc.foldl (encLayer ex lg net.eps mask) (fun i => Transformer.embed net.table (tokens i)) i)

/-- The logits of one position, network.py lines 366-384. -/
noncomputable def toLogits (eps : ℝ) (table : Kernel V d) (decNorm : Vec d) (head : Head d V) (y : Vec d) : Vec V :=
  let y := Transformer.layerNorm eps decNorm y
  match head with
  | .viaEmbedding => fun v => Transformer.attendEmbedding table y v / √d
  | .denseKernel kernel => Transformer.dense kernel y

/-- `Decoder.__call__` without `decode` and with `scan_layers=False`, network.py lines 283-312 and 353-384. -/
noncomputable def decoder (ex : ℝ → ℝ) (lg : ℕ → ℝ) (net : Net d h e f V) {n m : Nat} (encoded : Fin m → Vec d) (tokens : Row n)
    (mask : Option (Mask n n)) (cross : Option (Mask n m)) : Fin n → Vec V := fun i =>
  toLogits net.eps net.table net.decNorm net.head
    (net.dec.foldl (decLayer ex lg net.eps mask cross encoded) (fun i => Transformer.embed net.table (tokens i)) i)

/-- `Transformer.__call__` with `decode=False` and `enable_dropout=False`, network.py lines 416-558, with any encoder and decoder; the masks are
made as in `/repo/t5x/examples/t5/network.py`. -/
noncomputable def applyWith {n m : Nat} (enc : Row m → Option (Mask m m) → Fin m → Vec d)
    (dec : (Fin m → Vec d) → Row n → Option (Mask n n) → Option (Mask n m) → Fin n → Vec V) (b : Input n m) : Option (Fin n → Vec V) :=
  (makeEncoderMask b.encTokens b.encSeg).bind fun encMask =>
  (makeDecoderMask b.decTargets none b.decSeg).bind fun mask =>
  (makeEncoderDecoderMask b.decTargets b.encTokens b.decSeg b.encSeg).map fun cross =>
    dec (enc b.encTokens (some encMask)) b.decInputs (some mask) (some cross)

/-- The logits of a row, `scan_layers=False`. -/
noncomputable def apply (ex : ℝ → ℝ) (lg : ℕ → ℝ) (net : Net d h e f V) {n m : Nat} (b : Input n m) : Option (Fin n → Vec V) :=
  applyWith (encoder ex lg net) (decoder ex lg net) b

/-! ### Decoding -/

/-- `MultiHeadDotProductAttention.__call__` with `decode=True`, layers.py lines 178-363, for one token. -/
noncomputable def selfStep (ex : ℝ → ℝ) {L : Nat} (p : Attn d h e) (row : Nat → Fin h → Fin L → ℝ) (c : Cache h e L) (x : Vec d) :
    Vec d × Cache h e L :=
  let key : Fin h → Fin e → Fin L → ℝ := fun hd a j => c.key hd a j + project p.key x hd a * oneHot c.index L j
  let value : Fin h → Fin e → Fin L → ℝ := fun hd a j => c.value hd a j + project p.value x hd a * oneHot c.index L j
  let mask : Fin L → Int := fun j => ofBool (j.val ≤ c.index)
  (projectOut p.out fun hd a =>
      ∑ j, Transformer.softmax ex
        (Transformer.logitsOf (project p.query x) (fun j hd a => key hd a j) (some mask) (some (row c.index)) hd) j * value hd a j,
    ⟨key, value, c.index + 1⟩)

/-- `DecoderLayer.__call__` with `decode=True`, network.py lines 127-218, for one token. -/
noncomputable def layerStep (ex : ℝ → ℝ) (lg : ℕ → ℝ) (eps : ℝ) {L m : Nat} (cross : Fin m → Int) (encoded : Fin m → Vec d)
    (l : DecLayer d h e f) (c : Cache h e L) (inputs : Vec d) : Vec d × Cache h e L :=
  let a := selfStep ex l.self (T5Decode.biasRow lg l.rel L) c (Transformer.layerNorm eps l.preSelf inputs)
  let x' : Vec d := fun i => a.1 i + inputs i
  let b := attention ex l.cross (Transformer.layerNorm eps l.preCross x') encoded (some cross) none
  (Transformer.mlpBlock eps l.preMlp l.mlp fun i => b i + x' i, a.2)

/-- The layers of `Decoder.__call__` with `scan_layers=False`, network.py lines 353-364, each with its own cache. -/
noncomputable def stackStep (ex : ℝ → ℝ) (lg : ℕ → ℝ) (eps : ℝ) {L m : Nat} (cross : Fin m → Int)
    (encoded : Fin m → Vec d) : List (DecLayer d h e f × Cache h e L) → Vec d → Vec d × List (DecLayer d h e f × Cache h e L)
  | [], x => (x, [])
  | (l, c) :: rest, x =>
    let a := layerStep ex lg eps cross encoded l c x
    let r := stackStep ex lg eps cross encoded rest a.1
    (r.1, (l, a.2) :: r.2)

/-- network.py lines 460-468: the encoder-decoder mask with ones on the decoder side. -/
def decodeCross {m : Nat} (encTokens : Row m) : Fin m → Int :=
  (makeAttentionMask (fun _ => 1) (fun i => ofBool (encTokens i > 0)) multiply : Mask 1 m) 0

/-- `Transformer.decode` with `decode=True` for one token, network.py lines 443-507, `scan_layers=False`. -/
noncomputable def step (ex : ℝ → ℝ) (lg : ℕ → ℝ) (net : Net d h e f V) {L m : Nat} (encTokens : Row m) (encoded : Fin m → Vec d)
    (cs : List (DecLayer d h e f × Cache h e L)) (token : Int) : Vec V × List (DecLayer d h e f × Cache h e L) :=
  let r := stackStep ex lg net.eps (decodeCross encTokens) encoded cs (Transformer.embed net.table token)
  (toLogits net.eps net.table net.decNorm net.head r.1, r.2)

/-- The caches after the initialisation call. -/
def emptyCaches (net : Net d h e f V) (L : Nat) : List (DecLayer d h e f × Cache h e L) :=
  net.dec.map fun l => (l, Cache.init h e L)

/-- `EncoderDecoderModel.predict_batch_with_aux`, `/repo/t5x/models.py` lines 610-674, as far as the model is concerned. -/
noncomputable def predict (ex : ℝ → ℝ) (lg : ℕ → ℝ) (net : Net d h e f V) {m : Nat} (L : Nat) (encTokens : Row m)
    (tokens : List Int) : Option (List (Vec V)) :=
  (makeEncoderMask encTokens none).map fun mask =>
    feed (step ex lg net encTokens (encoder ex lg net encTokens (some mask))) (emptyCaches net L) tokens

/-- Prediction by sampling, models.py lines 646-738, for all rows of a batch. -/
noncomputable def predictBatch (ex : ℝ → ℝ) (lg : ℕ → ℝ) (net : Net d h e f V) {m n : Nat} (enc : Nat → Row m)
    (pick : Nat → Nat → Vec V → Fin V) (eos : Int) (fuel : Nat) (prompts : List (Row n × Option Nat)) : List (List Int × ℝ) :=
  Score.sample (fun b => step ex lg net (enc b) (encoder ex lg net (enc b) (makeEncoderMask (enc b) none))) pick eos fuel
    (prompts.map fun r => ⟨List.ofFn r.1, none, r.2⟩) (fun _ => emptyCaches net n)

/-! ### Scanned layers -/

/-- The arrays of an attention block for N layers: the layer axis is axis 1 of every array. -/
structure AttnStack (N d h e : Nat) where
  query : Fin d → Fin N → Fin h → Fin e → ℝ
  key : Fin d → Fin N → Fin h → Fin e → ℝ
  value : Fin d → Fin N → Fin h → Fin e → ℝ
  out : Fin h → Fin N → Fin e → Fin d → ℝ

/-- The arrays of an MLP block for N layers; the activation functions are the same for all layers (`cfg.mlp_activations`). -/
structure MlpStack (N d f : Nat) where
  first : (ℝ → ℝ) × (Fin d → Fin N → Fin f → ℝ)
  others : List ((ℝ → ℝ) × (Fin d → Fin N → Fin f → ℝ))
  wo : Fin f → Fin N → Fin d → ℝ

/-- The arrays of the scanned module `encoder`, network.py lines 255-271. -/
structure EncStack (N d h e f : Nat) where
  rel : Fin h → Fin N → ℤ → ℝ
  preAttention : Fin d → Fin N → ℝ
  attention : AttnStack N d h e
  preMlp : Fin d → Fin N → ℝ
  mlp : MlpStack N d f

/-- The arrays of the scanned module `decoder`, network.py lines 324-352. -/
structure DecStack (N d h e f : Nat) where
  rel : Fin h → Fin N → ℤ → ℝ
  preSelf : Fin d → Fin N → ℝ
  self : AttnStack N d h e
  preCross : Fin d → Fin N → ℝ
  cross : AttnStack N d h e
  preMlp : Fin d → Fin N → ℝ
  mlp : MlpStack N d f

/-- `ScanIn(cfg.param_scan_axis)`: the arrays at one index of the layer axis. -/
def AttnStack.slice {N : Nat} (s : AttnStack N d h e) (i : Fin N) : Attn d h e :=
  ⟨fun a b c => s.query a i b c, fun a b c => s.key a i b c, fun a b c => s.value a i b c, fun a b c => s.out a i b c⟩

/-- The same for an MLP block. -/
def MlpStack.slice {N : Nat} (s : MlpStack N d f) (i : Fin N) : Mlp d f :=
  ⟨(s.first.1, fun a b => s.first.2 a i b), s.others.map fun o => (o.1, fun a b => o.2 a i b), fun a b => s.wo a i b⟩

/-- The same for an encoder layer. -/
def EncStack.slice {N : Nat} (s : EncStack N d h e f) (i : Fin N) : EncLayer d h e f :=
  ⟨fun a b => s.rel a i b, fun a => s.preAttention a i, s.attention.slice i, fun a => s.preMlp a i, s.mlp.slice i⟩

/-- The same for a decoder layer. -/
def DecStack.slice {N : Nat} (s : DecStack N d h e f) (i : Fin N) : DecLayer d h e f :=
  ⟨fun a b => s.rel a i b, fun a => s.preSelf a i, s.self.slice i, fun a => s.preCross a i, s.cross.slice i, fun a => s.preMlp a i,
    s.mlp.slice i⟩

/-- The parameters of the whole model with `scan_layers=True`. -/
structure Scanned (N M d h e f V : Nat) where
  eps : ℝ
  table : Kernel V d
  enc : EncStack N d h e f
  encNorm : Vec d
  dec : DecStack M d h e f
  decNorm : Vec d
  head : Head d V

/-- `nn.scan` over `length` layers: the hidden states before layer i (i = N: after the last). -/
def carry {X : Type} {N : Nat} (layer : Fin N → X → X) (x : X) : Nat → X
  | 0 => x
  | i + 1 => if hi : i < N then layer ⟨i, hi⟩ (carry layer x i) else carry layer x i

variable {N M : Nat}

/-- `Encoder.__call__` with `scan_layers=True`, network.py lines 255-271 and 279-280. -/
noncomputable def scanEncoder (ex : ℝ → ℝ) (lg : ℕ → ℝ) (net : Scanned N M d h e f V) {n : Nat} (tokens : Row n) (mask : Option (Mask n n)) :
    Fin n → Vec d := fun i =>
  Transformer.layerNorm net.eps net.encNorm
    (carry (fun k x => encLayer ex lg net.eps mask x (net.enc.slice k)) (fun i => Transformer.embed net.table (tokens i)) N i)

/-- `Decoder.__call__` without `decode` and with `scan_layers=True`, network.py lines 324-352 and 366-384. -/
noncomputable def scanDecoder (ex : ℝ → ℝ) (lg : ℕ → ℝ) (net : Scanned N M d h e f V) {n m : Nat} (encoded : Fin m → Vec d) (tokens : Row n)
    (mask : Option (Mask n n)) (cross : Option (Mask n m)) : Fin n → Vec V := fun i =>
  toLogits net.eps net.table net.decNorm net.head
    (carry (fun k x => decLayer ex lg net.eps mask cross encoded x (net.dec.slice k)) (fun i => Transformer.embed net.table (tokens i)) M i)

/-- The logits of a row, `scan_layers=True`. -/
noncomputable def scanApply (ex : ℝ → ℝ) (lg : ℕ → ℝ) (net : Scanned N M d h e f V) {n m : Nat} (b : Input n m) :
    Option (Fin n → Vec V) :=
  applyWith (scanEncoder ex lg net) (scanDecoder ex lg net) b

/-- `Transformer.decode` with `decode=True` for one token, `scan_layers=True`: the caches of all layers are stacked on axis 0 (`cache_spec`). -/
noncomputable def scanStep (ex : ℝ → ℝ) (lg : ℕ → ℝ) (net : Scanned N M d h e f V) {L m : Nat} (encTokens : Row m)
    (encoded : Fin m → Vec d) (cs : Fin M → Cache h e L) (token : Int) : Vec V × (Fin M → Cache h e L) :=
  let x := carry (fun k x => (layerStep ex lg net.eps (decodeCross encTokens) encoded (net.dec.slice k) (cs k) x).1)
    (Transformer.embed net.table token)
  (toLogits net.eps net.table net.decNorm net.head (x M),
    fun k => (layerStep ex lg net.eps (decodeCross encTokens) encoded (net.dec.slice k) (cs k) (x k)).2)

/-- `predict_batch_with_aux` with `scan_layers=True`. -/
noncomputable def scanPredict (ex : ℝ → ℝ) (lg : ℕ → ℝ) (net : Scanned N M d h e f V) {m : Nat} (L : Nat) (encTokens : Row m)
    (tokens : List Int) : Option (List (Vec V)) :=
  (makeEncoderMask encTokens none).map fun mask =>
    feed (scanStep ex lg net encTokens (scanEncoder ex lg net encTokens (some mask))) (fun _ => Cache.init h e L) tokens

end Verif.ScalableT5
