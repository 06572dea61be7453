import Verif.Model.PackedLoss
import Mathlib.Tactic.DeriveFintype
/-
The networks of `/repo/t5x/examples/t5/network.py` and `/repo/t5x/examples/decoder_only/network.py` in training, that is with dropout, and
the training loss of `BaseTransformerModel.loss_fn` (`/repo/t5x/models.py` lines 284-337) with a `dropout_rng`.

Simplifications: those of `Verif.Model.Transformer`, `Verif.Model.DecoderOnly` and `Verif.Model.PackedLoss`, except that there is dropout.  The
random bits are given: one for every entry of the arrays that `jax.random.bernoulli` makes (`Site`, `LmSite`); the arrays have an axis for
the batch, so every row has its own bits.  How `flax` derives the keys of the different places from `dropout_rng` is left out.
-/
namespace Verif.Dropout
open Verif.Masks Verif.Transformer

/-- `flax.linen.Dropout` for one entry, with the bit that decides whether it is kept: `lax.select(mask, inputs / keep_prob, 0)`. -/
noncomputable def dropout (deterministic : Bool) (rate : ℝ) (keep : Bool) (x : ℝ) : ℝ :=
  if rate = 0 ∨ deterministic = true then x else if rate = 1 then 0 else if keep then x / (1 - rate) else 0

/-- The factor of an attention weight, t5/layers.py lines 114-127 (decoder_only/layers.py lines 116-130). -/
noncomputable def multiplier (deterministic : Bool) (rate : ℝ) (keep : Bool) : ℝ :=
  if deterministic = false ∧ rate > 0 then (if keep then 1 else 0) / (1 - rate) else 1

/-- `MultiHeadDotProductAttention.__call__` without `decode`, t5/layers.py lines 161-346, for one query position.  `factor` are the factors of
the attention weights: `dropout_shape[-2] = 1`, so they are the same for every query. -/
noncomputable def attention (ex : ℝ → ℝ) {d h e L : Nat} (p : Attn d h e) (factor : Fin h → Fin L → ℝ) (xq : Vec d) (xkv : Fin L → Vec d)
    (mask : Option (Fin L → Int)) (bias : Option (Fin h → Fin L → ℝ)) : Vec d :=
  projectOut p.out fun hd c =>
    ∑ j, softmax ex (logitsOf (project p.query xq) (fun j => project p.key (xkv j)) mask bias hd) j * factor hd j * project p.value (xkv j) hd c

/-- `MlpBlock.__call__`, t5/layers.py lines 456-487, with the dropout of the intermediate layer (lines 476-478). -/
noncomputable def mlp {d f : Nat} (p : Mlp d f) (drop : Fin f → ℝ → ℝ) (x : Vec d) : Vec d :=
  dense p.wo fun j => drop j (p.others.foldl (fun (acc : Vec f) b => fun j => acc j * activation b x j) (activation p.first x) j)

/-- The residual MLP block at the end of a layer, t5/network.py lines 79-94 and 162-177. -/
noncomputable def mlpBlock {d f : Nat} (eps : ℝ) (scale : Vec d) (p : Mlp d f) (inner : Fin f → ℝ → ℝ) (drop : Fin d → ℝ → ℝ) (x : Vec d) : Vec d :=
  fun c => drop c (mlp p inner (layerNorm eps scale x) c) + x c

/-- A layer with self-attention and an MLP: `EncoderLayer.__call__` of t5/network.py lines 53-96 and `DecoderLayer.__call__` of
decoder_only/network.py lines 49-118, which differ in the direction of the relative positions.  The four dropouts of the layer are given. -/
noncomputable def block {d h e f : Nat} (ex : ℝ → ℝ) (lg : ℕ → ℝ) (eps : ℝ) (rel : Fin h → ℤ → ℝ) (bidirectional : Bool) {n : Nat}
    (factor : Fin h → Fin n → ℝ) (post : Fin d → ℝ → ℝ) (inner : Fin f → ℝ → ℝ) (postMlp : Fin d → ℝ → ℝ) (mask : Option (Mask n n))
    (p : EncLayer d h e f) (inputs : Fin n → Vec d) : Fin n → Vec d := fun i =>
  let x := fun j => layerNorm eps p.preAttention (inputs j)
  let a := attention ex p.attention factor (x i) x (mask.map fun m => m i) (some (relBias lg rel bidirectional n i))
  mlpBlock eps p.preMlp p.mlp inner postMlp fun c => post c (a c) + inputs i c

/-! ### The encoder-decoder network -/

/-- The entries of the arrays of random bits made for one row by the encoder-decoder network: n target positions, m input positions, d, h and
f features, heads and intermediate features, N and M layers.  Most arrays have length 1 along the positions (`broadcast_dims=(-2,)`), except the
one after the last encoder layer. -/
inductive Site (n m d h f N M : Nat) where
  | encInput (c : Fin d)
  | encAttention (l : Fin N) (hd : Fin h) (k : Fin m)
  | encPost (l : Fin N) (c : Fin d)
  | encInner (l : Fin N) (c : Fin f)
  | encPostMlp (l : Fin N) (c : Fin d)
  | encOutput (k : Fin m) (c : Fin d)
  | decInput (c : Fin d)
  | decSelf (l : Fin M) (hd : Fin h) (k : Fin n)
  | decPostSelf (l : Fin M) (c : Fin d)
  | decCross (l : Fin M) (hd : Fin h) (k : Fin m)
  | decPostCross (l : Fin M) (c : Fin d)
  | decInner (l : Fin M) (c : Fin f)
  | decPostMlp (l : Fin M) (c : Fin d)
  | decOutput (c : Fin d)
  deriving DecidableEq, Fintype

/-- The parameters of a network with N encoder and M decoder layers. -/
structure TrainNet (d h e f V N M : Nat) where
  eps : ℝ
  table : Kernel V d
  encRel : Fin h → ℤ → ℝ
  enc : Fin N → EncLayer d h e f
  encNorm : Vec d
  decRel : Fin h → ℤ → ℝ
  dec : Fin M → DecLayer d h e f
  decNorm : Vec d
  head : Head d V

/-- The same parameters with the layers in lists. -/
def TrainNet.toNet {d h e f V N M : Nat} (net : TrainNet d h e f V N M) : Net d h e f V :=
  ⟨net.eps, net.table, net.encRel, List.ofFn net.enc, net.encNorm, net.decRel, List.ofFn net.dec, net.decNorm, net.head⟩

variable {d h e f V N M : Nat}

/-- `deterministic` and `dropout_rate` of the modules. -/
structure Mode where
  deterministic : Bool
  rate : ℝ

/-- Dropout of an entry. -/
noncomputable def Mode.drop (md : Mode) : Bool → ℝ → ℝ := dropout md.deterministic md.rate
/-- The factor of an attention weight. -/
noncomputable def Mode.factor (md : Mode) : Bool → ℝ := multiplier md.deterministic md.rate

/-- `EncoderLayer.__call__`, t5/network.py lines 53-96; dropout in lines 76-78, 91-93. -/
noncomputable def encLayer (ex : ℝ → ℝ) (lg : ℕ → ℝ) (net : TrainNet d h e f V N M) (md : Mode) {n m : Nat} (keep : Site n m d h f N M → Bool)
    (mask : Option (Mask m m)) (inputs : Fin m → Vec d) (l : Fin N) : Fin m → Vec d :=
  block ex lg net.eps net.encRel true (fun hd k => md.factor (keep (.encAttention l hd k))) (fun c => md.drop (keep (.encPost l c)))
    (fun c => md.drop (keep (.encInner l c))) (fun c => md.drop (keep (.encPostMlp l c))) mask (net.enc l) inputs

/-- `Encoder.__call__`, t5/network.py lines 182-219; dropout in lines 207-209 and, without broadcasting, 219. -/
noncomputable def encoder (ex : ℝ → ℝ) (lg : ℕ → ℝ) (net : TrainNet d h e f V N M) (md : Mode) {n m : Nat} (keep : Site n m d h f N M → Bool)
    (tokens : Row m) (mask : Option (Mask m m)) : Fin m → Vec d := fun i c =>
  md.drop (keep (.encOutput i c)) (layerNorm net.eps net.encNorm ((List.finRange N).foldl (encLayer ex lg net md keep mask)
    (fun i c => md.drop (keep (.encInput c)) (embed net.table (tokens i) c)) i) c)

/-- `DecoderLayer.__call__`, t5/network.py lines 105-179; dropout in lines 143-145, 160-162, 174-176. -/
noncomputable def decLayer (ex : ℝ → ℝ) (lg : ℕ → ℝ) (net : TrainNet d h e f V N M) (md : Mode) {n m : Nat} (keep : Site n m d h f N M → Bool)
    (mask : Option (Mask n n)) (cross : Option (Mask n m)) (encoded : Fin m → Vec d) (inputs : Fin n → Vec d) (l : Fin M) : Fin n → Vec d := fun i =>
  let p := net.dec l
  let x := fun j => layerNorm net.eps p.preSelf (inputs j)
  let a := attention ex p.self (fun hd k => md.factor (keep (.decSelf l hd k))) (x i) x (mask.map fun m => m i) (some (relBias lg net.decRel false n i))
  let x' : Vec d := fun c => md.drop (keep (.decPostSelf l c)) (a c) + inputs i c
  let b := attention ex p.cross (fun hd k => md.factor (keep (.decCross l hd k))) (layerNorm net.eps p.preCross x') encoded
    (cross.map fun m => m i) none
  mlpBlock net.eps p.preMlp p.mlp (fun c => md.drop (keep (.decInner l c))) (fun c => md.drop (keep (.decPostMlp l c)))
    fun c => md.drop (keep (.decPostCross l c)) (b c) + x' c

/-- The logits from the last hidden state, t5/network.py lines 272-293 (decoder_only/network.py lines 225-244); dropout in lines 275-277
(226-228). -/
noncomputable def toLogits (eps : ℝ) (norm : Vec d) (table : Kernel V d) (head : Head d V) (drop : Fin d → ℝ → ℝ) (y : Vec d) : Vec V :=
  let y : Vec d := fun c => drop c (layerNorm eps norm y c)
  match head with
  | .viaEmbedding => fun v => attendEmbedding table y v / √d
  | .denseKernel kernel => dense kernel y

/-- `Decoder.__call__` without `decode`, t5/network.py lines 222-293; dropout in lines 255-257. -/
noncomputable def decoder (ex : ℝ → ℝ) (lg : ℕ → ℝ) (net : TrainNet d h e f V N M) (md : Mode) {n m : Nat} (keep : Site n m d h f N M → Bool)
    (encoded : Fin m → Vec d) (tokens : Row n) (mask : Option (Mask n n)) (cross : Option (Mask n m)) : Fin n → Vec V := fun i =>
  toLogits net.eps net.decNorm net.table net.head (fun c => md.drop (keep (.decOutput c)))
    ((List.finRange M).foldl (decLayer ex lg net md keep mask cross encoded) (fun i c => md.drop (keep (.decInput c)) (embed net.table (tokens i) c)) i)

/-- `Transformer.__call__` with `decode=False`, t5/network.py lines 345-465; `deterministic` is `not enable_dropout`. -/
noncomputable def apply (ex : ℝ → ℝ) (lg : ℕ → ℝ) (net : TrainNet d h e f V N M) (md : Mode) {n m : Nat} (keep : Site n m d h f N M → Bool)
    (b : Input n m) : Option (Fin n → Vec V) :=
  (makeEncoderMask b.encTokens b.encSeg).bind fun encMask =>
  (makeDecoderMask b.decTargets none b.decSeg).bind fun mask =>
  (makeEncoderDecoderMask b.decTargets b.encTokens b.decSeg b.encSeg).map fun cross =>
    decoder ex lg net md keep (encoder ex lg net md keep b.encTokens (some encMask)) b.decInputs (some mask) (some cross)

/-! ### The decoder-only network -/

/-- The entries of the arrays of random bits made for one row by the decoder-only network. -/
inductive LmSite (n d h f N : Nat) where
  | input (c : Fin d)
  | attention (l : Fin N) (hd : Fin h) (k : Fin n)
  | post (l : Fin N) (c : Fin d)
  | inner (l : Fin N) (c : Fin f)
  | postMlp (l : Fin N) (c : Fin d)
  | output (c : Fin d)
  deriving DecidableEq, Fintype

/-- The parameters of a decoder-only network with N layers. -/
structure TrainLm (d h e f V N : Nat) where
  eps : ℝ
  table : Kernel V d
  rel : Fin h → ℤ → ℝ
  layers : Fin N → EncLayer d h e f
  norm : Vec d
  head : Head d V

/-- The same parameters with the layers in a list. -/
def TrainLm.toNet {d h e f V N : Nat} (net : TrainLm d h e f V N) : DecoderOnly.LmNet d h e f V :=
  ⟨net.eps, net.table, net.rel, List.ofFn net.layers, net.norm, net.head⟩

/-- `DecoderLayer.__call__`, decoder_only/network.py lines 49-118; dropout in lines 97-101, 113-115. -/
noncomputable def lmLayer (ex : ℝ → ℝ) (lg : ℕ → ℝ) (net : TrainLm d h e f V N) (md : Mode) {n : Nat} (keep : LmSite n d h f N → Bool)
    (mask : Option (Mask n n)) (inputs : Fin n → Vec d) (l : Fin N) : Fin n → Vec d :=
  block ex lg net.eps net.rel false (fun hd k => md.factor (keep (.attention l hd k))) (fun c => md.drop (keep (.post l c)))
    (fun c => md.drop (keep (.inner l c))) (fun c => md.drop (keep (.postMlp l c))) mask (net.layers l) inputs

/-- `Decoder.__call__` with `decode=False`, decoder_only/network.py lines 127-244; dropout in lines 206-208 and 226-228. -/
noncomputable def applyLm (ex : ℝ → ℝ) (lg : ℕ → ℝ) (net : TrainLm d h e f V N) (md : Mode) {n : Nat} (keep : LmSite n d h f N → Bool)
    (b : DecoderOnly.Input n) : Option (Fin n → Vec V) :=
  (makeDecoderMask b.targets b.causal b.seg).map fun mask i =>
    toLogits net.eps net.norm net.table net.head (fun c => md.drop (keep (.output c)))
      ((List.finRange N).foldl (lmLayer ex lg net md keep (some mask)) (fun i c => md.drop (keep (.input c)) (embed net.table (b.inputs i) c)) i)

/-! ### The training loss -/

open Verif.PackedLoss

/-- `EncoderDecoderModel._compute_logits`, models.py lines 456-482, for one row: `enable_dropout` says whether there is a `dropout_rng`. -/
noncomputable def encDecLogits {n m : Nat} (ex : ℝ → ℝ) (lg : ℕ → ℝ) (net : TrainNet d h e f V N M) (enableDropout : Bool) (rate : ℝ)
    (packed : Bool) (keep : Site n m d h f N M → Bool) (r : TrainRow n m) : Option (Fin n → Vec V) :=
  apply ex lg net ⟨!enableDropout, rate⟩ keep
    ⟨r.encTokens, r.decInputs, r.decTargets, if packed then some r.encSeg else none, if packed then some r.decSeg else none⟩

/-- `DecoderOnlyModel._compute_logits`, models.py lines 893-918, for one row. -/
noncomputable def lmLogits {n m : Nat} (ex : ℝ → ℝ) (lg : ℕ → ℝ) (net : TrainLm d h e f V N) (enableDropout : Bool) (rate : ℝ)
    (bidirectional packed : Bool) (keep : LmSite n d h f N → Bool) (r : TrainRow n m) : Option (Fin n → Vec V) :=
  applyLm ex lg net ⟨!enableDropout, rate⟩ keep
    ⟨r.decInputs, r.decTargets, KVCache.maybeCausal bidirectional r.causal, if packed then some r.decSeg else none⟩

/-- `loss_fn`, models.py lines 284-318, as `PackedLoss.lossFn`, but every row of the batch has its own random bits. -/
noncomputable def lossFn {S : Type} {n m : Nat} (computeLogits : (S → Bool) → TrainRow n m → Option (Fin n → Vec V)) (lnf : LossWeights.LNF ℝ)
    (smoothing z : ℝ) (b : TrainBatch n m) (keep : Fin b.rows.length → S → Bool) : Option (ℝ × ℝ × ℝ) :=
  ((List.finRange b.rows.length).mapM fun r => computeLogits (keep r) (b.rows.get r)).bind fun logits =>
    (LossWeights.lnfAndWeights lnf (lossFeatures b)).map fun kw =>
    weighAndSum (List.zipWith (fun (y : Fin n → Vec V) (r : TrainRow n m) => List.ofFn fun i => position smoothing z (y i) (r.decTargets i))
      logits b.rows) kw.2 kw.1

end Verif.Dropout
