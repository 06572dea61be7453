import Verif.Model.Masks
import Verif.Model.RelPos
import Mathlib.Analysis.SpecialFunctions.Sqrt
import Mathlib.Logic.Equiv.Fin.Basic
/-
The encoder-decoder network of `/repo/t5x/examples/t5/network.py` with the layers of `/repo/t5x/examples/t5/layers.py`, on a whole row
(training, evaluation, scoring; `decode=False`).

Simplifications: one row of the batch (every function acts on each row separately); real arithmetic, the casts to `dtype` are left out,
and the exponential is a parameter `ex` so that its underflow in float32 can be stated; no dropout (`enable_dropout=False`); sharding
constraints and names of parameters are left out, the parameters are given as records.  Masks and relative position buckets are those of
`Verif.Model.Masks` and `Verif.Model.RelPos`.
-/
namespace Verif.Transformer
open Verif.Masks

/-- One vector of features. -/
abbrev Vec (d : Nat) := Fin d → ℝ
/-- A 2-D kernel. -/
abbrev Kernel (a b : Nat) := Fin a → Fin b → ℝ

/-- `DenseGeneral.__call__`, layers.py lines 383-414, for one contracted axis: `dot_general(inputs, kernel)`. -/
noncomputable def dense {a b : Nat} (kernel : Kernel a b) (x : Vec a) : Vec b := fun j => ∑ i, x i * kernel i j

/-- `LayerNorm.__call__`, layers.py lines 691-702: no mean is subtracted, no bias is added; `rsqrt` is the inverse of the root. -/
noncomputable def layerNorm {d : Nat} (eps : ℝ) (scale : Vec d) (x : Vec d) : Vec d :=
  let mean2 := (∑ i, x i ^ 2) / d
  fun i => x i * (√(mean2 + eps))⁻¹ * scale i

/-- `Embed.__call__` with `one_hot=True`, layers.py lines 520-541: the contraction of the one-hot vector with the table. -/
noncomputable def embed {V d : Nat} (table : Kernel V d) (token : Int) : Vec d :=
  fun j => ∑ v : Fin V, (if token = (v.val : Int) then 1 else 0) * table v j

/-- `Embed.attend`, layers.py lines 543-557. -/
noncomputable def attendEmbedding {V d : Nat} (table : Kernel V d) (x : Vec d) : Vec V := fun v => ∑ i, x i * table v i

/-- The parameters of `MultiHeadDotProductAttention`: kernels of shape (embed, joined_kv) and (joined_kv, embed). -/
structure Attn (d h e : Nat) where
  query : Kernel d (h * e)
  key : Kernel d (h * e)
  value : Kernel d (h * e)
  out : Kernel (h * e) d

/-- The column of the kernel for a head and an index within the head: the reshape of layers.py line 411, row major. -/
def joined {h e : Nat} (hd : Fin h) (c : Fin e) : Fin (h * e) := finProdFinEquiv (hd, c)

/-- `DenseGeneral(features=(num_heads, head_dim), axis=-1)`. -/
noncomputable def project {d h e : Nat} (kernel : Kernel d (h * e)) (x : Vec d) (hd : Fin h) (c : Fin e) : ℝ :=
  ∑ i, x i * kernel i (joined hd c)

/-- `DenseGeneral(features=embed, axis=(-2, -1))`. -/
noncomputable def projectOut {d h e : Nat} (kernel : Kernel (h * e) d) (y : Fin h → Fin e → ℝ) : Vec d :=
  fun i => ∑ hd, ∑ c, y hd c * kernel (joined hd c) i

/-- `jax.nn.softmax` over the last axis: the maximum is subtracted before the exponentials are taken. -/
noncomputable def softmax (ex : ℝ → ℝ) {L : Nat} (w : Fin L → ℝ) (j : Fin L) : ℝ :=
  ex (w j - ⨆ k, w k) / ∑ j', ex (w j' - ⨆ k, w k)

/-- layers.py lines 305-314: the mask as a bias. -/
noncomputable def maskBias (mask : Int) : ℝ := if mask > 0 then 0 else -1e10

/-- layers.py lines 304-318: mask bias and given bias, added up by `combine_biases` (lines 800-818); nothing if there is neither. -/
noncomputable def totalBias {h L : Nat} (mask : Option (Fin L → Int)) (bias : Option (Fin h → Fin L → ℝ)) (hd : Fin h) (j : Fin L) : ℝ :=
  match mask, bias with
  | some m, some b => maskBias (m j) + b hd j
  | some m, none => maskBias (m j)
  | none, some b => b hd j
  | none, none => 0

/-- The attention logits of one query, `dot_product_attention` lines 102-106. -/
noncomputable def logitsOf {h e L : Nat} (q : Fin h → Fin e → ℝ) (k : Fin L → Fin h → Fin e → ℝ)
    (mask : Option (Fin L → Int)) (bias : Option (Fin h → Fin L → ℝ)) (hd : Fin h) (j : Fin L) : ℝ :=
  (∑ c, q hd c * k j hd c) + totalBias mask bias hd j

/-- `MultiHeadDotProductAttention.__call__` without `decode`, layers.py lines 161-346, for one query position. -/
noncomputable def attention (ex : ℝ → ℝ) {d h e L : Nat} (p : Attn d h e) (xq : Vec d) (xkv : Fin L → Vec d)
    (mask : Option (Fin L → Int)) (bias : Option (Fin h → Fin L → ℝ)) : Vec d :=
  projectOut p.out fun hd c =>
    ∑ j, softmax ex (logitsOf (project p.query xq) (fun j => project p.key (xkv j)) mask bias hd) j * project p.value (xkv j) hd c

/-- The parameters of `MlpBlock`: for every activation its function and the kernel `wi` (or `wi_0`, `wi_1`, …), and `wo`.  There is at
least one activation: `functools.reduce` raises for an empty list. -/
structure Mlp (d f : Nat) where
  first : (ℝ → ℝ) × Kernel d f
  others : List ((ℝ → ℝ) × Kernel d f)
  wo : Kernel f d

/-- One activation of `MlpBlock`, lines 461-472. -/
noncomputable def activation {d f : Nat} (a : (ℝ → ℝ) × Kernel d f) (x : Vec d) : Vec f := fun j => a.1 (dense a.2 x j)

/-- `MlpBlock.__call__`, layers.py lines 456-487: the elementwise product of the activations, then the output projection. -/
noncomputable def mlp {d f : Nat} (p : Mlp d f) (x : Vec d) : Vec d :=
  dense p.wo (p.others.foldl (fun (acc : Vec f) b => fun j => acc j * activation b x j) (activation p.first x))

/-- `EncoderLayer`, network.py lines 47-96. -/
structure EncLayer (d h e f : Nat) where
  preAttention : Vec d
  attention : Attn d h e
  preMlp : Vec d
  mlp : Mlp d f

/-- `DecoderLayer`, network.py lines 99-179. -/
structure DecLayer (d h e f : Nat) where
  preSelf : Vec d
  self : Attn d h e
  preCross : Vec d
  cross : Attn d h e
  preMlp : Vec d
  mlp : Mlp d f

/-- How the logits are computed, network.py lines 277-292. -/
inductive Head (d V : Nat) where
  | viaEmbedding
  | denseKernel (kernel : Kernel d V)

/-- The parameters of the whole model.  `encRel` and `decRel` are the tables `rel_embedding`, one row for each head. -/
structure Net (d h e f V : Nat) where
  eps : ℝ
  table : Kernel V d
  encRel : Fin h → ℤ → ℝ
  enc : List (EncLayer d h e f)
  encNorm : Vec d
  decRel : Fin h → ℤ → ℝ
  dec : List (DecLayer d h e f)
  decNorm : Vec d
  head : Head d V

variable {d h e f V : Nat}

/-- `relative_embedding(n, n, bidirectional)` with `num_buckets=32` and `max_distance=128` (the latter is part of `lg`, the logarithm in
the bucket function), network.py lines 195-204 and 241-250. -/
noncomputable def relBias (lg : ℕ → ℝ) (rel : Fin h → ℤ → ℝ) (bidirectional : Bool) (n : Nat) (i : Fin n) : Fin h → Fin n → ℝ :=
  fun hd j => RelPos.bias lg (rel hd) bidirectional 32 i j

/-- The residual MLP block at the end of a layer, network.py lines 79-94 and 162-177. -/
noncomputable def mlpBlock (eps : ℝ) (scale : Vec d) (p : Mlp d f) (x : Vec d) : Vec d :=
  fun c => mlp p (layerNorm eps scale x) c + x c

/-- `EncoderLayer.__call__`, network.py lines 53-96. -/
noncomputable def encLayer (ex : ℝ → ℝ) (lg : ℕ → ℝ) (net : Net d h e f V) {n : Nat} (mask : Option (Mask n n))
    (inputs : Fin n → Vec d) (l : EncLayer d h e f) : Fin n → Vec d := fun i =>
  let x := fun j => layerNorm net.eps l.preAttention (inputs j)
  let a := attention ex l.attention (x i) x (mask.map fun m => m i) (some (relBias lg net.encRel true n i))
  mlpBlock net.eps l.preMlp l.mlp fun c => a c + inputs i c

/-- `DecoderLayer.__call__`, network.py lines 105-179; `encoded` is the encoder output. -/
noncomputable def decLayer (ex : ℝ → ℝ) (lg : ℕ → ℝ) (net : Net d h e f V) {n m : Nat} (mask : Option (Mask n n))
    (cross : Option (Mask n m)) (encoded : Fin m → Vec d) (inputs : Fin n → Vec d) (l : DecLayer d h e f) : Fin n → Vec d := fun i =>
  let x := fun j => layerNorm net.eps l.preSelf (inputs j)
  let a := attention ex l.self (x i) x (mask.map fun m => m i) (some (relBias lg net.decRel false n i))
  let x' : Vec d := fun c => a c + inputs i c
  let b := attention ex l.cross (layerNorm net.eps l.preCross x') encoded (cross.map fun m => m i) none
  mlpBlock net.eps l.preMlp l.mlp fun c => b c + x' c

/-- `Encoder.__call__`, network.py lines 182-219. -/
noncomputable def encoder (ex : ℝ → ℝ) (lg : ℕ → ℝ) (net : Net d h e f V) {n : Nat} (tokens : Row n) (mask : Option (Mask n n)) :
    Fin n → Vec d := fun i =>
  layerNorm net.eps net.encNorm (net.enc.foldl (encLayer ex lg net mask) (fun i => embed net.table (tokens i)) i)

/-- The logits of one position, network.py lines 272-293. -/
noncomputable def toLogits (net : Net d h e f V) (y : Vec d) : Vec V :=
  let y := layerNorm net.eps net.decNorm y
  match net.head with
  | .viaEmbedding => fun v => attendEmbedding net.table y v / √d
  | .denseKernel kernel => dense kernel y

/-- `Decoder.__call__` without `decode`, network.py lines 222-293. -/
noncomputable def decoder (ex : ℝ → ℝ) (lg : ℕ → ℝ) (net : Net d h e f V) {n m : Nat} (encoded : Fin m → Vec d) (tokens : Row n)
    (mask : Option (Mask n n)) (cross : Option (Mask n m)) : Fin n → Vec V := fun i =>
  toLogits net (net.dec.foldl (decLayer ex lg net mask cross encoded) (fun i => embed net.table (tokens i)) i)

/-- One row of a batch as given to the model.  The positions of packed sequences are not used by the network. -/
structure Input (n m : Nat) where
  encTokens : Row m
  decInputs : Row n
  decTargets : Row n
  encSeg : Option (Row m)
  decSeg : Option (Row n)

/-- `Transformer.encode`, network.py lines 315-343. -/
noncomputable def encode (ex : ℝ → ℝ) (lg : ℕ → ℝ) (net : Net d h e f V) {n m : Nat} (b : Input n m) : Option (Fin m → Vec d) :=
  (makeEncoderMask b.encTokens b.encSeg).map fun mask => encoder ex lg net b.encTokens (some mask)

/-- `Transformer.__call__` with `decode=False` and `enable_dropout=False`, network.py lines 345-465 (`decode` and `__call__`): the logits of every position of the
row. -/
noncomputable def apply (ex : ℝ → ℝ) (lg : ℕ → ℝ) (net : Net d h e f V) {n m : Nat} (b : Input n m) : Option (Fin n → Vec V) :=
  (encode ex lg net b).bind fun encoded =>
  (makeDecoderMask b.decTargets none b.decSeg).bind fun mask =>
  (makeEncoderDecoderMask b.decTargets b.encTokens b.decSeg b.encSeg).map fun cross =>
    decoder ex lg net encoded b.decInputs (some mask) (some cross)

end Verif.Transformer
