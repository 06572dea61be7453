import Verif.Model.T5Decode
/-
The network of `/repo/t5x/contrib/gpu/t5/network.py` with the layers of `/repo/t5x/contrib/gpu/t5/layers.py`.  The code is that of
`/repo/t5x/examples/t5` but for two things: with `scale_attn_logits` the inputs of the query projection are divided by the root of the head
dimension, and tokens are embedded by a gather instead of a contraction with one-hot vectors.

Simplifications: those of `Verif.Model.Transformer` and `Verif.Model.T5Decode`.
-/
namespace Verif.GpuT5
open Verif.Masks Verif.KVCache
open Verif.Transformer (Vec Kernel Attn EncLayer DecLayer Net Input)

variable {d h e f V : Nat}

/-- `Embed.__call__` with `one_hot=False`, layers.py lines 502-503: `embedding[inputs]`, where jax counts negative indices from the end and
clamps indices that are out of bounds. -/
def embed (table : Kernel V d) (token : Int) : Vec d := fun j =>
  let i : Nat := ((if token < 0 then token + V else token) ⊓ ((V : Int) - 1) ⊔ 0).toNat
  if hi : i < V then table ⟨i, hi⟩ j else 0

/-- layers.py lines 200-206: the inputs of the query projection. -/
noncomputable def queryInput (scale : Bool) (e : Nat) (x : Vec d) : Vec d := fun i => if scale then x i / √e else x i

/-- `MultiHeadDotProductAttention.__call__` without `decode`, layers.py lines 154-325, for one query position. -/
noncomputable def attention (scale : Bool) (ex : ℝ → ℝ) {L : Nat} (p : Attn d h e) (xq : Vec d) (xkv : Fin L → Vec d)
    (mask : Option (Fin L → Int)) (bias : Option (Fin h → Fin L → ℝ)) : Vec d :=
  Transformer.projectOut p.out fun hd c =>
    ∑ j, Transformer.softmax ex (Transformer.logitsOf (Transformer.project p.query (queryInput scale e xq))
      (fun j => Transformer.project p.key (xkv j)) mask bias hd) j * Transformer.project p.value (xkv j) hd c

/-- `EncoderLayer.__call__`, network.py lines 54-96. -/
noncomputable def encLayer (scale : Bool) (ex : ℝ → ℝ) (lg : ℕ → ℝ) (net : Net d h e f V) {n : Nat} (mask : Option (Mask n n))
    (inputs : Fin n → Vec d) (l : EncLayer d h e f) : Fin n → Vec d := fun i =>
  let x := fun j => Transformer.layerNorm net.eps l.preAttention (inputs j)
  let a := attention scale ex l.attention (x i) x (mask.map fun m => m i) (some (Transformer.relBias lg net.encRel true n i))
  Transformer.mlpBlock net.eps l.preMlp l.mlp fun c => a c + inputs i c

/-- `DecoderLayer.__call__` without `decode`, network.py lines 105-176. -/
noncomputable def decLayer (scale : Bool) (ex : ℝ → ℝ) (lg : ℕ → ℝ) (net : Net d h e f V) {n m : Nat} (mask : Option (Mask n n))
    (cross : Option (Mask n m)) (encoded : Fin m → Vec d) (inputs : Fin n → Vec d) (l : DecLayer d h e f) : Fin n → Vec d := fun i =>
  let x := fun j => Transformer.layerNorm net.eps l.preSelf (inputs j)
  let a := attention scale ex l.self (x i) x (mask.map fun m => m i) (some (Transformer.relBias lg net.decRel false n i))
  let x' : Vec d := fun c => a c + inputs i c
  let b := attention scale ex l.cross (Transformer.layerNorm net.eps l.preCross x') encoded (cross.map fun m => m i) none
  Transformer.mlpBlock net.eps l.preMlp l.mlp fun c => b c + x' c

/-- `Encoder.__call__`, network.py lines 185-214. -/
noncomputable def encoder (scale : Bool) (ex : ℝ → ℝ) (lg : ℕ → ℝ) (net : Net d h e f V) {n : Nat} (tokens : Row n)
    (mask : Option (Mask n n)) : Fin n → Vec d := fun i =>
  Transformer.layerNorm net.eps net.encNorm (net.enc.foldl (encLayer scale ex lg net mask) (fun i => embed net.table (tokens i)) i)

/-- `Decoder.__call__` without `decode`, network.py lines 223-280. -/
noncomputable def decoder (scale : Bool) (ex : ℝ → ℝ) (lg : ℕ → ℝ) (net : Net d h e f V) {n m : Nat} (encoded : Fin m → Vec d)
    (tokens : Row n) (mask : Option (Mask n n)) (cross : Option (Mask n m)) : Fin n → Vec V := fun i =>
  Transformer.toLogits net (net.dec.foldl (decLayer scale ex lg net mask cross encoded) (fun i => embed net.table (tokens i)) i)

/-- `Transformer.__call__` with `decode=False` and `enable_dropout=False`, network.py lines 301-430. -/
noncomputable def apply (scale : Bool) (ex : ℝ → ℝ) (lg : ℕ → ℝ) (net : Net d h e f V) {n m : Nat} (b : Input n m) :
    Option (Fin n → Vec V) :=
  ((makeEncoderMask b.encTokens b.encSeg).map fun mask => encoder scale ex lg net b.encTokens (some mask)).bind fun encoded =>
  (makeDecoderMask b.decTargets none b.decSeg).bind fun mask =>
  (makeEncoderDecoderMask b.decTargets b.encTokens b.decSeg b.encSeg).map fun cross =>
    decoder scale ex lg net encoded b.decInputs (some mask) (some cross)

/-- `MultiHeadDotProductAttention.__call__` with `decode=True`, layers.py lines 154-325, for one token. -/
noncomputable def selfStep (scale : Bool) (ex : ℝ → ℝ) {L : Nat} (p : Attn d h e) (row : Nat → Fin h → Fin L → ℝ) (c : Cache h e L)
    (x : Vec d) : Vec d × Cache h e L :=
  let key : Fin h → Fin e → Fin L → ℝ := fun hd a j => c.key hd a j + Transformer.project p.key x hd a * oneHot c.index L j
  let value : Fin h → Fin e → Fin L → ℝ := fun hd a j => c.value hd a j + Transformer.project p.value x hd a * oneHot c.index L j
  let mask : Fin L → Int := fun j => ofBool (j.val ≤ c.index)
  (Transformer.projectOut p.out fun hd a =>
      ∑ j, Transformer.softmax ex (Transformer.logitsOf (Transformer.project p.query (queryInput scale e x)) (fun j hd a => key hd a j)
        (some mask) (some (row c.index)) hd) j * value hd a j,
    ⟨key, value, c.index + 1⟩)

/-- `DecoderLayer.__call__` with `decode=True`, network.py lines 105-176, for one token. -/
noncomputable def layerStep (scale : Bool) (ex : ℝ → ℝ) (lg : ℕ → ℝ) (net : Net d h e f V) {L m : Nat} (cross : Fin m → Int)
    (encoded : Fin m → Vec d) (l : DecLayer d h e f) (c : Cache h e L) (inputs : Vec d) : Vec d × Cache h e L :=
  let a := selfStep scale ex l.self (T5Decode.biasRow lg net.decRel L) c (Transformer.layerNorm net.eps l.preSelf inputs)
  let x' : Vec d := fun i => a.1 i + inputs i
  let b := attention scale ex l.cross (Transformer.layerNorm net.eps l.preCross x') encoded (some cross) none
  (Transformer.mlpBlock net.eps l.preMlp l.mlp fun i => b i + x' i, a.2)

/-- The layers of `Decoder.__call__`, network.py lines 248-261, each with its own cache. -/
noncomputable def stackStep (scale : Bool) (ex : ℝ → ℝ) (lg : ℕ → ℝ) (net : Net d h e f V) {L m : Nat} (cross : Fin m → Int)
    (encoded : Fin m → Vec d) : List (DecLayer d h e f × Cache h e L) → Vec d → Vec d × List (DecLayer d h e f × Cache h e L)
  | [], x => (x, [])
  | (l, c) :: rest, x =>
    let a := layerStep scale ex lg net cross encoded l c x
    let r := stackStep scale ex lg net cross encoded rest a.1
    (r.1, (l, a.2) :: r.2)

/-- `Transformer.decode` with `decode=True` for one token, network.py lines 325-381. -/
noncomputable def step (scale : Bool) (ex : ℝ → ℝ) (lg : ℕ → ℝ) (net : Net d h e f V) {L m : Nat} (encTokens : Row m)
    (encoded : Fin m → Vec d) (cs : List (DecLayer d h e f × Cache h e L)) (token : Int) :
    Vec V × List (DecLayer d h e f × Cache h e L) :=
  let cross : Mask 1 m := makeAttentionMask (fun _ => 1) (fun i => ofBool (encTokens i > 0)) multiply
  let r := stackStep scale ex lg net (cross 0) encoded cs (embed net.table token)
  (Transformer.toLogits net r.1, r.2)

/-- `EncoderDecoderModel.predict_batch_with_aux`, `/repo/t5x/models.py` lines 610-674, as far as the model is concerned. -/
noncomputable def predict (scale : Bool) (ex : ℝ → ℝ) (lg : ℕ → ℝ) (net : Net d h e f V) {m : Nat} (L : Nat) (encTokens : Row m)
    (tokens : List Int) : Option (List (Vec V)) :=
  (makeEncoderMask encTokens none).map fun mask =>
    feed (step scale ex lg net encTokens (encoder scale ex lg net encTokens (some mask))) (T5Decode.emptyCaches net L) tokens

/-- layers.py lines 196-201: how the query kernel is initialised from what `kernel_init` returns. -/
noncomputable def queryInit (e : Nat) (kernel : Kernel d (h * e)) : Kernel d (h * e) := fun i j => kernel i j / √e

end Verif.GpuT5
