import Verif.Model.Masks
import Mathlib.Analysis.SpecialFunctions.Exp
import Mathlib.Algebra.BigOperators.Fin
/-
The decoder of `/repo/t5x/examples/t5/network.py` run in its two ways: on a whole sequence (teacher forcing: training, scoring), and one
token at a time with a key/value cache (`/repo/t5x/examples/t5/layers.py`, `MultiHeadDotProductAttention` with `decode=True`).

Simplifications: one batch row (everything acts on each row separately, and the rows share the cache index); real arithmetic; no
dropout; the weight of a masked key is 0 (the code adds -1e10 to its logit, whose exponential is 0 in float32, except in rows in which
every key is masked: those are padding).  Everything in a layer besides self-attention acts on one position at a time and is a parameter:
layer norms, projections, residual additions, the MLP and the cross-attention, which sees its own row of the encoder-decoder mask.
-/
namespace Verif.KVCache
open Verif.Masks

/-- Per head and dimension. -/
abbrev Heads (h d : Nat) := Fin h → Fin d → ℝ

/-- `dot_product_attention`, layers.py lines 52-131, for one query: einsum of query and keys plus bias, softmax over the keys, einsum
with the values.  The mask is the one converted to a bias in lines 305-318. -/
noncomputable def attend {h d L : Nat} (q : Heads h d) (K V : Fin L → Heads h d) (bias : Fin h → Fin L → ℝ) (mask : Fin L → Int) : Heads h d :=
  fun hd e =>
    let w : Fin L → ℝ := fun j => if mask j > 0 then Real.exp ((∑ c, q hd c * K j hd c) + bias hd j) else 0
    ∑ j, w j / (∑ j', w j') * V j hd e

/-- The parts of a decoder layer, network.py lines 99-178, that act on one position at a time. -/
structure Layer (H : Type) (h d m : Nat) where
  norm : H → H
  query : H → Heads h d
  key : H → Heads h d
  value : H → Heads h d
  out : Heads h d → H
  add : H → H → H
  rest : (Fin m → Int) → H → H

variable {H : Type} {h d m : Nat}

/-- `MultiHeadDotProductAttention.__call__` without `decode`, layers.py lines 163-346, on a normalised sequence; `bias` is the full
matrix of relative position biases. -/
noncomputable def attention {n : Nat} (l : Layer H h d m) (mask : Mask n n) (bias : Fin h → Fin n → Fin n → ℝ) (x : Fin n → H) : Fin n → H :=
  fun i => l.out (attend (l.query (x i)) (fun j => l.key (x j)) (fun j => l.value (x j)) (fun hd j => bias hd i j) (fun j => mask i j))

/-- `DecoderLayer.__call__` without `decode`. -/
noncomputable def layerFull {n : Nat} (l : Layer H h d m) (mask : Mask n n) (cross : Mask n m) (bias : Fin h → Fin n → Fin n → ℝ)
    (x : Fin n → H) : Fin n → H :=
  fun i => l.rest (cross i) (l.add (attention l mask bias (fun j => l.norm (x j)) i) (x i))

/-- The biases `relative_embedding(l, l, False)`, network.py lines 118-120: a function `rel` of the two positions. -/
def biasMatrix (n : Nat) (rel : Fin h → Nat → Nat → ℝ) : Fin h → Fin n → Fin n → ℝ := fun hd i j => rel hd i j

/-- The stack of decoder layers on a whole sequence, network.py lines 253-272. -/
noncomputable def stackFull {n : Nat} (layers : List (Layer H h d m)) (mask : Mask n n) (cross : Mask n m) (rel : Fin h → Nat → Nat → ℝ)
    (x : Fin n → H) : Fin n → H :=
  layers.foldl (fun x l => layerFull l mask cross (biasMatrix n rel) x) x

/-- A decoder: embedding, layers, final norm and logits, relative position biases. -/
structure Net (H Y : Type) (h d m : Nat) where
  embed : Int → H
  layers : List (Layer H h d m)
  logits : H → Y
  rel : Fin h → Nat → Nat → ℝ

variable {Y : Type}

/-- `Transformer.decode` with `decode=False` and without packing, network.py lines 345-409: logits for every position.  The masks are
those of `Verif.Model.Masks`; the attention mask comes from the targets, the embeddings from the inputs. -/
noncomputable def full {n : Nat} (net : Net H Y h d m) (enc : Row m) (inputs targets : Row n) : Option (Fin n → Y) :=
  match makeDecoderMask targets none none, makeEncoderDecoderMask targets enc none none with
  | some mask, some cross => some fun i => net.logits (stackFull net.layers mask cross net.rel (fun j => net.embed (inputs j)) i)
  | _, _ => none

/-- The cache of one layer, layers.py lines 225-244: `cached_key`, `cached_value` ([num_heads, head_dim, length]) and `cache_index`. -/
structure Cache (h d L : Nat) where
  key : Fin h → Fin d → Fin L → ℝ
  value : Fin h → Fin d → Fin L → ℝ
  index : Nat

/-- The cache after the initialisation call. -/
def Cache.init (h d L : Nat) : Cache h d L := ⟨fun _ _ _ => 0, fun _ _ _ => 0, 0⟩

/-- `jax.nn.one_hot(cur_index, length)`. -/
def oneHot (cur L : Nat) (j : Fin L) : ℝ := if j.val = cur then 1 else 0

/-- The start of `lax.dynamic_slice_in_dim(bias, cur_index, 1)`: clamped to the array. -/
def clampIndex (cur L : Nat) : Nat := min cur (L - 1)

/-- Lines 295-303: the row of the relative position biases for the current index, by a dynamic slice. -/
def sliceRow (L : Nat) (rel : Fin h → Nat → Nat → ℝ) (cur : Nat) : Fin h → Fin L → ℝ := fun hd j => rel hd (clampIndex cur L) j

/-- Lines 245-346: self-attention for one token, updating the cache by a one-hot scatter; the mask lets the query see the positions up to
the cache index; `row` picks the biases for the current index. -/
noncomputable def attentionStep {L : Nat} (l : Layer H h d m) (row : Nat → Fin h → Fin L → ℝ) (c : Cache h d L) (x : H) : H × Cache h d L :=
  let key : Fin h → Fin d → Fin L → ℝ := fun hd e j => c.key hd e j + l.key x hd e * oneHot c.index L j
  let value : Fin h → Fin d → Fin L → ℝ := fun hd e j => c.value hd e j + l.value x hd e * oneHot c.index L j
  let mask : Fin L → Int := fun j => ofBool (j.val ≤ c.index)
  (l.out (attend (l.query x) (fun j hd e => key hd e j) (fun j hd e => value hd e j) (row c.index) mask),
    ⟨key, value, c.index + 1⟩)

/-- `DecoderLayer.__call__` with `decode=True` for one token. -/
noncomputable def layerStep {L : Nat} (l : Layer H h d m) (cross : Fin m → Int) (row : Nat → Fin h → Fin L → ℝ) (c : Cache h d L) (x : H) :
    H × Cache h d L :=
  let a := attentionStep l row c (l.norm x)
  (l.rest cross (l.add a.1 x), a.2)

/-- The stack for one token; every layer has its own cache. -/
noncomputable def stackStep {L : Nat} (cross : Fin m → Int) (row : Nat → Fin h → Fin L → ℝ) :
    List (Layer H h d m × Cache h d L) → H → H × List (Layer H h d m × Cache h d L)
  | [], x => (x, [])
  | (l, c) :: rest, x =>
    let a := layerStep l cross row c x
    let r := stackStep cross row rest a.1
    (r.1, (l, a.2) :: r.2)

/-- `Transformer.decode` with `decode=True` for one token (called by `_compute_logits_from_slice`, `/repo/t5x/models.py` lines 484-515): the
encoder-decoder mask has ones on the decoder side, network.py lines 361-370. -/
noncomputable def step {L : Nat} (net : Net H Y h d m) (enc : Row m) (cs : List (Layer H h d m × Cache h d L)) (token : Int) :
    Y × List (Layer H h d m × Cache h d L) :=
  let cross : Mask 1 m := makeAttentionMask (fun _ => 1) (fun i => ofBool (enc i > 0)) multiply
  let r := stackStep (cross 0) (sliceRow L net.rel) cs (net.embed token)
  (net.logits r.1, r.2)

/-- Tokens fed one after the other: the outputs after each. -/
def feed {S : Type} (f : S → Int → Y × S) : S → List Int → List Y
  | _, [] => []
  | s, t :: ts => (f s t).1 :: feed f (f s t).2 ts

/-- Incremental decoding with caches of length `L`. -/
noncomputable def incremental (L : Nat) (net : Net H Y h d m) (enc : Row m) (tokens : List Int) : List Y :=
  feed (step net enc) (net.layers.map fun l => (l, Cache.init h d L)) tokens

/-! ### Decoder-only models

`/repo/t5x/examples/decoder_only/network.py` and `layers.py`.  Its layers are those above without cross-attention: `m = 0`. -/

/-- The empty cross-attention mask. -/
def noCross (n : Nat) : Mask n 0 := fun _ j => j.elim0

/-- `Decoder.__call__` without `decode`, network.py lines 126-244: logits for every position. -/
noncomputable def fullOnly {n : Nat} (net : Net H Y h d 0) (inputs targets : Row n) (causal : Option (Row n)) : Option (Fin n → Y) :=
  match makeDecoderMask targets causal none with
  | some mask => some fun i => net.logits (stackFull net.layers mask (noCross n) net.rel (fun j => net.embed (inputs j)) i)
  | none => none

/-- `update_cache_prefill`, layers.py lines 157-236, on the keys and values of the whole sequence: those before `len` are kept, the others
multiplied by 0; the index is set to `len`. -/
noncomputable def prefillCache {n : Nat} (l : Layer H h d m) (x : Fin n → H) (len : Nat) : Cache h d n where
  key hd e j := l.key (x j) hd e * (if j.val < len then 1 else 0)
  value hd e j := l.value (x j) hd e * (if j.val < len then 1 else 0)
  index := len

/-- The stack with `prefill=True`: every layer computes its output as in the forward pass (the attention uses the unmasked keys and
values) and leaves its cache. -/
noncomputable def prefillStack {n : Nat} (mask : Mask n n) (rel : Fin h → Nat → Nat → ℝ) (len : Nat) :
    List (Layer H h d 0) → (Fin n → H) → List (Layer H h d 0 × Cache h d n)
  | [], _ => []
  | l :: rest, x =>
    (l, prefillCache l (fun j => l.norm (x j)) len) :: prefillStack mask rel len rest (layerFull l mask (noCross n) (biasMatrix n rel) x)

/-- `_get_decoder_causal_attention`, `/repo/t5x/models.py` lines 879-891. -/
def maybeCausal {n : Nat} (bidirectional : Bool) (causal : Row n) : Option (Row n) := if bidirectional then some causal else none

/-- `jnp.sum(inputs[:, 1:] != 0)`, models.py line 1026. -/
def inputsLength {n : Nat} (inputs : Row n) : Nat := (Finset.univ.filter fun i : Fin n => 0 < i.val ∧ inputs i ≠ 0).card

/-- `DecoderOnlyModel._compute_kv_cache`, models.py lines 1006-1083: the caches and the initial index. -/
noncomputable def computeKvCache {n : Nat} (net : Net H Y h d 0) (bidirectional : Bool) (inputs causal : Row n) :
    Option (List (Layer H h d 0 × Cache h d n) × Nat) :=
  match makeDecoderMask causal (maybeCausal bidirectional causal) none with
  | some mask => some (prefillStack mask net.rel (inputsLength inputs) net.layers (fun j => net.embed (inputs j)), inputsLength inputs)
  | none => none

/-- Lines 495-511: the row of the relative position biases for the current index, by an einsum with a one-hot vector. -/
noncomputable def einsumRow (L : Nat) (rel : Fin h → Nat → Nat → ℝ) (cur : Nat) : Fin h → Fin L → ℝ :=
  fun hd j => ∑ q : Fin L, oneHot cur L q * rel hd q j

/-- `Decoder.__call__` with `decode=True` for one token (models.py lines 920-946). -/
noncomputable def stepOnly {L : Nat} (net : Net H Y h d 0) (cs : List (Layer H h d 0 × Cache h d L)) (token : Int) :
    Y × List (Layer H h d 0 × Cache h d L) :=
  let r := stackStep (fun j => j.elim0) (einsumRow L net.rel) cs (net.embed token)
  (net.logits r.1, r.2)

/-- `predict_batch_with_aux`, models.py lines 1186-1201, up to the decoding loop: mask the target part out of the decoder inputs, prefill the
cache.  The result: the tokens given to the decoding loop, the initial index, and what the loop computes from the tokens it feeds. -/
noncomputable def predict {n : Nat} (net : Net H Y h d 0) (bidirectional : Bool) (decoderInputs causal : Row n) :
    Option (Row n × Nat × (List Int → List Y)) :=
  let inputs : Row n := fun j => decoderInputs j * causal j
  (computeKvCache net bidirectional inputs causal).map fun r => (inputs, r.2, feed (stepOnly net) r.1)

end Verif.KVCache
