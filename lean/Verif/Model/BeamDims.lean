import Verif.Model.NDArray
import Verif.Model.PyDict
/-
The beam dimension of caches and results: `/repo/t5x/decoding.py`, lines 739-915 (`cache_map`, `add_beam_dim`, `flatten_beam_dim`,
`unflatten_beam_dim`, `flat_batch_beam_expand`, `cache_gather_beams`, `gather_beams`) and their use in `temperature_sample` (lines 357-399),
`beam_init` (lines 1052-1056) and the loop of `beam_search` (lines 1315-1337 and 1449-1457).

Simplifications: a cache is its flattened dict (flax's `flatten_dict` and `unflatten_dict` are C29's; empty dicts are dropped by the code);
floats are exact numbers, infinities and NaN (so the sign of a zero is lost); an error (assertion, wrong rank, wrong size) is `none`;
einsum does not broadcast dimensions of size one.
-/
namespace Verif.BeamDims
open Verif.ND

/-- A float. -/
inductive Fl (K : Type) where
  | fin (x : K)
  | inf (neg : Bool)
  | nan
deriving DecidableEq

variable {K : Type} [Ring K]

/-- IEEE addition. -/
def Fl.add : Fl K → Fl K → Fl K
  | .fin x, .fin y => .fin (x + y)
  | .fin _, .inf s => .inf s
  | .inf s, .fin _ => .inf s
  | .inf s, .inf s' => if s = s' then .inf s else .nan
  | _, _ => .nan

/-- IEEE product with the 0 or 1 of a one-hot vector. -/
def Fl.scale : Bool → Fl K → Fl K
  | true, x => x
  | false, .fin _ => .fin 0
  | false, _ => .nan

def Fl.sum (l : List (Fl K)) : Fl K := l.foldl Fl.add (.fin 0)

/-! ### Shapes -/

section
variable {α : Type}

/-- `jnp.expand_dims(x, axis)`. -/
def expandDims (x : NDArray α) (axis : Nat) : Option (NDArray α) :=
  if axis ≤ x.shape.length then some ⟨x.shape.insertIdx axis 1, fun i => x.get (i.eraseIdx axis)⟩ else none

/-- `jnp.tile(x, reps)` with as many repetitions as dimensions. -/
def tile (x : NDArray α) (reps : List Nat) : NDArray α :=
  ⟨List.zipWith (· * ·) x.shape reps, fun i => x.get (List.zipWith (· % ·) i x.shape)⟩

/-- `add_beam_dim`, lines 773-780. -/
def addBeamDim (beam offset : Nat) (x : NDArray α) : Option (NDArray α) :=
  match expandDims x (offset + 1) with
  | none => none
  | some x => some (tile x ((List.replicate x.shape.length 1).set (offset + 1) beam))

/-- `flatten_beam_dim`, lines 783-788. -/
def flattenBeamDim (offset : Nat) (x : NDArray α) : Option (NDArray α) :=
  match x.shape[offset]? with
  | none => none
  | some b =>
    let s := x.shape.eraseIdx offset
    match s[offset]? with
    | none => none
    | some n => reshape x (s.set offset (n * b))

/-- `unflatten_beam_dim`, lines 791-798. -/
def unflattenBeamDim (batch beam offset : Nat) (x : NDArray α) : Option (NDArray α) :=
  if x.shape[offset]? = some (batch * beam) then reshape x (x.shape.take offset ++ [batch, beam] ++ x.shape.drop (offset + 1)) else none

/-- `flat_batch_beam_expand`, lines 801-805. -/
def flatBatchBeamExpand (beam offset : Nat) (x : NDArray α) : Option (NDArray α) :=
  match addBeamDim beam offset x with
  | none => none
  | some x => flattenBeamDim offset x

end

/-! ### Gathering -/

/-- `jax.nn.one_hot(beam_indices, old_beam_size)`; indices are given as a function of batch row and beam. -/
def oneHot (idx : Nat → Nat → Nat) (b e o : Nat) : Bool := idx b e = o

/-- `einsum('beo,bo...->be...')`, lines 841 and 902, and `einsum('beo,lbo...->lbe...')`, line 848, for an offset of 1.  The index of the
layer, the batch row and the beam are taken off the front of the index. -/
def gatherOneHot (offset batch old new : Nat) (idx : Nat → Nat → Nat) (x : NDArray (Fl K)) : Option (NDArray (Fl K)) :=
  if x.shape.length < offset + 2 then none
  else if x.shape[offset]? ≠ some batch ∨ x.shape[offset + 1]? ≠ some old then none
  else some ⟨x.shape.set (offset + 1) new, fun i =>
    Fl.sum ((List.range old).map fun o => Fl.scale (oneHot idx (i.getD offset 0) (i.getD (offset + 1) 0) o) (x.get (i.set (offset + 1) o)))⟩

/-- `x[batch_indices, beam_indices]`, lines 863 and 913, and `x[:, batch_indices, beam_indices]`, line 868, with
`batch_indices = (arange(batch * new) // new).reshape(batch, new)`; jax clamps indices. -/
def gatherFancy {α : Type} (offset batch new : Nat) (idx : Nat → Nat → Nat) (x : NDArray α) : Option (NDArray α) :=
  if x.shape.length < offset + 2 then none
  else some ⟨(x.shape.set offset batch).set (offset + 1) new, fun i =>
    let b := i.getD offset 0
    let e := i.getD (offset + 1) 0
    x.get ((i.set offset (min ((b * new + e) / new) (x.shape.getD offset 0 - 1))).set (offset + 1)
      (min (idx b e) (x.shape.getD (offset + 1) 0 - 1)))⟩

/-! ### Caches -/

abbrev Path := List String
abbrev Cache (α : Type) := List (Path × NDArray α)

/-- `jax.tree.map(fn, keyvals)`, with a function that may raise. -/
def mapVals {α β : Type} (f : NDArray α → Option (NDArray β)) : Cache α → Option (Cache β)
  | [] => some []
  | (k, v) :: r =>
    match f v, mapVals f r with
    | some v', some r' => some ((k, v') :: r')
    | _, _ => none

/-- `cache_map`, lines 739-770. -/
def cacheMap {α : Type} (f : NDArray α → Option (NDArray α)) (applyToIndex : Bool) (c : Cache α) : Option (Cache α) :=
  let keyvals := if applyToIndex then c else c.filter fun e => e.1.getLast? ≠ some "cache_index"
  let keyvals := keyvals.filter fun e => e.1.getLast? ≠ some "cached_bias" ∧ e.1.getLast? ≠ some "position_embedder_index"
  match mapVals f keyvals with
  | none => none
  | some kv => some (PyDict.update c kv)

/-- `cache_gather_beams`, lines 808-870. -/
def cacheGatherBeams (c : Cache (Fl K)) (idx : Nat → Nat → Nat) (batch old new : Nat) (hot : Bool) (offset : Nat) : Option (Cache (Fl K)) :=
  if offset ≠ 0 ∧ offset ≠ 1 then none
  else if hot then cacheMap (gatherOneHot offset batch old new idx) false c
  else cacheMap (gatherFancy offset batch new idx) false c

/-- `gather_beams`, lines 873-915, for one array. -/
def gatherBeams (x : NDArray (Fl K)) (idx : Nat → Nat → Nat) (batch old new : Nat) (hot : Bool) : Option (NDArray (Fl K)) :=
  if hot then gatherOneHot 0 batch old new idx x else gatherFancy 0 batch new idx x

/-- `beam_init`, lines 1052-1056; `prefilled` tells whether there are prompts in the cache. -/
def beamInit {α : Type} (beam offset : Nat) (prefilled : Bool) (c : Cache α) : Option (Cache α) := cacheMap (addBeamDim beam offset) prefilled c

/-- The cache the model is called with, lines 1315-1317. -/
def flatCache {α : Type} (offset : Nat) (c : Cache α) : Option (Cache α) := cacheMap (flattenBeamDim offset) false c

/-- The cache after a step of beam search, lines 1334-1337 and 1449-1457, from what the model returns and the beams that survive. -/
def nextCache (batch beam offset : Nat) (idx : Nat → Nat → Nat) (new : Cache (Fl K)) : Option (Cache (Fl K)) :=
  match cacheMap (unflattenBeamDim batch beam offset) false new with
  | none => none
  | some c => cacheGatherBeams c idx batch beam beam true offset

/-- The inputs, cache and index for sampling several times, lines 357-374. -/
def expandAll {α : Type} (num offset : Nat) (prefilled : Bool) (inputs : NDArray α) (c : Cache α) (initial : NDArray α) :
    Option (NDArray α × Cache α × NDArray α) :=
  if num > 1 then
    match flatBatchBeamExpand num 0 inputs, cacheMap (flatBatchBeamExpand num offset) prefilled c,
      (if prefilled then flatBatchBeamExpand num 0 initial else some initial) with
    | some i, some c, some n => some (i, c, n)
    | _, _, _ => none
  else some (inputs, c, initial)

end Verif.BeamDims
