import Verif.Model.NDArray
import Mathlib.Data.Real.Basic
import Mathlib.Algebra.BigOperators.Group.Finset.Basic
import Mathlib.Analysis.SpecialFunctions.Sqrt
/-
The operations of jax.numpy and lax that the layers of `/repo/t5x/examples/t5/layers.py` call, on row-major arrays of any rank
(`Verif.Model.NDArray`), in exact arithmetic.  These are models of JAX's documented semantics; JAX itself is not part of the repository.
`none` stands for the exception raised for shapes that do not fit.
-/
namespace Verif.Arr
open Verif.ND

/-- The sum over all index vectors inside a shape. -/
noncomputable def sumBox : List Nat → (List Nat → ℝ) → ℝ
  | [], f => f []
  | n :: s, f => ∑ i ∈ Finset.range n, sumBox s fun is => f (i :: is)

/-- A function applied to every element (`a > 0`, `a / c`, `lax.square`, `astype`, …). -/
def mapA {α β : Type} (f : α → β) (a : NDArray α) : NDArray β := ⟨a.shape, fun i => f (a.get i)⟩

/-- Broadcasting of one dimension: equal, or one of them is 1. -/
def bdim (m n : Nat) : Option Nat := if m = n then some m else if m = 1 then some n else if n = 1 then some m else none

/-- Broadcasting of two shapes of equal rank. -/
def bdims : List Nat → List Nat → Option (List Nat)
  | [], [] => some []
  | m :: s, n :: t => (bdim m n).bind fun k => (bdims s t).map fun r => k :: r
  | _, _ => none

/-- A shape with dimensions of size 1 in front, up to a rank. -/
def padTo (n : Nat) (s : List Nat) : List Nat := List.replicate (n - s.length) 1 ++ s

/-- `np.broadcast_shapes(s, t)`. -/
def bshape (s t : List Nat) : Option (List Nat) := bdims (padTo (max s.length t.length) s) (padTo (max s.length t.length) t)

/-- The index into an operand of shape `s` for an index of the broadcast result: the last entries, 0 along dimensions of size 1. -/
def bindex (s i : List Nat) : List Nat := List.zipWith (fun n k => if n = 1 then 0 else k) s (i.drop (i.length - s.length))

/-- An elementwise operation on two arrays, with broadcasting. -/
def zipA {α β γ : Type} (f : α → β → γ) (a : NDArray α) (b : NDArray β) : Option (NDArray γ) :=
  (bshape a.shape b.shape).map fun s => ⟨s, fun i => f (a.get (bindex a.shape i)) (b.get (bindex b.shape i))⟩

/-- `jnp.broadcast_to(a, shape)`. -/
def broadcastTo {α : Type} (a : NDArray α) (shape : List Nat) : Option (NDArray α) :=
  if bshape a.shape shape = some shape then some ⟨shape, fun i => a.get (bindex a.shape i)⟩ else none

/-- An axis given as a possibly negative number; `none` if it is out of range. -/
def normAxis (rank : Nat) (ax : Int) : Option Nat :=
  let k := if ax ≥ 0 then ax else rank + ax
  if 0 ≤ k ∧ k < rank then some k.toNat else none

/-- Several axes, `_normalize_axes` (layers.py lines 349-351); an axis out of range makes the indexing of the shape raise. -/
def normAxes (rank : Nat) : List Int → Option (List Nat)
  | [] => some []
  | ax :: rest => (normAxis rank ax).bind fun k => (normAxes rank rest).map fun ks => k :: ks

/-- `jnp.expand_dims(a, axis)`: the axis refers to the result.  `a[..., jnp.newaxis]` is the case -1, `a[jnp.newaxis, ...]` the case 0. -/
def expandDims {α : Type} (a : NDArray α) (ax : Int) : Option (NDArray α) :=
  (normAxis (a.shape.length + 1) ax).map fun k => ⟨a.shape.insertIdx k 1, fun i => a.get (i.eraseIdx k)⟩

/-- `jnp.squeeze(a, axis=0)`. -/
def squeezeFirst {α : Type} (a : NDArray α) : Option (NDArray α) :=
  match a.shape with
  | 1 :: s => some ⟨s, fun i => a.get (0 :: i)⟩
  | _ => none

/-- `jnp.moveaxis(a, source, destination)`: the other axes keep their order. -/
def moveAxis {α : Type} (a : NDArray α) (src dst : Int) : Option (NDArray α) :=
  (normAxis a.shape.length src).bind fun s =>
  (normAxis a.shape.length dst).bind fun t =>
    transpose a (((List.range a.shape.length).erase s).insertIdx t s)

/-- `jnp.arange(n)` and `lax.iota(jnp.int32, n)`. -/
def arange (n : Nat) : NDArray Int := ⟨[n], fun i => (i.getD 0 0 : Nat)⟩

/-- `jax.nn.one_hot(cur, n)`. -/
def oneHotA (cur n : Nat) : NDArray ℝ := ⟨[n], fun i => if i.getD 0 0 = cur then 1 else 0⟩

/-- `jnp.zeros(shape)`. -/
def zerosA (shape : List Nat) : NDArray ℝ := ⟨shape, fun _ => 0⟩

/-- The axes that are not contracted, in order. -/
def freeAxes (rank : Nat) (c : List Nat) : List Nat := (List.range rank).filter fun k => k ∉ c

/-- The index vector of an operand from the index along the free axes and the one along the contracted axes. -/
def place (rank : Nat) (c free con : List Nat) : List Nat :=
  (List.range rank).map fun k => if k ∈ c then con.getD (c.idxOf k) 0 else free.getD ((freeAxes rank c).idxOf k) 0

/-- The sizes of some axes. -/
def sizes (s axes : List Nat) : List Nat := axes.map fun k => s.getD k 0

/-- `lax.dot_general(a, b, ((ca, cb), ((), ())))`: the free axes of `a`, then those of `b`.  `jnp.dot(a, b)` for a 2-D `b` is the case
in which the last axis of `a` and the first one of `b` are contracted. -/
noncomputable def dotGeneral (a b : NDArray ℝ) (ca cb : List Nat) : Option (NDArray ℝ) :=
  if (ca.Nodup ∧ ∀ k ∈ ca, k < a.shape.length) ∧ (cb.Nodup ∧ ∀ k ∈ cb, k < b.shape.length) ∧ sizes a.shape ca = sizes b.shape cb then
    let fa := freeAxes a.shape.length ca
    let fb := freeAxes b.shape.length cb
    some ⟨sizes a.shape fa ++ sizes b.shape fb, fun i => sumBox (sizes a.shape ca) fun c =>
      a.get (place a.shape.length ca (i.take fa.length) c) * b.get (place b.shape.length cb (i.drop fa.length) c)⟩
  else none

/-- The value of a label under an assignment. -/
def labelOf (env : List (Char × Nat)) (l : Char) : Nat := (env.lookup l).getD 0

/-- `jnp.einsum('la,lb->lo', a, b)` for operands in which no label occurs twice: every label has one size; the sum is over the labels
that are not in the result. -/
noncomputable def einsum (la lb lo : List Char) (a b : NDArray ℝ) : Option (NDArray ℝ) :=
  let dims := la.zip a.shape ++ lb.zip b.shape
  let summed := (la ++ lb).dedup.filter fun l => l ∉ lo
  if la.length = a.shape.length ∧ lb.length = b.shape.length ∧ ∀ p ∈ dims, labelOf dims p.1 = p.2 then
    some ⟨lo.map (labelOf dims), fun i => sumBox (summed.map (labelOf dims)) fun c =>
      let env := lo.zip i ++ summed.zip c
      a.get (la.map (labelOf env)) * b.get (lb.map (labelOf env))⟩
  else none

/-- The index with another last entry. -/
def setLast (i : List Nat) (k : Nat) : List Nat := i.dropLast ++ [k]

/-- `jax.nn.softmax(a)` over the last axis; the maximum is subtracted first.  `ex` is the exponential function. -/
noncomputable def softmaxLast (ex : ℝ → ℝ) (a : NDArray ℝ) : NDArray ℝ :=
  let n := a.shape.getLastD 1
  let top := fun i => ⨆ k : Fin n, a.get (setLast i k)
  ⟨a.shape, fun i => ex (a.get i - top i) / ∑ k ∈ Finset.range n, ex (a.get (setLast i k) - top i)⟩

/-- `jnp.mean(a, axis=-1, keepdims=True)`. -/
noncomputable def meanLast (a : NDArray ℝ) : NDArray ℝ :=
  let n := a.shape.getLastD 1
  ⟨setLast a.shape 1, fun i => (∑ k ∈ Finset.range n, a.get (setLast i k)) / n⟩

/-- `lax.dynamic_slice_in_dim(a, start, 1, -2)` mapped over a vector of starts (`dynamic_vector_slice_in_dim`, layers.py lines 134-136): a new
first axis; a start beyond the end is clamped. -/
def vectorSlice {α : Type} (a : NDArray α) (starts : List Nat) : Option (NDArray α) :=
  let r := a.shape.length
  if 2 ≤ r ∧ 1 ≤ a.shape.getD (r - 2) 0 then
    some ⟨starts.length :: a.shape.set (r - 2) 1, fun i =>
      let rest := i.drop 1
      a.get (rest.set (r - 2) (min (starts.getD (i.getD 0 0) 0) (a.shape.getD (r - 2) 0 - 1) + rest.getD (r - 2) 0))⟩
  else none

end Verif.Arr
