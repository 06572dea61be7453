import Verif.Common
/-
Row-major n-dimensional arrays, as far as `/repo/t5x/partitioning.py:get_mesh`
(lines 105-259) and `/repo/t5x/contrib/moe/partitioning.py:default_moe_mesh`
(lines 59-118) use numpy's: `np.empty` + item assignment, `swapaxes`,
`transpose` and `reshape`.  The element at an index outside the shape is
irrelevant (numpy would raise IndexError).
-/
namespace Verif.ND

/-- An array: its shape and the element at each index vector. -/
structure NDArray (α : Type) where
  shape : List Nat
  get : List Nat → α

/-- The index vector `i` is inside the shape `s`: same rank, every entry below
the bound. -/
def InBox (s i : List Nat) : Prop := List.Forall₂ (· < ·) i s

/-- Position of an index vector in the row-major flat order
(`np.ravel_multi_index`). -/
def ravel : List Nat → List Nat → Nat
  | _ :: ss, i :: is => i * ss.prod + ravel ss is
  | _, _ => 0

/-- Index vector of a flat position (`np.unravel_index`). -/
def unravel : List Nat → Nat → List Nat
  | [], _ => []
  | _ :: ss, k => (k / ss.prod) :: unravel ss (k % ss.prod)

/-- `a.reshape(*shape)`; ValueError (here `none`) if the sizes differ. -/
def reshape {α : Type} (a : NDArray α) (shape : List Nat) : Option (NDArray α) :=
  if shape.prod = a.shape.prod then
    some ⟨shape, fun i => a.get (unravel a.shape (ravel shape i))⟩
  else none

/-- `a.reshape(-1, m)`. -/
def reshapeRows {α : Type} (a : NDArray α) (m : Nat) : Option (NDArray α) :=
  if m = 0 ∨ a.shape.prod % m ≠ 0 then none
  else reshape a [a.shape.prod / m, m]

/-- `a.transpose(*axes)`; ValueError (here `none`) unless `axes` is a permutation of the
axes.  The element at index `i` of the result is the one whose index along axis `axes[j]` is
`i[j]`. -/
def transpose {α : Type} (a : NDArray α) (axes : List Nat) : Option (NDArray α) :=
  if axes.Perm (List.range a.shape.length) then
    some ⟨axes.map (fun k => a.shape.getD k 0),
      fun i => a.get ((List.range a.shape.length).map (fun k => i.getD (axes.idxOf k) 0))⟩
  else none

/-- The axes `*(w*i for i in range(n)), *(w*i+1 for i in range(n)), …`, the
argument of `transpose` on partitioning.py:229-234 (`w = 4`) and 245-246
(`w = 2`). -/
def blockAxes (w n : Nat) : List Nat :=
  (List.range w).flatMap (fun r => (List.range n).map (fun q => w * q + r))

end Verif.ND
