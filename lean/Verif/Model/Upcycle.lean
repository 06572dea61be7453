import Verif.Model.NDArray
/-
Sparse upcycling, `/repo/t5x/contrib/moe/checkpoints.py`: reading the dense checkpoint of a model into a mixture-of-experts model.

Simplifications: tensorstore arrays are `NDArray`s; dtypes are reduced to being uint16 or not, and casts are left out (they are those of
`Verif.Model.SaveRestore`); distributed arrays are the arrays they stand for; `asserts` are errors.
-/
namespace Verif.Upcycle
open Verif.ND

abbrev Str := List Char

inductive Err where
  | shape      -- ValueError: the shape in the checkpoint does not match
  | uint16     -- ValueError: unsupported uint16
  | assertion  -- AssertionError: no local chunk info
  | index      -- IndexError: too many indices
deriving DecidableEq, Repr

/-- `_ParameterInfo`: the name, the shape, and the slice of the local chunk (`none` for a whole dimension), if there is one. -/
structure PInfo where
  name : Str
  shape : List Nat
  chunk : Option (List (Option (Nat × Nat)))

/-- What the checkpoint has: an array in the msgpack file, or a tensorstore array. -/
inductive Entry (α : Type) where
  | val (a : NDArray α)
  | spec (uint16 : Bool) (stored : NDArray α)

variable {α : Type}

/-- `sub in s`. -/
def contains (sub s : Str) : Bool := s.tails.any sub.isPrefixOf

/-- `name.endswith('/m') or name.endswith('/v')`, lines 213-214. -/
def mOrV (name : Str) : Bool := "/m".toList.isSuffixOf name || "/v".toList.isSuffixOf name

/-- `'expert/' in param_name`, line 215. -/
def isExpert (name : Str) : Bool := contains "expert/".toList name

/-- The shape of `a[sl]`; `none` for too many indices. -/
def cutShape : List (Option (Nat × Nat)) → List Nat → Option (List Nat)
  | [], s => some s
  | _ :: _, [] => none
  | none :: sl, n :: s => (cutShape sl s).map (n :: ·)
  | some (lo, hi) :: sl, n :: s => (cutShape sl s).map ((min hi n - min lo n) :: ·)

/-- The index in `a` of an index of `a[sl]`. -/
def shift : List (Option (Nat × Nat)) → List Nat → List Nat
  | none :: sl, i :: is => i :: shift sl is
  | some (lo, _) :: sl, i :: is => (lo + i) :: shift sl is
  | _, is => is

/-- `a[sl]`. -/
def cut (a : NDArray α) (sl : List (Option (Nat × Nat))) : Except Err (NDArray α) :=
  match cutShape sl a.shape with
  | none => .error .index
  | some s => .ok ⟨s, fun i => a.get (shift sl i)⟩

/-- `np.repeat(a[None], n, axis=0)`. -/
def repeatFirst (n : Nat) (a : NDArray α) : NDArray α := ⟨n :: a.shape, fun i => a.get i.tail⟩

/-- `_read_upcycle_ts`, lines 169-320.  `sharded` says whether mesh and axes are given. -/
def readUpcycle (numExperts : Nat) (sharded : Bool) (info : PInfo) : Entry α → Except Err (NDArray α)
  | .val a =>
    if sharded then .ok a
    else match info.chunk with
      | some sl => cut a sl
      | none => .ok a
  | .spec uint16 stored =>
    let upcycled := !mOrV info.name && isExpert info.name
    if stored.shape ≠ (if upcycled then info.shape.tail else info.shape) then .error .shape
    else if uint16 then .error .uint16
    else if sharded then
      if upcycled then
        match info.chunk with
        | none => .error .assertion
        | some sl =>
          match cut stored sl.tail with
          | .error e => .error e
          | .ok a => .ok (repeatFirst numExperts a)
      else .ok stored
    else match info.chunk with
      | some sl => cut stored sl
      | none => .ok stored

end Verif.Upcycle
