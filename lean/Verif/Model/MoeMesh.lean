import Verif.Model.Mesh
/-
`default_moe_mesh` (`/repo/t5x/contrib/moe/partitioning.py`, lines 59-118), given the array of devices of the base mesh.
-/
namespace Verif.MoeMesh
open Verif.ND Verif.Mesh

inductive Err where
  | zeroDivision   -- `data_axis_size % 0`
  | badRank        -- the base mesh does not have two axes
  | badReshape     -- ValueError of `reshape`
deriving DecidableEq

/-- The while loop of lines 102-104, starting from `num_expert_partitions`; `none` is the ZeroDivisionError. -/
def expertAxis (data : Nat) : Nat → Option Nat
  | 0 => none
  | e + 1 => if data % (e + 1) ≠ 0 then expertAxis data e else some (e + 1)

/-- Lines 98-109: the devices of the 3D mesh. -/
def defaultMoeMesh {D : Type} (base : NDArray D) (numExpertPartitions : Nat) : Except Err (NDArray D) :=
  match base.shape with
  | [data, model] =>
    match expertAxis data numExpertPartitions with
    | none => .error .zeroDivision
    | some e =>
      -- `reshape(-1, e, model)`
      if e * model = 0 ∨ base.shape.prod % (e * model) ≠ 0 then .error .badReshape
      else
        match reshape base [base.shape.prod / (e * model), e, model] with
        | none => .error .badReshape
        | some r => .ok r
  | _ => .error .badRank

end Verif.MoeMesh
