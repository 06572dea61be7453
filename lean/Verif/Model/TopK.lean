import Verif.Common
import Mathlib.Data.List.Sort
import Mathlib.Order.BoundedOrder.Basic
/-
Model of t5x/decoding.py:918-966 `top_k_two_stage`, for one row.

Scores are a linear order with least element `⊥` (`-inf`); NaN is excluded.
`lax.top_k` is modelled by its documentation: the `k` largest entries in decreasing
order, of equal entries the one with the lower index first.
-/
namespace Verif.TopK

variable {V : Type} [LinearOrder V]

/-- The order in which `lax.top_k` lists (value, index) pairs. -/
def Before (a b : V × Nat) : Prop := b.1 < a.1 ∨ (a.1 = b.1 ∧ a.2 ≤ b.2)

instance : DecidableRel (Before (V := V)) := fun a b => by unfold Before; infer_instance

/-- All (value, index) pairs of a row whose first index is `off`. -/
def indexed (off : Nat) (x : List V) : List (V × Nat) := x.zipIdx off

/-- `lax.top_k` on one row: values with their indices. -/
def topK (x : List V) (k : Nat) : List (V × Nat) := ((indexed 0 x).insertionSort Before).take k

/-- decoding.py:935-946: pad with `-inf` to a multiple of the number of lanes. -/
def padRow [OrderBot V] (lanes : Nat) (x : List V) : List V :=
  if x.length % lanes ≠ 0 then x ++ List.replicate (lanes - x.length % lanes) ⊥ else x

/-- decoding.py:948-952: row `l` of the reshaped array, and its first-stage result with the
index offset added (953-955). -/
def lane (x : List V) (sub l : Nat) : List V := (x.drop (l * sub)).take sub

def laneTopK (x : List V) (sub k l : Nat) : List (V × Nat) :=
  (topK (lane x sub l) k).map (fun p => (p.1, sub * l + p.2))

/-- decoding.py:918-966 with `lanes` for 128. -/
def topKTwoStageLanes [OrderBot V] (lanes : Nat) (x : List V) (k : Nat) : List (V × Nat) :=
  let x := padRow lanes x
  let sub := x.length / lanes
  let cand := (List.range lanes).flatMap (laneTopK x sub k)
  (topK (cand.map (·.1)) k).map (fun p => (p.1, (cand.map (·.2)).getD p.2 0))

/-- decoding.py:918-966. -/
def topKTwoStage [OrderBot V] (batch : Nat) (x : List V) (k : Nat) : List (V × Nat) :=
  if batch ≤ 8 ∧ x.length > 8 * 128 * k then topKTwoStageLanes 128 x k else topK x k

end Verif.TopK
