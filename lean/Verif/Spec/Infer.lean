import Verif.Common
/- What is expected of a pass of inference over a data set `xs` (property C36), independent of batching and sharding. -/
namespace Verif.Infer.Spec

/-- The indices `0, 1, …, N - 1` of a data set of `N` examples. -/
abbrev indices (N : Nat) : List Int := (List.range N).map Int.ofNat

/-- `Own Result xs e`: the output `e = (index, result)` carries a result of the example with that index. -/
def Own {X Y : Type} (Result : X → Y → Prop) (xs : List X) (e : Int × Y) : Prop :=
  ∃ i : Nat, ∃ x, e.1 = i ∧ xs[i]? = some x ∧ Result x e.2

/-- The inference step returns, row by row, a result of the example of the row (for any random key and any company). -/
def RowWise {X Y : Type} (Result : X → Y → Prop) (step : Nat → List X → List Y) : Prop :=
  ∀ (k : Nat) (b : List X), List.Forall₂ Result b (step k b)

end Verif.Infer.Spec
