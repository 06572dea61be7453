import Verif.Model.EarlyStop
/- When training should be stopped. -/
namespace Verif.EarlyStop.Spec
open Verif.EarlyStop

variable {K : Type} [Field K] [LinearOrder K]

/-- `cur` does not improve on `prev` by more than the tolerance. -/
def NoImprovement (c : Cfg K) (cur prev : K) : Prop :=
  match c.mode with
  | .min => prev - cur ≤ c.atol + c.rtol * |prev|
  | .max => cur - prev ≤ c.atol + c.rtol * |prev|

/-- Among the recorded values there are `patience` consecutive ones each of which (from the second) does not improve
on the one before. -/
def Stalled (c : Cfg K) (vs : List K) : Prop :=
  ∃ i, i + c.patience ≤ vs.length ∧ ∀ j, j + 1 < c.patience → ∀ a b, vs[i + j + 1]? = some a → vs[i + j]? = some b → NoImprovement c a b

end Verif.EarlyStop.Spec
