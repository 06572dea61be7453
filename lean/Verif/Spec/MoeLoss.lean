import Verif.Model.MoeLoss
import Verif.Spec.BaseMetrics
namespace Verif.MoeLoss.Spec
open Verif Verif.Metrics.Spec Verif.BaseMetrics Verif.BaseMetrics.Spec

variable {K : Type} [Field K] [LinearOrder K]

/-- The values that the layers have sown under a name. -/
def sown (state : State K) (m : Str) : List (List K) := (state.filter fun e => decide (e.1.getLast? = some m)).map Prod.snd

/-- The mean over the layers of the mean of what a layer has sown. -/
def layerMean (state : State K) (m : Str) : K :=
  ((sown state m).map fun v => v.sum / ((v.length : Nat) : K)).sum / ((sown state m).length : Nat)

/-- The layers sow arrays of one shape. -/
def SameShape (state : State K) : Prop := ∀ m, ∀ v ∈ sown state m, ∀ w ∈ sown state m, v.length = w.length

end Verif.MoeLoss.Spec
