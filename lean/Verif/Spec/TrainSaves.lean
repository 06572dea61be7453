import Verif.Spec.TrainLoop
/-
Vocabulary for what is known about a run of `train` however it ends.
-/
namespace Verif.TrainLoop.Spec

/-- The state of the world when `train` returns or raises. -/
def atEnd : Except (Err × St) St → St
  | .ok st => st
  | .error (_, st) => st

/-- Every checkpoint written during the run is faithful: when the checkpoint of
step `s` is written, the training steps executed so far are exactly
`first, …, s - 1`, each once and in order. -/
def FaithfulSaves (first : Nat) (evs : List Event) : Prop :=
  ∀ pre s post, evs = pre ++ .save s :: post →
    first ≤ s ∧ trainedSteps pre = List.range' first (s - first)

end Verif.TrainLoop.Spec
