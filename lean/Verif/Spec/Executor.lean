import Verif.Model.Executor
/- What the user of the executor is entitled to see (property C38). -/
namespace Verif.Executor.Spec

variable {E : Type}

/-- The outcomes of the tasks submitted by a list of calls. -/
def submitted : List (Op E × (Nat → Bool)) → List (Option E)
  | [] => []
  | (.submit o, _) :: ops => o :: submitted ops
  | (.shutdown _, _) :: ops => submitted ops

/-- The exception of the first task that failed. -/
def firstFailure : List (Option E) → Option E
  | [] => none
  | some e :: _ => some e
  | none :: l => firstFailure l

end Verif.Executor.Spec
