import Verif.Model.EvalAll
namespace Verif.EvalAll.Spec
open Verif Verif.Ckpt

/-- The path of the checkpoint of step `s` in directory `d`. -/
def ckptPath (d : Name) (s : Nat) : Name := pathJoin d ("checkpoint_".toList ++ Nat.toDigits 10 s)

/-- A newline is a blank, the characters of checkpoint names are not; no blanks in the configured directories. -/
structure Setting (env : Env) (dirs : List Name) : Prop where
  enum : ∀ l, (env.enum l).Perm l
  newline : env.ws '\n' = true
  plain : ∀ c ∈ "checkpoint_/0123456789".toList, env.ws c = false
  dirs : ∀ d ∈ dirs, ∀ c ∈ d, env.ws c = false

/-- A run that is not killed while the record is being written, on directories of native checkpoints (any steps). -/
def Quiet (dirs : List Name) (h : RestoreCfg.World × Option (Nat × Phase)) : Prop :=
  (∀ d ∈ dirs, h.1.tfPaths d = none ∧ (h.1.steps d).Pairwise (· < ·)) ∧ ∀ n k, h.2 ≠ some (n, .writing k)

/-- The paths evaluated, in order. -/
def evaluations (es : List Event) : List Name := es.filterMap fun e => match e with
  | .evaluated p => some p
  | _ => none

end Verif.EvalAll.Spec
