import Verif.Model.TrainLoop
/-
Specification vocabulary for the training schedule.
-/
namespace Verif.TrainLoop.Spec

/-- Steps at which a checkpoint was saved, in chronological order. -/
def savedSteps (evs : List Event) : List Nat :=
  evs.filterMap fun | .save s => some s | _ => none

/-- Training steps executed, in chronological order. -/
def trainedSteps (evs : List Event) : List Nat :=
  evs.flatMap fun | .train s n => List.range' s n | _ => []

/-- Steps at which an evaluation of either kind ran. -/
def trainEvalSteps (evs : List Event) : List Nat :=
  evs.filterMap fun | .trainEval s => some s | _ => none
def inferEvalSteps (evs : List Event) : List Nat :=
  evs.filterMap fun | .inferEval s => some s | _ => none

/-- `s` is a whole number of periods after the first step. -/
def onPeriod (first period s : Nat) : Prop := (s - first) % period = 0

instance (a b c : Nat) : Decidable (onPeriod a b c) := by unfold onPeriod; infer_instance

/-- The steps at which the user expects a checkpoint: the first step, every
checkpoint period after it, the listed extra steps, and the last step. -/
def ShouldSave (first total period : Nat) (extra : List Nat) (s : Nat) : Prop :=
  s = first ∨ (first < s ∧ s ≤ total ∧ (onPeriod first period s ∨ s ∈ extra ∨ s = total))

instance (a b c : Nat) (d : List Nat) (e : Nat) : Decidable (ShouldSave a b c d e) := by
  unfold ShouldSave; infer_instance

/-- `checkpoint_steps` lists on which the loop is well behaved: increasing, the
last entry is on the regular period or outside `(first, total)`, and an entry on
the regular period is not directly followed by an off-period one that lies
within the next training block (`blockLen` steps). -/
structure GoodSteps (steps : List Nat) (first total period blockLen : Nat) : Prop where
  last : ∀ s, steps.getLast? = some s → first < s → s < total → onPeriod first period s
  gap : ∀ pre s s' post, steps = pre ++ s :: s' :: post → first < s → s' < total →
    onPeriod first period s → ¬ onPeriod first period s' → s + blockLen < s'

/-- Nobody asks to stop and nothing is preempted. -/
structure Quiet (env : Env) : Prop where
  t : ∀ s, env.trainStop s = false
  te : ∀ s, env.trainEvalStop s = false
  ie : ∀ s, env.inferEvalStop s = false
  p : ∀ s, env.preempt s = false

/-- `m` is one of the enabled periods, is non-zero and divides all of them: the
configurations that `train` accepts. `m` is then the length of an epoch. -/
def Compatible (c : Cfg) (m : Nat) : Prop :=
  let ev := if c.hasTrainEval ∨ c.hasInferEval then c.evalPeriod else 0
  m ≠ 0 ∧ (m = ev ∨ m = c.checkpointPeriod ∨ m = c.gcPeriod) ∧
    m ∣ ev ∧ m ∣ c.checkpointPeriod ∧ m ∣ c.gcPeriod

instance (c : Cfg) (m : Nat) : Decidable (Compatible c m) := by unfold Compatible; infer_instance

/-- Longest run of training steps between two looks at the stop flag. -/
def blockLen (c : Cfg) (m : Nat) : Nat :=
  if c.statsPeriod ≠ 0 then min c.statsPeriod m else m

/-- Steps in `(first, total]` at which a periodic evaluation is expected. -/
def ShouldEval (first total period s : Nat) : Prop :=
  first < s ∧ period ≠ 0 ∧ (onPeriod first period s ∨ s = total)

instance (a b c d : Nat) : Decidable (ShouldEval a b c d) := by unfold ShouldEval; infer_instance

/-- Requested number of steps: absolute, or relative to the start. -/
def totalOf (c : Cfg) (first : Nat) : Nat :=
  if c.relativeSteps ≠ 0 then first + c.relativeSteps else c.totalSteps

/-- The answer to "stop?" that was given last in a history of events: after a
block of training the TRAIN actions answer, after an evaluation its own actions.
With concurrent metrics the TRAIN and INFER_EVAL actions are not consulted. -/
def lastAnswer (c : Cfg) (env : Env) (evs : List Event) : Bool :=
  evs.foldl (fun b e => match e with
    | .train s n => if c.concurrentMetrics then b else env.trainStop (s + n)
    | .trainEval s => env.trainEvalStop s
    | .inferEval s => if c.concurrentMetrics then b else env.inferEvalStop s
    | .save _ => b) false

/-- No training starts while the last answer was "stop". -/
def StopsAtOnce (c : Cfg) (env : Env) (evs : List Event) : Prop :=
  ∀ pre s n post, evs = pre ++ .train s n :: post → lastAnswer c env pre = false

end Verif.TrainLoop.Spec
