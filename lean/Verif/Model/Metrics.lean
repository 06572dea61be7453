import Verif.Common
import Mathlib.Algebra.Field.Basic
import Mathlib.Algebra.BigOperators.Group.List.Basic
/-
Metrics and their merging: t5x/metrics.py, t5x/trainer.py:69-84 and 402-436.

Numbers are a field, so addition is exact (floats are not).  `clu.metrics.Average` and `clu.metrics.LastValue`, used
next to the metrics of t5x, are modelled from their documentation: pairwise sums, and the later value.
-/
namespace Verif.Metrics

variable {K : Type}

/-- metrics.py:52-246.  `steps` and `total` are set by every `from_model_output` (a `None` there needs a caller that
passes it); `dur` is the duration, `None` until it is set. -/
inductive Metric (K : Type) where
  | sum (total : K)
  | avgStep (total : K) (steps : Nat)
  | time (dur : Option K)
  | timeRate (num : K) (dur : Option K)
  | stepsPerTime (steps : Nat) (dur : Option K)
  | average (total count : K)
  | last (value : K)
deriving DecidableEq, Repr

inductive Err | assertion | value | attribute | structure
deriving DecidableEq, Repr

/-- metrics.py:62-74 `Sum.from_model_output`; 114-130 `AveragePerStep.from_model_output` on the values of an array. -/
def sumFrom [AddMonoid K] (values : List K) : Metric K := .sum values.sum

def avgStepFrom [AddMonoid K] (values : List K) (steps : Nat := 1) : Metric K := .avgStep values.sum steps

/-- The `merge` methods: metrics.py:76-77, 132-135, 157-158, 208-211, 239-241. -/
def merge [Add K] : Metric K → Metric K → Except Err (Metric K)
  | .sum a, .sum b => .ok (.sum (a + b))
  | .avgStep a s, .avgStep b t => .ok (.avgStep (a + b) (s + t))
  | .time d, _ => .ok (.time d)
  | .timeRate a d, .timeRate b e =>
    if d.isNone ∧ e.isNone then .ok (.timeRate (a + b) none) else .error .assertion
  | .stepsPerTime s _, .stepsPerTime t _ => .ok (.stepsPerTime (s + t) none)
  | .average a c, .average b d => .ok (.average (a + b) (c + d))
  | .last _, .last v => .ok (.last v)
  | .avgStep _ _, _ => .error .assertion
  | .stepsPerTime _ _, _ => .error .assertion
  | _, _ => .error .attribute

/-- The `compute` methods: metrics.py:79-80, 97-102, 137-141, 160-165, 213-215, 243-246. -/
def compute [Field K] : Metric K → Except Err K
  | .sum t => .ok t
  | .avgStep t s => .ok (t / s)
  | .time (some d) => .ok d
  | .timeRate n (some d) => .ok (n / d)
  | .stepsPerTime s (some d) => .ok (s / d)
  | .average t c => .ok (t / c)
  | .last v => .ok v
  | .time none | .timeRate _ none | .stepsPerTime _ none => .error .value

/-- metrics.py:292-301, one metric. -/
def setDuration (d : K) : Metric K → Metric K
  | .time _ => .time (some d)
  | .timeRate n _ => .timeRate n (some d)
  | .stepsPerTime s _ => .stepsPerTime s (some d)
  | m => m

/-- metrics.py:304-313, one metric. -/
def setSteps (n : Nat) : Metric K → Metric K
  | .avgStep t _ => .avgStep t n
  | .stepsPerTime _ d => .stepsPerTime n d
  | m => m

/-- A dict of metrics in the (sorted) key order in which jax traverses it. -/
abbrev Dict (K : Type) := List (List Char × Metric K)

/-- trainer.py:69-84 `merge_metrics`: `tree_map` needs equal keys and merges entry by entry. -/
def mergeDict [Add K] : Dict K → Dict K → Except Err (Dict K)
  | [], [] => .ok []
  | (k, m) :: a, (l, n) :: b =>
    if k = l then
      match merge m n, mergeDict a b with
      | .ok r, .ok rs => .ok ((k, r) :: rs)
      | .error e, _ => .error e
      | _, .error e => .error e
    else .error .structure
  | _, _ => .error .structure

/-- trainer.py:407-434 `_summarize_and_write`: set the duration, then the steps, then compute. -/
def summarize [Field K] (duration : K) (numSteps : Nat) (m : Metric K) : Except Err K :=
  compute (setSteps numSteps (setDuration duration m))

def summarizeDict [Field K] (duration : K) (numSteps : Nat) (d : Dict K) : List (List Char × Except Err K) :=
  d.map (fun e => (e.1, summarize duration numSteps e.2))

end Verif.Metrics
