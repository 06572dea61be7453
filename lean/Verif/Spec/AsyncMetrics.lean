import Verif.Model.AsyncMetrics
/-
What the summaries of a sequence of calls should be.
-/
namespace Verif.AsyncMetrics.Spec
open Verif.AsyncMetrics

variable {τ : Type}

/-- A measured period: from the value given to `start_duration_timer` to the metrics given to `write_metrics_summary`. -/
structure Period (τ : Type) where
  start : τ
  metrics : τ
  step : Nat
  n : Nat

/-- The periods of a sequence of calls: every summary belongs to the last start before it, and there is none after a summary without a
start of its own (ValueError).  The first argument is the last start not used yet. -/
def periods : Option τ → List (Call τ) → List (Period τ)
  | _, .start on :: cs => periods (some on) cs
  | some on, .summary m k n :: cs => ⟨on, m, k, n⟩ :: periods none cs
  | none, .summary _ _ _ :: _ => []
  | st, .scalars _ :: cs => periods st cs
  | st, .flush :: cs => periods st cs
  | _, [] => []

/-- The summaries in a log. -/
def summaries (l : List Entry) : List (Nat × Nat × Int) :=
  l.filterMap fun e => match e with
    | .summary k n d => some (k, n, d)
    | .scalars _ => none

/-- The summaries `es` are those of the first periods: each has the period's step and number of steps and the duration from a time
`a` when the period's first value was ready to a time `b` when its metrics were ready; the periods follow each other in time. -/
def Measured (readyAt : τ → Option Int) (now : Int) : Int → List (Period τ) → List (Nat × Nat × Int) → Prop
  | _, _, [] => True
  | _, [], _ :: _ => False
  | lo, p :: ps, e :: es => ∃ a b, lo ≤ a ∧ a ≤ b ∧ b ≤ now ∧ (∃ r, readyAt p.start = some r ∧ r ≤ a) ∧
      (∃ r, readyAt p.metrics = some r ∧ r ≤ b) ∧ e = (p.step, p.n, b - a) ∧ Measured readyAt now b ps es

/-- The call lists in which every summary has a start of its own. -/
def Started : Bool → List (Call τ) → Prop
  | _, .start _ :: cs => Started true cs
  | b, .summary _ _ _ :: cs => b = true ∧ Started false cs
  | b, .scalars _ :: cs => Started b cs
  | b, .flush :: cs => Started b cs
  | _, [] => True

/-- `k` steps of the main and worker threads, with nothing else happening. -/
inductive Runs : Nat → State τ → State τ → Prop
  | zero (s) : Runs 0 s s
  | main {k s s' s''} : Main s s' → Runs k s' s'' → Runs (k + 1) s s''
  | worker {k s s' s''} : Worker s s' → Runs k s' s'' → Runs (k + 1) s s''

end Verif.AsyncMetrics.Spec
