import Verif.Common
import Mathlib.Algebra.Order.Field.Basic
/-
t5x/trainer.py:1100-1222 `EarlyStoppingAction`.  Numbers are an ordered field (no NaN).
-/
namespace Verif.EarlyStop

inductive Mode | min | max
deriving DecidableEq, Repr

/-- trainer.py:1139-1153. -/
structure Cfg (K : Type) where
  mode : Mode
  patience : Nat
  atol : K
  rtol : K

variable {K : Type} [Field K] [LinearOrder K]

/-- trainer.py:1155-1160 `_compare_fn`. -/
def compareFn (c : Cfg K) (current previous : K) : Bool :=
  let delta := c.atol + c.rtol * |previous|
  match c.mode with
  | .min => decide (current ≥ previous - delta)
  | .max => decide (current ≤ previous - (delta * -1))

/-- trainer.py:1206-1209. -/
def stalled (c : Cfg K) (h : List K) : Bool :=
  (List.range (c.patience - 1)).all (fun i =>
    match h[i + 1]?, h[i]? with
    | some a, some b => compareFn c a b
    | _, _ => false)

/-- trainer.py:1162-1222 `run`.  The input is `none` when the task or metric is missing or not a scalar.  Returns the
new history and the answer. -/
def run (c : Cfg K) (h : List K) : Option K → List K × Bool
  | none => (h, false)
  | some v =>
    let h := h ++ [v]
    if h.length < c.patience then (h, false)
    else if stalled c h then (h, true)
    else (h.drop 1, false)

/-- All runs of an action, from the empty history: the last history and the answers. -/
def runs (c : Cfg K) : List K → List (Option K) → List K × List Bool
  | h, [] => (h, [])
  | h, v :: vs =>
    let r := run c h v
    let rs := runs c r.1 vs
    (rs.1, r.2 :: rs.2)

end Verif.EarlyStop
