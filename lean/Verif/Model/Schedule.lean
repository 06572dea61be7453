import Mathlib.Analysis.SpecialFunctions.Sqrt
import Mathlib.Analysis.SpecialFunctions.Trigonometric.Basic
import Mathlib.Algebra.Order.Floor.Ring
/-
Model of `create_learning_rate_scheduler`, t5x/utils.py:850-923, and
`round_vocab_size_to_multiple`, t5x/utils.py:2188-2193.

Simplified: arithmetic is over the reals (float rounding, `inf` and `nan` are not
modelled); `step` is an integer.
-/
namespace Verif.Schedule

abbrev Name := List Char

/-- The arguments of the scheduler except `factors`. -/
structure Cfg where
  base : ℝ
  warmup : ℕ
  decay : ℝ
  perDecay : ℕ
  perCycle : ℕ
  offset : ℤ
  minLr : ℝ

/-- `str.strip()`: removes white space at both ends. -/
def strip (s : Name) : Name :=
  ((s.dropWhile Char.isWhitespace).reverse.dropWhile Char.isWhitespace).reverse

/-- `str.split('*')`. -/
def splitStar : Name → List Name
  | [] => [[]]
  | c :: s =>
    if c = '*' then [] :: splitStar s
    else match splitStar s with
      | [] => [[c]]
      | w :: ws => (c :: w) :: ws

/-- utils.py:888: `[n.strip() for n in factors.split('*')]`. -/
def parse (s : Name) : List Name := (splitStar s).map strip

/-- `ValueError('Unknown factor')`, utils.py:919. -/
inductive Err where
  | unknownFactor (n : Name)

/-- The body of the loop, utils.py:895-919; `step` is already non-negative. -/
noncomputable def mul (c : Cfg) (step : ℤ) (ret : ℝ) (name : Name) : Except Err ℝ :=
  if name = "constant".toList then .ok (ret * c.base)
  else if name = "linear_warmup".toList then .ok (ret * min 1 ((step : ℝ) / c.warmup))
  else if name = "linear_decay".toList then
    .ok (ret * (c.base * min ((step : ℝ) / c.warmup) (1 + c.decay * (c.warmup - step))))
  else if name = "rsqrt_decay".toList then .ok (ret / √(max (step : ℝ) c.warmup))
  else if name = "rsqrt_normalized_decay".toList then
    .ok (ret * √c.warmup / √(max (step : ℝ) c.warmup))
  else if name = "decay_every".toList then .ok (ret * c.decay ^ (step / (c.perDecay : ℤ)))
  else if name = "cosine_decay".toList then
    let progress := max 0 (((step : ℝ) - c.warmup) / c.perCycle)
    .ok (ret * max 0 (0.5 * (1 + Real.cos (Real.pi * Int.fract progress))))
  else .error (.unknownFactor name)

/-- The loop over the factors, utils.py:894-919. -/
noncomputable def mulAll (c : Cfg) (step : ℤ) : List Name → ℝ → Except Err ℝ
  | [], ret => .ok ret
  | n :: ns, ret =>
    match mul c step ret n with
    | .error e => .error e
    | .ok ret => mulAll c step ns ret

/-- `step_fn`, utils.py:890-921. -/
noncomputable def stepFn (factors : Name) (c : Cfg) (step : ℤ) : Except Err ℝ :=
  match mulAll c (max 0 (step - c.offset)) (parse factors) 1 with
  | .error e => .error e
  | .ok ret => .ok (max ret c.minLr)

/-- `round_vocab_size_to_multiple`, utils.py:2188-2193; Python's `%` is floored
division, `Int.fmod`. -/
def roundVocab (size divisor : ℤ) : ℤ := size + (-size).fmod divisor

end Verif.Schedule
