import Verif.Model.Adafactor
import Mathlib.Analysis.SpecialFunctions.Pow.Real
/-
The numbers of Adafactor (`/repo/t5x/adafactor.py`): the model of `Verif.Model.Adafactor` with the arithmetic of real numbers.

Simplifications: no rounding, no NaN, casts do nothing.  `x ** -0.5` and divisions by zero, which are infinite, do not occur for a positive
`epsilon1` from the step `step_offset` on.
-/
namespace Verif.AdafactorNum
open Verif.Adafactor

open Classical in
/-- The operations on reals; `decayPow` is `_decay_rate_pow`, lines 312-316. -/
noncomputable def realOps : Ops ℝ where
  add := (· + ·)
  sub := (· - ·)
  mul := (· * ·)
  div := (· / ·)
  max := max
  min := min
  pow := fun x y => x ^ y
  sqrt := Real.sqrt
  rsqrt := fun x => (√x)⁻¹
  mean := fun l => l.sum / l.length
  isnan := fun _ => false
  zero := 0
  one := 1
  isZero := fun x => decide (x = 0)
  decayPow := fun i e => 1 - ((i : ℝ) + 1) ^ (-e)
  castG := id
  castM := id
  castP := id

end Verif.AdafactorNum
