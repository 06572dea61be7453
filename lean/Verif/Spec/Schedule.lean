import Verif.Model.Schedule
/-
The documented meaning of the schedule factors.
-/
namespace Verif.Schedule.Spec
open Verif.Schedule

/-- The seven documented factors. -/
inductive Factor where
  | constant | linearWarmup | linearDecay | rsqrtDecay | rsqrtNormalizedDecay | decayEvery | cosineDecay
  deriving DecidableEq, Repr

def Factor.name : Factor → Name
  | constant => "constant".toList
  | linearWarmup => "linear_warmup".toList
  | linearDecay => "linear_decay".toList
  | rsqrtDecay => "rsqrt_decay".toList
  | rsqrtNormalizedDecay => "rsqrt_normalized_decay".toList
  | decayEvery => "decay_every".toList
  | cosineDecay => "cosine_decay".toList

/-- What each factor contributes `n` steps after the offset, case by case. -/
noncomputable def Factor.value (c : Cfg) (n : ℕ) : Factor → ℝ
  | constant => c.base
  | linearWarmup => if n < c.warmup then (n : ℝ) / c.warmup else 1
  | linearDecay =>
    if n ≤ c.warmup then c.base * ((n : ℝ) / c.warmup) else c.base * (1 - c.decay * (n - c.warmup))
  | rsqrtDecay => if n ≤ c.warmup then 1 / √c.warmup else 1 / √n
  | rsqrtNormalizedDecay => if n ≤ c.warmup then 1 else √(c.warmup / n)
  | decayEvery => c.decay ^ (n / c.perDecay)
  | cosineDecay =>
    if n ≤ c.warmup then 1
    else (1 + Real.cos (Real.pi * (((n - c.warmup) % c.perCycle : ℕ) / c.perCycle))) / 2

/-- The number of steps since the offset. -/
def elapsed (c : Cfg) (step : ℤ) : ℕ := (step - c.offset).toNat

/-- A string that lists the names `ns`, each surrounded by any white space. -/
inductive Lists : Name → List Name → Prop
  | one (w1 w2 n : Name) : (∀ x ∈ w1, x.isWhitespace = true) → (∀ x ∈ w2, x.isWhitespace = true) →
      Lists (w1 ++ n ++ w2) [n]
  | more (w1 w2 n s : Name) (ns : List Name) : (∀ x ∈ w1, x.isWhitespace = true) →
      (∀ x ∈ w2, x.isWhitespace = true) → Lists s ns → Lists (w1 ++ n ++ w2 ++ '*' :: s) (n :: ns)

end Verif.Schedule.Spec
