import Verif.Spec.Beam
/-
Vocabulary for C99.
-/
namespace Verif.Beam.Spec
open Verif.Beam
variable {K C : Type} [Field K] [LinearOrder K]

/-- An unfinished sequence of m tokens: first token, prompt of p tokens, then tokens of the vocabulary other than EOS
up to position m, padding. -/
structure Prefix (eos vocab maxLen first : ℕ) (inputs : List ℕ) (p m : ℕ) (u : List ℕ) : Prop where
  length : u.length = maxLen
  head : u.getD 0 0 = first
  prompt : ∀ j, 1 ≤ j → j ≤ p → u.getD j 0 = inputs.getD j 0
  body : ∀ j, p < j → j ≤ m → u.getD j 0 ≠ eos ∧ u.getD j 0 < vocab
  pad : ∀ j, m < j → u.getD j 0 = 0

/-- The rivals of a sequence s at position m: unfinished sequences of m tokens, different from s so far and at least as
likely so far. -/
structure Rival (c : Cfg K) (inp : RowIn) (first : ℕ) (ch : C) (st : Step K C) (p : ℕ) (s : List ℕ) (m : ℕ)
    (u : List ℕ) : Prop where
  pre : Prefix c.eos c.vocab c.maxLen first inp.inputs p m u
  other : ∃ j, j ≤ m ∧ u.getD j 0 ≠ s.getD j 0
  likely : value st ch s p m ≤ value st ch u p m

/-- The log-probability the decoder gives to token w after the first n tokens of a sequence. -/
def logProbOf (st : Step K C) (ch : C) (s : List ℕ) (n w : ℕ) : K := (st n (s.getD n 0) (cacheAfter st ch s n)).1.getD w 0

end Verif.Beam.Spec
