import Verif.Model.Beam
/-
Vocabulary for the beam search properties.
-/
namespace Verif.Beam.Spec
open Verif.Beam
variable {K C : Type} [Field K] [LinearOrder K]

/-- Sensible parameters: at least one beam, two tokens, a negative NEG_INF, and a brevity penalty which is
positive, does not decrease with the length, and is at least 1 at the maximal length. -/
structure Good (c : Cfg K) : Prop where
  k : 0 < c.k
  vocab : 2 ≤ c.vocab
  neg : c.negInf < 0
  pos : ∀ n, 0 < c.bp n
  mono : ∀ m n, m ≤ n → c.bp m ≤ c.bp n
  one : 1 ≤ c.bp c.maxLen

/-- What a decoder may return for one row: one vector per beam, one log-probability per token. -/
structure ValidLogp (c : Cfg K) (m : List (List K)) : Prop where
  beams : m.length = c.k
  vocab : ∀ v ∈ m, v.length = c.vocab
  nonpos : ∀ v ∈ m, ∀ x ∈ v, x ≤ 0

/-- The row after n iterations, when the decoder answers `o i r` in iteration i and state r. -/
def rowIter (c : Cfg K) (inp : RowIn) (first : ℕ) (ch : C) (o : ℕ → Row K C → List (List K) × List C) : ℕ → Row K C
  | 0 => initRow c first ch
  | n + 1 =>
    let r := rowIter c inp first ch o n
    rowBody c inp n (o n r).1 (o n r).2 r

/-- The batch after n iterations, ignoring the loop condition. -/
def iter (c : Cfg K) (ins : List RowIn) (firsts : List (ℕ × C)) (o : Oracle K C) : ℕ → State K C
  | 0 => init c firsts
  | n + 1 => body c ins o (iter c ins firsts o n)

/-- A decoder that looks only at its own beam: position, current token and cache. -/
abbrev Step (K C : Type) := ℕ → ℕ → C → List K × C

/-- The cache after feeding the first n tokens of a sequence, one by one. -/
def cacheAfter (st : Step K C) (ch : C) (s : List ℕ) : ℕ → C
  | 0 => ch
  | n + 1 => (st n (s.getD n 0) (cacheAfter st ch s n)).2

/-- The log-probability of token j + 1 of a sequence, when it is fed to the decoder on its own. -/
def tokenLogProb (st : Step K C) (ch : C) (s : List ℕ) (j : ℕ) : K :=
  (st j (s.getD j 0) (cacheAfter st ch s j)).1.getD (s.getD (j + 1) 0) 0

/-- The log-probability of tokens p + 1, ..., n. -/
def value (st : Step K C) (ch : C) (s : List ℕ) (p n : ℕ) : K := ((List.range' p (n - p)).map (tokenLogProb st ch s)).sum

/-- That decoder run on all live beams. -/
def decoder (st : Step K C) (n : ℕ) (r : Row K C) : List (List K) × List C :=
  let out := List.zipWith (fun (l : K × List ℕ) ch => st n (l.2.getD n 0) ch) r.live r.cache
  (out.map (·.1), out.map (·.2))

/-- A finished sequence: prompt of p tokens, then tokens other than EOS, EOS at position t, padding. -/
structure Finished (eos maxLen first : ℕ) (inputs : List ℕ) (p t : ℕ) (s : List ℕ) : Prop where
  length : s.length = maxLen
  inRange : p < t ∧ t < maxLen
  head : s.getD 0 0 = first
  prompt : ∀ j, 1 ≤ j → j ≤ p → s.getD j 0 = inputs.getD j 0
  body : ∀ j, p < j → j < t → s.getD j 0 ≠ eos
  last : s.getD t 0 = eos
  pad : ∀ j, t < j → s.getD j 0 = 0

end Verif.Beam.Spec
