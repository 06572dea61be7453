import Verif.Props.SampleToken
import Mathlib.Probability.Independence.Basic
/-
What random numbers sampling is given, and with which probability it should return a sequence (C103).
-/
namespace Verif.SampleLaw.Spec
open MeasureTheory ProbabilityTheory Verif.Sampling
open SampleToken (Cfg Noise)
open SampleToken.Spec (weight2 firstToken)

/-- The random numbers that `jax.random.categorical` adds to the logits: the arrays of different iterations and rows are
independent, and each consists of independent numbers with the standard Gumbel distribution. -/
structure GumbelNoise {Ω : Type} [MeasurableSpace Ω] {V : Nat} (P : Measure Ω) (noise : Ω → Noise V) : Prop where
  measurable : ∀ k n q i, Measurable fun ω => noise ω k n q i
  cdf : ∀ k n q i x, P {ω | noise ω k n q i ≤ x} = ENNReal.ofReal (Real.exp (-Real.exp (-x)))
  entries : ∀ k n q, iIndepFun (fun i ω => noise ω k n q i) P
  arrays : iIndepFun (fun (a : Nat × Nat × Nat) ω => noise ω a.1 a.2.1 a.2.2) P

/-- A row that is decoded: `p` prompt tokens, then padding; generation starts at index `i0` within the prompt, and the length limit leaves
room for something. -/
structure GoodRow (r : Inp) (p : Nat) : Prop where
  padded : Sampling.Spec.RightPadded r.toks p
  start : r.initialIndex.getD 0 ≤ p
  room : r.initialIndex.getD 0 < maxDecodeLen r

variable {V : Nat}

/-- The probability that a token is drawn from logits: proportional to its weight after temperature, top-k and top-p; zero for what is
no token. -/
noncomputable def tokenProb (c : Cfg) (T : ℝ) (l : Fin V → ℝ) (a : Int) : ℝ :=
  ∑ t : Fin V, if (t.val : Int) = a then weight2 c T l t / ∑ j, weight2 c T l j else 0

/-- The logits of the model after reading the starting token and then the output up to step `k`. -/
noncomputable def logitsAfter {S : Type} (f : S → Int → (Fin V → ℝ) × S) (cache : S) (r : Inp) (y : List Int) (k : Nat) : Fin V → ℝ :=
  ((KVCache.feed f cache (firstToken r :: (List.range k).map fun k' => y.getD (r.initialIndex.getD 0 + k') 0))[k]?).getD fun _ => 0

/-- What an output must look like: the prompt, unchanged; padding after an end marker that is not in the prompt; padding beyond the
length limit. -/
structure Possible (r : Inp) (p : Nat) (eos : Int) (y : List Int) : Prop where
  length : y.length = r.toks.length
  prompt : ∀ j < p, y.getD j 0 = r.toks.getD (j + 1) 0
  ended : ∀ i j, p ≤ i → i < j → y.getD i 0 = eos → y.getD j 0 = 0
  limit : ∀ j, p ≤ j → maxDecodeLen r ≤ j → y.getD j 0 = 0

open Classical in
/-- The steps in which tokens of the output were drawn: after the prompt, up to the first end marker or the limit. -/
noncomputable def drawn (r : Inp) (p : Nat) (eos : Int) (y : List Int) : Finset Nat :=
  (Finset.range (maxDecodeLen r - r.initialIndex.getD 0)).filter fun k => p ≤ r.initialIndex.getD 0 + k ∧
    ∀ k' < k, p ≤ r.initialIndex.getD 0 + k' → y.getD (r.initialIndex.getD 0 + k') 0 ≠ eos

open Classical in
/-- The probability of an output: the product of the probabilities of its drawn tokens, each given what precedes it. -/
noncomputable def seqProb {S : Type} (c : Cfg) (T : ℝ) (f : S → Int → (Fin V → ℝ) × S) (cache : S) (eos : Int) (r : Inp) (p : Nat) (y : List Int) : ℝ :=
  if Possible r p eos y then
    ∏ k ∈ drawn r p eos y, tokenProb c T (logitsAfter f cache r y k) (y.getD (r.initialIndex.getD 0 + k) 0)
  else 0

/-- Sampling without restrictions: at temperature 1 it is the model's own distribution. -/
noncomputable def plain : Cfg := ⟨0, false, 0, false, true⟩

/-- Decode `z.2` of example `z.1` is `y`, with some log-probability. -/
def Returns [NeZero V] {S : Type} (c : Cfg) (T : ℝ) (d : Nat) (f : Nat → S → Int → (Fin V → ℝ) × S) (eos : Int) (inps : List Inp) (cache : Nat → S)
    (fuel : Nat) (noise : Noise V) (z : Nat × Fin d) (y : List Int) : Prop :=
  ∃ rows lp, SampleToken.sampleAll c (.scalar T) d noise f eos fuel inps cache = some rows ∧ rows[z.1 * d + z.2.val]? = some (y, lp)

end Verif.SampleLaw.Spec
