import Verif.Model.Score
/-
How `temperature_sample` chooses a token from the logits and which log-probability it gives it: `/repo/t5x/decoding.py`, lines 412-435 and
517-629, and the loop around it (`Verif.Model.Sampling`).

Simplifications: real numbers instead of floating point.  The binary searches of `topk_mask` and `topp_mask` are modelled bit by bit in
`Verif.Model.BinarySearch`; here the masks are given by what those searches compute (`C04_topk_mask`, `C92_topp_search`).  The vocabulary
is `Fin V`.  `jax.random.categorical(key, logits)` is the first argmax of logits plus noise; the noise is an arbitrary function of the
iteration (which fixes the key), the number of rows asked for, and the row.  `state_callback_fn` and `logit_callback_fn` are not used.
-/
namespace Verif.SampleToken
open Verif.Sampling

variable {V : Nat} [NeZero V]

/-- `NEG_INF`, line 33. -/
def negInf : ℝ := -10000000

/-- `MIN_TEMPERATURE`, line 39. -/
noncomputable def minTemperature : ℝ := 1 / 10000

/-- `jnp.argmax`: the first index of a maximum. -/
noncomputable def argmax (x : Fin V → ℝ) : Fin V :=
  if h : (Finset.univ.filter fun i => ∀ j, x j ≤ x i).Nonempty then (Finset.univ.filter fun i => ∀ j, x j ≤ x i).min' h else 0

/-- `jax.nn.softmax`. -/
noncomputable def softmax (x : Fin V → ℝ) (i : Fin V) : ℝ := Real.exp (x i) / ∑ j, Real.exp (x j)

/-- `binary_search.topk_mask(x, k, NEG_INF)`, binary_search.py lines 167-227: what has fewer than `k` larger entries is kept. -/
noncomputable def topkMask (x : Fin V → ℝ) (k : Nat) (i : Fin V) : ℝ :=
  if (Finset.univ.filter fun j => x i < x j).card < k then x i else negInf

/-- `binary_search.topp_mask(x, p, NEG_INF)`, binary_search.py lines 230-299: what has less than `p` of the mass above it is kept. -/
noncomputable def toppMask (x : Fin V → ℝ) (p : ℝ) (i : Fin V) : ℝ :=
  if ∑ j ∈ Finset.univ.filter (fun j => softmax x i < softmax x j), softmax x j < p then x i else negInf

/-- `topk`, `topp` and whether they are tracers (`_is_tracer`, lines 107-108), and `rescale_log_probs`. -/
structure Cfg where
  topk : Int
  topkTraced : Bool
  topp : ℝ
  toppTraced : Bool
  rescale : Bool

/-- Lines 432-434; `false` is the `ValueError`. -/
noncomputable def Cfg.check (c : Cfg) : Bool := !(!(c.toppTraced || c.topkTraced) && decide (c.topp ≠ 0) && decide (c.topk ≠ 0))

/-- Lines 541-553: `scaled_logits`. -/
noncomputable def scaledLogits (c : Cfg) (temperature : ℝ) (logits : Fin V → ℝ) : Fin V → ℝ :=
  let scaled : Fin V → ℝ := fun i => logits i / max temperature minTemperature
  let scaled := if c.topkTraced || decide (c.topk ≠ 0) then (if c.topk > 0 then topkMask scaled c.topk.toNat else scaled) else scaled
  if c.toppTraced || decide (c.topp ≠ 0) then toppMask scaled c.topp else scaled

/-- Lines 540-573: `sample_logits_with_nonzero_temperature`. -/
noncomputable def sampleHot (c : Cfg) (temperature : ℝ) (noise logits : Fin V → ℝ) : Fin V × ℝ :=
  let scaled := scaledLogits c temperature logits
  let next := argmax fun i => scaled i + noise i
  let logProbs := if c.rescale then Score.logSoftmax scaled else Score.logSoftmax logits
  (next, logProbs next)

/-- Lines 575-593: `sample_logits_with_zero_temperature`. -/
noncomputable def sampleCold (c : Cfg) (logits : Fin V → ℝ) : Fin V × ℝ :=
  let next := argmax logits
  (next, if c.rescale then 0 else Score.logSoftmax logits next)

/-- The `lax.cond` of lines 602-608 and 622-628. -/
noncomputable def sampleRow (c : Cfg) (temperature : ℝ) (noise logits : Fin V → ℝ) : Fin V × ℝ :=
  if temperature > minTemperature then sampleHot c temperature noise logits else sampleCold c logits

/-- `temperature`: one number, or an array with one for each example. -/
inductive Temp where
  | scalar (t : ℝ)
  | perExample (ts : List ℝ)

/-- Noise of an iteration, for an array of the given number of rows, at the given row. -/
abbrev Noise (V : Nat) := Nat → Nat → Nat → Fin V → ℝ

/-- Lines 595-629: the token and log-probability of each of the `n` rows in iteration `it`.  With one temperature the noise has `n` rows;
with an array, each row is sampled by itself, as a batch of one row, with the same key. -/
noncomputable def sampleBatch (c : Cfg) (temp : Temp) (d : Nat) (noise : Noise V) (it n : Nat) (logits : Nat → Fin V → ℝ) (b : Nat) : Fin V × ℝ :=
  match temp with
  | .scalar t => sampleRow c t (noise it n b) (logits b)
  | .perExample ts => sampleRow c ((expand d ts).getD b 0) (noise it 1 0) (logits b)

/-- The logits of row `b` in a state of the loop: the model called on the row's cache and current token. -/
noncomputable def logitsAt {S : Type} (f : Nat → S → Int → (Fin V → ℝ) × S) (s : St (Nat × (Nat → S)) ℝ) (b : Nat) : (Fin V → ℝ) × S :=
  f b (s.aux.2 b) ((s.rows[b]?.map (·.curToken)).getD 0)

/-- Lines 517-629: the model call and the choice of the tokens.  The state is the number of the iteration and the cache of every row. -/
noncomputable def next {S : Type} (c : Cfg) (temp : Temp) (d : Nat) (noise : Noise V) (f : Nat → S → Int → (Fin V → ℝ) × S)
    (s : St (Nat × (Nat → S)) ℝ) : (Nat × (Nat → S)) × (Nat → Int × ℝ) :=
  ((s.aux.1 + 1, fun b => (logitsAt f s b).2),
    fun b => let r := sampleBatch c temp d noise s.aux.1 s.rows.length (fun b => (logitsAt f s b).1) b; ((r.1.val : Int), r.2))

/-- Lines 412-715 for `num_decodes = d`: all copies of all examples.  `f b` and `cache b` are the model and the cache of example `b`. -/
noncomputable def sampleAll {S : Type} (c : Cfg) (temp : Temp) (d : Nat) (noise : Noise V) (f : Nat → S → Int → (Fin V → ℝ) × S) (eos : Int)
    (fuel : Nat) (inps : List Inp) (cache : Nat → S) : Option (List (List Int × ℝ)) :=
  if c.check then
    some (singleTrial eos (next c temp d noise fun b => f (b / d)) fuel (expand d inps) (0, fun b => cache (b / d)))
  else none

end Verif.SampleToken
