import Verif.Common
import Mathlib.Data.List.Sort
import Mathlib.Algebra.BigOperators.Group.Finset.Basic
/-
Model of t5x/decoding.py:115-715 `temperature_sample` and
`_temperature_sample_single_trial`.

The model call (`tokens_to_logits`), logit callback, temperature scaling, top-k and
top-p masks, the random draw and the cache are one arbitrary function `next` of the
whole loop state (decoding.py:520-621).  `state_callback_fn` is `None`.
Tokens are integers; products with 0/1 masks (decoding.py:648-668) are written with
`if`.  Log probabilities live in an arbitrary commutative monoid (exact addition).
-/
namespace Verif.Sampling

/-- One row of `SamplingLoopState`, decoding.py:92-99, together with the row's loop
invariants `max_decode_len` (438-455) and `initial_eos_count` (507). -/
structure Row (P : Type) where
  curIndex : Nat
  seq : List Int
  curToken : Int
  ended : Bool
  logProb : P
  maxLen : Nat
  eosCount0 : Nat

/-- Inputs of one row: the tokens, `initial_index` and `max_decode_steps`.  Simplified: the steps are a field of the row and are
repeated with it when there are several decodes; the code repeats a single number only (`Verif.DecodeLimit`, C138). -/
structure Inp where
  toks : List Int
  initialIndex : Option Nat
  maxSteps : Option Nat

variable {P : Type} [AddCommMonoid P]

/-- decoding.py:436-455. -/
def maxDecodeLen (r : Inp) : Nat :=
  match r.maxSteps with
  | none => r.toks.length
  | some m => min r.toks.length ((r.toks.filter (· ≠ 0)).length + m)

/-- decoding.py:464-507: initial state of a row. -/
def initRow (eos : Int) (r : Inp) : Row P :=
  let seq := r.toks ++ [0, 0]
  { curIndex := r.initialIndex.getD 0
    seq := seq
    curToken := match r.initialIndex with
      | none => 0
      | some i => seq.getD i 0
    ended := false
    logProb := 0
    maxLen := maxDecodeLen r
    eosCount0 := seq.count eos }

/-- decoding.py:631-700: update of a row with the sampled token and its log probability. -/
def stepRow (eos : Int) (r : Row P) (sample : Int × P) : Row P :=
  let i := min r.curIndex r.maxLen
  let nextInput := r.seq.getD (i + 1) 0
  let outOfPrompt := nextInput = 0
  let tok := if outOfPrompt then sample.1 else nextInput
  let logProb := r.logProb + (if outOfPrompt ∧ r.ended = false then sample.2 else 0)
  let emit := if r.ended then 0 else tok
  let seq := r.seq.set (i + 1) emit
  { curIndex := i + 1
    seq := seq
    curToken := emit
    ended := r.ended || decide (seq.count eos > r.eosCount0) || decide (i + 1 ≥ r.maxLen)
    logProb := logProb
    maxLen := r.maxLen
    eosCount0 := r.eosCount0 }

/-- The loop state: all rows, and the model's own state (cache, rng, step). -/
structure St (σ P : Type) where
  rows : List (Row P)
  aux : σ

variable {σ : Type}

/-- decoding.py:517-700: one iteration.  `next` gives the new model state and the sampled
token and log probability of each row. -/
def body (eos : Int) (next : St σ P → σ × (Nat → Int × P)) (s : St σ P) : St σ P :=
  let (aux, sample) := next s
  { rows := s.rows.mapIdx (fun b r => stepRow eos r (sample b)), aux := aux }

/-- decoding.py:509-515. -/
def allEnded (s : St σ P) : Bool := s.rows.all (·.ended)

/-- decoding.py:703: the while loop, with fuel. -/
def loop (eos : Int) (next : St σ P → σ × (Nat → Int × P)) : Nat → St σ P → St σ P
  | 0, s => s
  | n + 1, s => if allEnded s then s else loop eos next n (body eos next s)

/-- decoding.py:499-501. -/
def initSt (eos : Int) (inps : List Inp) (aux : σ) : St σ P :=
  { rows := inps.map (initRow eos), aux := aux }

/-- decoding.py:711-715: drop the first and the last position. -/
def output (r : Row P) : List Int × P := ((r.seq.drop 1).dropLast, r.logProb)

/-- decoding.py:412-715. -/
def singleTrial (eos : Int) (next : St σ P → σ × (Nat → Int × P)) (fuel : Nat) (inps : List Inp) (aux : σ) :
    List (List Int × P) :=
  (loop eos next fuel (initSt eos inps aux)).rows.map output

/-- decoding.py:773-805 `flat_batch_beam_expand`: each row repeated `d` times. -/
def expand {α : Type} (d : Nat) (l : List α) : List α := l.flatMap (List.replicate d)

/-- decoding.py:789-797 `unflatten_beam_dim`, for one batch entry. -/
def group {α : Type} (d b : Nat) (l : List α) : List α := (l.drop (b * d)).take d

/-- decoding.py:404 `jnp.argsort`: stable. -/
def argsort [LinearOrder P] (l : List P) : List Nat :=
  (List.range l.length).insertionSort (fun a b => l.getD a 0 ≤ l.getD b 0)

/-- decoding.py:395-409: the result for one batch entry: decodes and log probabilities
sorted by increasing log probability. -/
def sortedResult [LinearOrder P] (d b : Nat) (flat : List (List Int × P)) : List (List Int) × List P :=
  let g := group d b flat
  let idx := argsort (g.map (·.2))
  (idx.filterMap (fun k => (g.map (·.1))[k]?), idx.filterMap (fun k => (g.map (·.2))[k]?))

/-- decoding.py:115-409. -/
def temperatureSample [LinearOrder P] (eos : Int) (next : St σ P → σ × (Nat → Int × P)) (fuel : Nat)
    (inps : List Inp) (d : Nat) (aux : σ) : List (List (List Int) × List P) :=
  let flat := singleTrial eos next fuel (expand d inps) aux
  (List.range inps.length).map (fun b => sortedResult d b flat)

end Verif.Sampling
