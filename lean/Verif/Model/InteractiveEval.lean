import Verif.Model.Interactive
/-
Evaluation with the interactive model, `/repo/t5x/interactive_model.py`: `get_dataset_from_natural_text_examples`, `evaluate_with_preprocessors` and
`_compute_metrics`.

Simplifications: a text is the list of its characters, whether it is a `str` or the `bytes` with its UTF-8 encoding (the two are different
values, and all bytes are valid UTF-8); the features of an example are texts and vectors of integers; inference is the loop of
`Verif.Model.Interactive`, with the model's functions on batches as parameters; eager execution.
-/
namespace Verif.InteractiveEval
open Verif.Interactive

/-! ### The dataset -/

inductive DType where
  | string
  | int32
  | float32
deriving DecidableEq, Repr

/-- The value of a feature. -/
inductive Feat where
  | text (s : List Char)
  | tokens (t : List Int)
deriving DecidableEq, Repr

/-- An element of a dataset: its features by name. -/
abbrev Elem := List (String × Feat)

/-- The type and the rank of a feature in `element_spec`. -/
structure FSpec where
  dtype : DType
  rank : Nat
deriving DecidableEq, Repr

structure Dataset where
  spec : List (String × FSpec)
  elems : List Elem
deriving DecidableEq, Repr

/-- `seqio.Feature`, as far as it is used. -/
structure Feature where
  dtype : DType
  rank : Nat
  required : Bool
deriving DecidableEq, Repr

abbrev Features := List (String × Feature)

/-- `task_feature_lengths`; a length may be None. -/
abbrev Lengths := List (String × Option Nat)

/-- A preprocessor: the names of its parameters, and the function of the keyword arguments and the dataset; `none` is an exception. -/
structure Prep where
  params : List String
  run : Option Lengths → Option Features → Dataset → Option Dataset

/-- Lines 921-928: the texts of an example; a plain text gets an empty target. -/
def exampleDict : Example → Elem
  | .pair i t => [("inputs", .text i), ("targets", .text t)]
  | .text s => [("inputs", .text s), ("targets", .text [])]

/-- Lines 920-933: the dataset of the texts.  Empty lists become tensors of type float32. -/
def sourceDataset (examples : List Example) : Dataset :=
  let dtype := if examples = [] then DType.float32 else DType.string
  ⟨[("inputs", ⟨dtype, 0⟩), ("targets", ⟨dtype, 0⟩)], examples.map exampleDict⟩

/-- Lines 938-946: the preprocessors, one after the other, each with the keyword arguments that it has parameters for. -/
def preprocess (lengths : Lengths) (features : Features) : List Prep → Dataset → Option Dataset
  | [], d => some d
  | p :: ps, d =>
    (p.run (if "sequence_length" ∈ p.params then some lengths else none) (if "output_features" ∈ p.params then some features else none) d).bind
      fun d => preprocess lengths features ps d

/-- Lines 962-984: one feature. -/
def validFeature (d : Dataset) (f : String × Feature) : Bool :=
  match d.spec.lookup f.1 with
  | none => !f.2.required
  | some s => s.dtype == f.2.dtype && s.rank == f.2.rank

/-- `seqio.utils.trim_dataset` (line 989; part of seqio): output features are cut to their lengths. -/
def trimFeat (lengths : Lengths) (features : Features) (f : String × Feat) : String × Feat :=
  match f.2, lengths.lookup f.1 with
  | .tokens t, some (some n) => if f.1 ∈ features.map (·.1) then (f.1, .tokens (t.take n)) else f
  | _, _ => f

/-- `get_dataset_from_natural_text_examples`, lines 891-990. -/
def getDataset (examples : List Example) (preps : List Prep) (lengths : Lengths) (features : Features) : Option Dataset :=
  (preprocess lengths features preps (sourceDataset examples)).bind fun d =>
    if features.all (validFeature d) then some { d with elems := d.elems.map fun e => e.map (trimFeat lengths features) } else none

/-! ### Evaluation -/

/-- What metric functions are given for an example: the bytes of a text, a text, or what the postprocessor returned. -/
inductive Value (P : Type) where
  | bytes (s : List Char)
  | str (s : List Char)
  | other (p : P)
deriving DecidableEq, Repr

/-- An argument of a metric function. -/
inductive Arg (P A S : Type) where
  | values (l : List (Value P))
  | aux (a : List (String × List A))
  | scores (s : List S)
deriving DecidableEq, Repr

/-- A metric function: its parameters in order, with whether they have defaults; what it returns for positional arguments (`none` is an
exception). -/
structure MetricFn (P A S M : Type) where
  params : List (String × Bool)
  call : List (Arg P A S) → Option (List (String × M))

/-- Lines 739-743. -/
def posArgs {P A S M : Type} (f : MetricFn P A S M) : List String := (f.params.filter fun p => !p.2).map (·.1)

/-- The exceptions. -/
inductive Err where
  /-- "Metric functions must have positional arguments matching either …", line 751. -/
  | signature
  /-- An exception of `get_dataset_from_natural_text_examples`. -/
  | dataset
  /-- KeyError for "targets_pretokenized", line 779. -/
  | targets
  /-- An exception during inference. -/
  | inference
  /-- UnboundLocalError for `aux_values`, line 809. -/
  | unbound
  /-- "len(targets) != len(output_scores)", line 635. -/
  | lengths
  /-- An exception of a metric function. -/
  | metric
  /-- "Duplicate metric key", line 646. -/
  | duplicate
deriving DecidableEq, Repr

/-- What all processes do together. -/
inductive Event where
  | predict
  | score
  | barrier
deriving DecidableEq, Repr

/-- A run of one process: its collective operations and its result. -/
abbrev Run (α : Type) := List Event × Except Err α

/-- One part of a run after another. -/
def Run.bind {α β : Type} (r : Run α) (f : α → Run β) : Run β :=
  match r.2 with
  | .error e => (r.1, .error e)
  | .ok a => (r.1 ++ (f a).1, (f a).2)

def ofOption {α : Type} (events : List Event) (e : Err) : Option α → Run α
  | none => (events, .error e)
  | some a => (events, .ok a)

/-- The three lists of metric functions. -/
structure Parsed (P A S M : Type) where
  predict : List (MetricFn P A S M)
  withAux : List (MetricFn P A S M)
  score : List (MetricFn P A S M)

/-- Lines 735-756. -/
def parse {P A S M : Type} : List (MetricFn P A S M) → Option (Parsed P A S M)
  | [] => some ⟨[], [], []⟩
  | f :: fs =>
    if posArgs f = ["targets", "scores"] then (parse fs).map fun p => { p with score := f :: p.score }
    else if posArgs f = ["targets", "predictions"] then (parse fs).map fun p => { p with predict := f :: p.predict }
    else if posArgs f = ["targets", "predictions", "aux_values"] then (parse fs).map fun p => { p with withAux := f :: p.withAux }
    else none

/-- The postprocessor: the decoded output, the example, and `is_target`. -/
abbrev Post (P : Type) := List Char → Elem → Bool → P

/-- Lines 768-783: the targets. -/
def targetOf {P : Type} (post : Option (Post P)) (e : Elem) : Option (Value P) :=
  match e.lookup "targets_pretokenized" with
  | some (.text s) => some (match post with | some f => .other (f s e true) | none => .bytes s)
  | _ => none

def targetsOf {P : Type} (post : Option (Post P)) : List Elem → Option (List (Value P))
  | [] => some []
  | e :: es => (targetOf post e).bind fun t => (targetsOf post es).map fun ts => t :: ts

/-- The calls of metric functions, in order. -/
def callAll {P A S M : Type} (args : List (Arg P A S)) : List (MetricFn P A S M) → Option (List (String × M))
  | [] => some []
  | f :: fs => (f.call args).bind fun m => (callAll args fs).map fun ms => m ++ ms

/-- Lines 643-648. -/
def mergeMetrics {M : Type} (acc : List (String × M)) : List (String × M) → Except Err (List (String × M))
  | [] => .ok acc
  | (k, v) :: rest => if k ∈ acc.map (·.1) then .error .duplicate else mergeMetrics (acc ++ [(k, v)]) rest

/-- `compute_metrics_fn`, lines 619-648. -/
def computeMetrics {P A S M : Type} (targets predictions : List (Value P)) (aux : List (String × List A)) (scores : List S)
    (p : Parsed P A S M) : Except Err (List (String × M)) :=
  match callAll [.values targets, .values predictions] p.predict, callAll [.values targets, .values predictions, .aux aux] p.withAux with
  | some m1, some m2 =>
    if p.score = [] then mergeMetrics [] (m1 ++ m2)
    else if targets.length ≠ scores.length then .error .lengths
    else match callAll [.values targets, .scores scores] p.score with
      | some m3 => mergeMetrics [] (m1 ++ m2 ++ m3)
      | none => .error .metric
  | _, _ => .error .metric

/-- `_compute_metrics`, lines 602-666, on process `proc`. -/
def reportMetrics {P A S M : Type} (proc : Nat) (targets predictions : List (Value P)) (aux : List (String × List A)) (scores : List S)
    (p : Parsed P A S M) : Run (List (String × M)) :=
  if proc ≠ 0 then ([], .ok [])
  else Run.bind ([], computeMetrics targets predictions aux scores p) fun m => ([.barrier], .ok m)

/-- What an interactive model is made of. -/
structure Model (A S : Type) where
  batchSize : Nat
  lengths : Lengths
  features : Features
  /-- Predictions of a batch as texts, with auxiliary values; the number is that of the random key. -/
  predict : Nat → List Elem → List (List Char) × List (String × List A)
  score : Nat → List Elem → List S × List (String × List A)

/-- Lines 785-795: predictions and auxiliary values, if they are needed; `none` is an unassigned variable. -/
def predictions {P A S M : Type} (m : Model A S) (p : Parsed P A S M) (ds : Dataset) : Run (List (Value P) × Option (List (String × List A))) :=
  if p.withAux ≠ [] ∨ p.predict ≠ [] then
    Run.bind (ofOption [.predict] .inference (inferAll m.predict m.batchSize ds.elems)) fun r =>
      ([], .ok (r.1.map fun x => .str x.2, some r.2))
  else ([], .ok ([], none))

/-- Lines 796-804: scores, if they are needed. -/
def scoresOf {P A S M : Type} (m : Model A S) (p : Parsed P A S M) (ds : Dataset) : Run (List S) :=
  if p.score ≠ [] then
    Run.bind (ofOption [.score] .inference (inferAll m.score m.batchSize ds.elems)) fun r => ([], .ok (r.1.map fun x => x.2))
  else ([], .ok [])

/-- `evaluate_with_preprocessors`, lines 702-814, on process `proc`. -/
def evaluate {P A S M : Type} (m : Model A S) (proc : Nat) (examples : List Example) (preps : List Prep) (fns : List (MetricFn P A S M))
    (post : Option (Post P)) : Run (List (String × M)) :=
  Run.bind (ofOption [] .signature (parse fns)) fun p =>
  Run.bind (ofOption [] .dataset (getDataset examples preps m.lengths m.features)) fun ds =>
  Run.bind (ofOption [] .targets (targetsOf post ds.elems)) fun targets =>
  Run.bind (predictions m p ds) fun pa =>
  Run.bind (scoresOf m p ds) fun scores =>
  Run.bind (ofOption [] .unbound pa.2) fun aux => reportMetrics proc targets pa.1 aux scores p

/-! ### One training step -/

/-- `train_step_with_preprocessors`, lines 354-422, up to the call of the trainer: the elements of the batch that is trained on.  The inner
`none` stands for the exhausted iterator: fewer elements than a batch are left by the preprocessors (`drop_remainder=True`). -/
def trainBatch {A S : Type} (m : Model A S) (examples : List Example) (preps : List Prep) : Option (Option (List Elem)) :=
  if examples.length < m.batchSize then none
  else (getDataset examples preps m.lengths m.features).map fun ds =>
    if ds.elems.length < m.batchSize then none else some (ds.elems.take m.batchSize)

end Verif.InteractiveEval
