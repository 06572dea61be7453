import Verif.Common
/-
The interactive model, `/repo/t5x/interactive_model.py`: `train_loop`, `_get_equal_length_batches`, `get_batches_from_seqio` and `infer_with_preprocessors`.

Simplifications: one train step, prediction, score and evaluation are functions given as parameters; an exception of a train step is `none`.
An evaluation period of 0 (ZeroDivisionError) and `None` (TypeError) are not modelled.
-/
namespace Verif.Interactive

/-- An example: a text or a dict with the keys "input" and "target". -/
inductive Example where
  | text (s : List Char)
  | pair (input target : List Char)
deriving DecidableEq, Repr

/-- The argument for batches: nothing, a batch, or a list of batches. -/
inductive Batches where
  | absent
  | single (b : List Example)
  | many (l : List (List Example))

/-- An example where a batch is expected: iterating over a dict gives its keys, over a string its characters. -/
def asBatch : Example → List Example
  | .pair _ _ => [.text "input".toList, .text "target".toList]
  | .text s => s.map fun c => .text [c]

/-- `for batch in batches`, lines 880, 883, 886. -/
def iterate : Batches → List (List Example)
  | .absent => []
  | .single b => b.map asBatch
  | .many l => l

/-- Lines 1017-1023. -/
def repeatCut (l : List (List Example)) (length : Nat) : List (Option (List Example)) :=
  ((if l.length < length then (List.replicate (length / l.length) l).flatten else l).take length).map some

/-- `_get_equal_length_batches`, lines 993-1023.  `None` is a batch that is skipped. -/
def equalLength (b : Batches) (length : Nat) : List (Option (List Example)) :=
  match b with
  | .absent => List.replicate length none
  | .single [] => List.replicate length none
  | .single (.pair i t :: r) => List.replicate length (some (.pair i t :: r))
  | .single (.text s :: r) => repeatCut ((Example.text s :: r).map asBatch) length
  | .many [] => List.replicate length none
  | .many l => repeatCut l length

/-- The operations of the model, as functions of its train state. -/
structure Ops (S P C M : Type) where
  train : S → List Example → Option S
  predict : S → List Example → P
  score : S → List Example → C
  evaluate : S → List Example → M

/-- The values of the variables of the loop. -/
structure Vars (S P C M : Type) where
  state : S
  predictions : Option P
  scores : Option C
  metrics : Option M

/-- Lines 878-887: the last batch decides what is kept. -/
def runEval {S P C M : Type} (ops : Ops S P C M) (pb sb eb : Batches) (v : Vars S P C M) : Vars S P C M :=
  { v with
    predictions := (iterate pb).foldl (fun _ b => some (ops.predict v.state b)) v.predictions
    scores := (iterate sb).foldl (fun _ b => some (ops.score v.state b)) v.scores
    metrics := (iterate eb).foldl (fun _ b => some (ops.evaluate v.state b)) v.metrics }

/-- Line 874: an empty batch and `None` are skipped. -/
def trainOn {S P C M : Type} (ops : Ops S P C M) (s : S) : Option (List Example) → Option S
  | none => some s
  | some [] => some s
  | some b => ops.train s b

/-- The loop, lines 873-887, from step `k`. -/
def loop {S P C M : Type} (ops : Ops S P C M) (period : Nat) (pb sb eb : Batches) : Nat → List (Option (List Example)) → Vars S P C M → Option (Vars S P C M)
  | _, [], v => some v
  | k, b :: r, v =>
    match trainOn ops v.state b with
    | none => none
    | some s =>
      let v' := { v with state := s }
      loop ops period pb sb eb (k + 1) r (if k % period = 0 then runEval ops pb sb eb v' else v')

/-- `train_loop`, lines 816-888. -/
def trainLoop {S P C M : Type} (ops : Ops S P C M) (numSteps period : Nat) (tb pb sb eb : Batches) (s : S) : Option (Vars S P C M) :=
  loop ops period pb sb eb 0 (equalLength tb numSteps) ⟨s, none, none, none⟩

/-- The loop of `get_batches_from_seqio`, lines 1075-1095: batches, current batch. -/
def collect {α : Type} (size : Nat) : List α → List (List α) × List α → List (List α) × List α
  | [], a => a
  | x :: r, (all, cur) =>
    collect size r (if (cur ++ [x]).length = size then (all ++ [cur ++ [x]], []) else (all, cur ++ [x]))

/-- `get_batches_from_seqio`, lines 1056-1106: `none` is the ValueError. -/
def seqioBatches {α : Type} (size num : Nat) (data : List α) : Option (List (List α)) :=
  let d := data.take (size * num)
  if d.length < size * num then none else some (collect size d ([], [])).1

/-- The batches of a dataset without dropping the remainder, line 515. -/
def chunks {α : Type} (size : Nat) (l : List α) : List (List α) :=
  (List.range ((l.length + size - 1) / size)).map fun k => (l.drop (k * size)).take size

/-- `all_aux_values[key] += values` for all keys, lines 567-568; a missing key is a KeyError. -/
def addAux {A : Type} (all : List (String × List A)) : List (String × List A) → Option (List (String × List A))
  | [] => some all
  | (k, v) :: r =>
    if k ∈ all.map (·.1) then addAux (all.map fun e => if e.1 = k then (e.1, e.2 ++ v) else e) r else none

/-- `predictions[idx]` for the examples of a chunk, lines 552-561; too few predictions are an IndexError. -/
def pairUp {X Y : Type} : List X → List Y → Option (List (X × Y))
  | [], _ => some []
  | _ :: _, [] => none
  | x :: xs, y :: ys =>
    match pairUp xs ys with
    | some r => some ((x, y) :: r)
    | none => none

/-- The loop of `infer_with_preprocessors`, lines 526-570, from chunk `k`: `infer k` is the inference function with the random key of chunk `k`, and gives predictions and auxiliary values. -/
def inferLoop {X Y A : Type} (infer : Nat → List X → List Y × List (String × List A)) :
    Nat → List (List X) → List (X × Y) × List (String × List A) → Option (List (X × Y) × List (String × List A))
  | _, [], acc => some acc
  | k, c :: r, (inf, aux) =>
    let out := infer k c
    match pairUp c out.1, (if aux.isEmpty then some out.2 else addAux aux out.2) with
    | some ps, some aux' => inferLoop infer (k + 1) r (inf ++ ps, aux')
    | _, _ => none

def inferAll {X Y A : Type} (infer : Nat → List X → List Y × List (String × List A)) (size : Nat) (examples : List X) :
    Option (List (X × Y) × List (String × List A)) :=
  inferLoop infer 0 (chunks size examples) ([], [])

end Verif.Interactive
