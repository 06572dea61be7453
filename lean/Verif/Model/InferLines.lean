import Verif.Common
/-
The output file of inference: `write_inferences_to_file` (`/repo/t5x/infer.py`, lines 209-325).

Simplifications: a line is a record (`Line`) that `json.dumps` (the parameter `enc` of `fileText`) turns into text.  `_json_compat`
(lines 254-265) is the parameter `compat` (`none`: bytes that are not UTF-8).  `vocabulary.decode_tf(tf.constant(p)).numpy()` is the
parameter `decode` (`none`: it fails).  An example is a dict from feature names to values in order; the tree of auxiliary values is
given by its leaves, lists with one value per example.  A prediction is a row of token ids, several rows (all decodes), or a score.
The contents of the file when an exception is raised are not modelled.
-/
namespace Verif.InferLines

variable {V J : Type}

abbrev Name := List Char

inductive Err where
  | noVocab    -- ValueError 'The `vocabulary` parameter is required ...'
  | fields     -- ValueError 'include_all_inputs and input_fields_to_include should not be set simultaneously.'
  | index      -- IndexError: fewer predictions or auxiliary values than examples
  | unicode    -- UnicodeDecodeError
  | decode     -- the vocabulary cannot decode the prediction, or it is not a list of ids
  | mode       -- ValueError 'Invalid mode: ...'
deriving DecidableEq

inductive Pred (V : Type) where
  | row (ids : List Int)
  | rows (ids : List (List Int))
  | score (v : V)

inductive Ids where
  | row (ids : List Int)
  | rows (ids : List (List Int))
deriving DecidableEq

/-- `json_dict`: the keys 'inputs', 'prediction', 'prediction_tokens', 'score' and 'aux'. -/
structure Line (J : Type) where
  inputs : List (Name × J)
  prediction : Option J
  tokens : Option Ids
  score : Option J
  aux : Option (List (Name × J))

structure Opts where
  mode : Name
  includeAll : Bool
  fields : Option (List Name)
  outputIds : Bool

def suffix : Name := "_pretokenized".toList

/-- `k.endswith('_pretokenized')`. -/
def endsWith (k : Name) : Bool := suffix.isSuffixOf k

/-- `k[: -len('_pretokenized')]`. -/
def strip (k : Name) : Name := k.take (k.length - suffix.length)

/-- The inputs to include, lines 281-294. -/
def select (o : Opts) (inp : List (Name × V)) : List (Name × V) :=
  if o.includeAll then inp
  else
    match o.fields with
    | some fs => inp.filter fun e => fs.contains e.1 || (endsWith e.1 && fs.contains (strip e.1))
    | none => inp.filter fun e => endsWith e.1

/-- `{k: _json_compat(v) for k, v in ...}`, and `jax.tree.map(_json_compat, ...)`. -/
def compatAll (compat : V → Option J) : List (Name × V) → Except Err (List (Name × J))
  | [] => .ok []
  | (k, v) :: rest =>
    match compat v with
    | none => .error .unicode
    | some j =>
      match compatAll compat rest with
      | .error e => .error e
      | .ok r => .ok ((k, j) :: r)

/-- `jax.tree.map(lambda v: v[i], all_aux_values)`, lines 275-279. -/
def auxAt (aux : List (Name × List V)) (i : Nat) : Except Err (List (Name × V)) :=
  match aux with
  | [] => .ok []
  | (k, l) :: rest =>
    match l[i]? with
    | none => .error .index
    | some v =>
      match auxAt rest i with
      | .error e => .error e
      | .ok r => .ok ((k, v) :: r)

/-- Lines 304-308 and 318-321: the ids up to the first 0; `0 in pred` is false for a list of lists. -/
def truncate : Pred V → Option Ids
  | .row l => some (.row (if 0 ∈ l then l.take (l.idxOf 0) else l))
  | .rows l => some (.rows l)
  | .score _ => none

/-- `json_dict['prediction']` and `json_dict['prediction_tokens']`, lines 300-308 and 314-321. -/
def predicted (compat : V → Option J) (decode : Pred V → Option V) (o : Opts) (inputs : List (Name × J)) (p : Pred V) :
    Except Err (Line J) :=
  match decode p with
  | none => .error .decode
  | some v =>
    match compat v with
    | none => .error .unicode
    | some j =>
      if o.outputIds then
        match truncate p with
        | none => .error .decode
        | some ids => .ok { inputs := inputs, prediction := some j, tokens := some ids, score := none, aux := none }
      else .ok { inputs := inputs, prediction := some j, tokens := none, score := none, aux := none }

/-- The body of the loop, lines 274-324, for one example. -/
def line (compat : V → Option J) (decode : Pred V → Option V) (o : Opts) (inp : List (Name × V)) (p : Pred V)
    (aux : List (Name × V)) : Except Err (Line J) :=
  match compatAll compat (select o inp) with
  | .error e => .error e
  | .ok inputs =>
    if o.mode = "predict".toList then predicted compat decode o inputs p
    else if o.mode = "score".toList then
      match p with
      | .score v =>
        match compat v with
        | none => .error .unicode
        | some j =>
          if aux.isEmpty then .ok { inputs := inputs, prediction := none, tokens := none, score := some j, aux := none }
          else
            match compatAll compat aux with
            | .error e => .error e
            | .ok a => .ok { inputs := inputs, prediction := none, tokens := none, score := some j, aux := some a }
      | _ => .error .decode
    else if o.mode = "predict_with_aux".toList then
      match predicted compat decode o inputs p with
      | .error e => .error e
      | .ok l =>
        match compatAll compat aux with
        | .error e => .error e
        | .ok a => .ok { l with aux := some a }
    else .error .mode

/-- The loop over the enumerated dataset, lines 272-325. -/
def loop (compat : V → Option J) (decode : Pred V → Option V) (o : Opts) (preds : List (Pred V)) (aux : List (Name × List V)) :
    Nat → List (List (Name × V)) → Except Err (List (Line J))
  | _, [] => .ok []
  | i, inp :: rest =>
    match preds[i]? with
    | none => .error .index
    | some p =>
      match auxAt aux i with
      | .error e => .error e
      | .ok a =>
        match line compat decode o inp p a with
        | .error e => .error e
        | .ok l =>
          match loop compat decode o preds aux (i + 1) rest with
          | .error e => .error e
          | .ok ls => .ok (l :: ls)

/-- `write_inferences_to_file`, lines 209-325: the lines of the file; `decode` is `none` without a vocabulary. -/
def write (compat : V → Option J) (decode : Option (Pred V → Option V)) (o : Opts) (preds : List (Pred V))
    (aux : List (Name × List V)) (ds : List (List (Name × V))) : Except Err (List (Line J)) :=
  if (o.mode = "predict".toList ∨ o.mode = "predict_with_aux".toList) ∧ decode.isNone then .error .noVocab
  else if o.includeAll ∧ o.fields.isSome then .error .fields
  else loop compat (decode.getD fun _ => none) o preds aux 0 ds

/-- `f.write(json_str + '\n')` for every line. -/
def fileText (enc : Line J → List Char) (ls : List (Line J)) : List Char := ls.flatMap fun l => enc l ++ ['\n']

end Verif.InferLines
