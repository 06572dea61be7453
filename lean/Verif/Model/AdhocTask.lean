import Verif.Common
/-
Tasks registered on the fly: `create_task_from_tfexample_file` (`/repo/t5x/infer.py`, lines 101-170) and `get_seqio_task_from_examples`
(`/repo/t5x/interactive_model.py`, lines 1109-1168).

Simplifications: a string is a list of characters; a parsed TFExample is the list of its string features; every ValueError is one error.  Of SeqIO:
`TaskRegistry.add` checks the name against a pattern (`valid`) and refuses a name that it has; `get_mixture_or_task` prefers mixtures; `rekey` gives the
empty string for a key that is `None` or empty; `TFExampleDataSource` reads the records of the files that the paths match (`records`).
-/
namespace Verif.AdhocTask

abbrev Text := List Char

inductive Err where
  | value    -- ValueError
  | key      -- KeyError: unknown file type
  | parse    -- InvalidArgumentError: a record lacks a required feature
deriving DecidableEq

/-- A task.  `F` are output features, `X` examples, `P` preprocessors. -/
inductive Task (F X P : Type) where
  | tfexample (paths : List Text) (description : List Text) (keyMap : List (Text × Option Text)) (features : F)
  | given (examples : X) (preprocessors : P) (features : F)

/-- The global registries of SeqIO. -/
structure Registry (F X P : Type) where
  mixtures : List (Text × Task F X P)
  tasks : List (Text × Task F X P)

variable {F X P : Type}

/-- `seqio.TaskRegistry.add`. -/
def Registry.add (valid : Text → Bool) (r : Registry F X P) (name : Text) (t : Task F X P) : Except Err (Registry F X P) :=
  if valid name = false then .error .value
  else if (r.tasks.lookup name).isSome then .error .value
  else .ok { r with tasks := r.tasks ++ [(name, t)] }

/-- `seqio.get_mixture_or_task`. -/
def Registry.get (r : Registry F X P) (name : Text) : Except Err (Task F X P) :=
  match r.mixtures.lookup name with
  | some m => .ok m
  | none =>
    match r.tasks.lookup name with
    | some t => .ok t
    | none => .error .value

/-- Truth of an optional string. -/
def truthy : Option Text → Bool
  | none => false
  | some [] => false
  | some (_ :: _) => true

/-- The string whose hash names the task, infer.py lines 146-149. -/
def hashed (paths : List Text) (inputsKey : Text) (targetsKey : Option Text) : Text :=
  [':'].intercalate (paths ++ [inputsKey, targetsKey.getD []])

/-- `feature_description`, infer.py lines 141-143. -/
def description (inputsKey : Text) (targetsKey : Option Text) : List Text :=
  inputsKey :: (if truthy targetsKey then targetsKey.toList.filter (· ≠ inputsKey) else [])

/-- The task built in infer.py lines 151-167. -/
def fileTask (paths : List Text) (inputsKey : Text) (targetsKey : Option Text) (features : F) : Task F X P :=
  .tfexample paths (description inputsKey targetsKey) [("inputs".toList, some inputsKey), ("targets".toList, targetsKey)] features

/-- The name of the task, infer.py lines 145-149 and 152; `md5` is the hex digest. -/
def taskName (md5 : Text → Text) (paths : List Text) (inputsKey : Text) (targetsKey taskId : Option Text) : Text :=
  "infer_".toList ++ taskId.getD ((md5 (hashed paths inputsKey targetsKey)).take 10)

/-- `create_task_from_tfexample_file`, infer.py lines 101-170.  `glob` are the files that match. -/
def createTask (glob : List Text → List Text) (md5 : Text → Text) (valid : Text → Bool) (r : Registry F X P) (paths : List Text) (fileType inputsKey : Text)
    (targetsKey : Option Text) (features : F) (taskId : Option Text) : Except Err (Text × Registry F X P) :=
  if glob paths = [] then .error .value
  else if fileType ≠ "tfrecord".toList then .error .key
  else
    match r.add valid (taskName md5 paths inputsKey targetsKey taskId) (fileTask paths inputsKey targetsKey features) with
    | .error e => .error e
    | .ok r' => .ok (taskName md5 paths inputsKey targetsKey taskId, r')

/-- `tf.io.parse_single_example` with required string features. -/
def parse (description : List Text) (rec : List (Text × Text)) : Except Err (List (Text × Text)) :=
  description.mapM fun k =>
    match rec.lookup k with
    | some v => .ok (k, v)
    | none => .error .parse

/-- `seqio.preprocessors.rekey`. -/
def rekey (keyMap : List (Text × Option Text)) (ex : List (Text × Text)) : Except Err (List (Text × Text)) :=
  keyMap.mapM fun (new, old) =>
    match old with
    | none => .ok (new, [])
    | some [] => .ok (new, [])
    | some k =>
      match ex.lookup k with
      | some v => .ok (new, v)
      | none => .error .key

/-- The examples of a task made from files, before tokenisation: source and first preprocessor, infer.py lines 153-165. -/
def Task.examples (records : List Text → List (List (Text × Text))) : Task F X P → Except Err (List (List (Text × Text)))
  | .tfexample paths description keyMap _ =>
    (records paths).mapM fun rec =>
      match parse description rec with
      | .error e => .error e
      | .ok ex => rekey keyMap ex
  | .given _ _ _ => .ok []

/-- `get_seqio_task_from_examples`, interactive_model.py lines 1109-1168: the task returned and the registry afterwards. -/
def fromExamples (valid : Text → Bool) (r : Registry F X P) (name : Text) (examples : X) (preprocessors : P) (features : F) (addToRegistry : Bool) :
    Except Err (Task F X P × Registry F X P) :=
  match (if addToRegistry then r.add valid name (.given examples preprocessors features) else .ok r) with
  | .error e => .error e
  | .ok r' =>
    match r'.get name with
    | .error e => .error e
    | .ok t => .ok (t, r')

end Verif.AdhocTask
