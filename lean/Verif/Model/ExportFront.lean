import Verif.Model.Export
/-
What surrounds the model in an export, `/repo/t5x/export_lib.py`: `create_dual_encoder_preprocessor`, `PreprocessorFnFromTask.process_fn`,
`_feature_description_from_element_spec`, `write_warmup_examples`, `_standardize_output_dirs`, `create_fake_input`, `create_batch_polymorphic_shapes`.

Simplifications: a text is a list of characters; tokenizers, task preprocessors, the feature converter and the preprocessor of the features are parameters.
-/
namespace Verif.ExportFront
open Verif.Export

/-! ### Dual encoders -/

/-- Lines 676-687: the two texts of a request.  `tf.strings.split` with an empty separator (which means white space) is not modelled. -/
def twoTexts (sep : Option (List Char)) (text : List Char) : List Char × List Char :=
  match sep with
  | none => (text, [])
  | some s => splitOnce s text

/-- `featurize`, lines 688-702, of a text: tokens, EOS, length. -/
def dualFeaturize (f : Feature) (encode : List Char → List Int) (text : List Char) : Except Err (List Int) :=
  truncatePad (withEos f (encode text)) f.length f.allowed

/-- `create_dual_encoder_preprocessor`, lines 670-726, of texts: the features `left_encoder_input_tokens` and `right_encoder_input_tokens`. -/
def dual (fl fr : Feature) (encL encR : List Char → List Int) (sep : Option (List Char)) (texts : List (List Char)) :
    Except Err (List (List Int) × List (List Int)) :=
  match mapE (fun t => dualFeaturize fl encL (twoTexts sep t).1) texts, mapE (fun t => dualFeaturize fr encR (twoTexts sep t).2) texts with
  | .ok a, .ok b => .ok (toTensor a, toTensor b)
  | .error e, _ => .error e
  | _, .error e => .error e

/-! ### Preprocessing with the pipeline of a task -/

inductive Fail where
  | parse        -- the example cannot be parsed
  | batchSize    -- the static batch size is another one, or is 0
  | noElement    -- `get_single_element` of an empty dataset
  | moreElements -- `get_single_element` of a dataset with more than one element
deriving DecidableEq, Repr

/-- `ds.batch(b, drop_remainder=True)`. -/
def batchDrop {α : Type} (b : Nat) (l : List α) : List (List α) := (List.range (l.length / b)).map fun k => (l.drop (k * b)).take b

/-- `Dataset.get_single_element`. -/
def single {α : Type} : List α → Except Fail α
  | [] => .error .noElement
  | [a] => .ok a
  | _ :: _ :: _ => .error .moreElements

/-- The map of `parse_example` over the dataset, line 914. -/
def parseAll {E A : Type} (parse : E → Option A) : List E → Except Fail (List A)
  | [] => .ok []
  | e :: l =>
    match parse e, parseAll parse l with
    | some a, .ok r => .ok (a :: r)
    | none, _ => .error .parse
    | _, .error f => .error f

/-- `PreprocessorFnFromTask.process_fn`, lines 904-933.  The preprocessors `pre` (`preprocess_precache`), `post` (`preprocess_postcache`) and `conv` (the
feature converter) map datasets to datasets, and do not fail.  The dataset is lazy, but a failure of parsing always comes up, as all examples are read before the
single element is known. -/
def process {E A B C : Type} (parse : E → Option A) (runPre : Bool) (pre : List A → List A) (post : List A → List B) (conv : List B → List C)
    (batchSize : Option Nat) (examples : List E) : Except Fail (List C) :=
  match parseAll parse examples with
  | .error f => .error f
  | .ok parsed =>
    let elements := conv (post (if runPre then pre parsed else parsed))
    match batchSize with
    | some b => if b ≠ examples.length ∨ b = 0 then .error .batchSize else single (batchDrop b elements)
    | none => if examples.length = 0 then .error .batchSize else single (batchDrop examples.length elements)

/-- An element spec of the source: sparse, or dense with a shape, or something else. -/
inductive ElemSpec where
  | sparse
  | dense (shape : List (Option Nat))
  | other
deriving DecidableEq, Repr

/-- What `tf.io.parse_single_example` is told. -/
inductive FeatureDesc where
  | varLen
  | fixedLen (shape : List Nat)          -- a missing feature is zeros
  | sequence (shape : List Nat)          -- any number of rows of the shape; a missing feature has no rows
deriving DecidableEq, Repr

/-- `TensorShape.as_list` if the shape is fully defined. -/
def defined : List (Option Nat) → Option (List Nat)
  | [] => some []
  | d :: l =>
    match d, defined l with
    | some n, some r => some (n :: r)
    | _, _ => none

/-- One round of the loop of `_feature_description_from_element_spec`, lines 833-861; `none` is the ValueError. -/
def describe : ElemSpec → Option FeatureDesc
  | .sparse => some .varLen
  | .dense shape =>
    match defined shape with
    | some s => some (.fixedLen s)
    | none =>
      match shape with
      | none :: rest =>
        match defined rest with
        | some s => some (.sequence s)
        | none => none
      | _ => none
  | .other => none

/-- `_feature_description_from_element_spec`, lines 830-862. -/
def describeAll : List (String × ElemSpec) → Option (List (String × FeatureDesc))
  | [] => some []
  | (k, v) :: l =>
    match describe v, describeAll l with
    | some d, some r => some ((k, d) :: r)
    | _, _ => none

/-! ### Warmup -/

/-- A request of the warmup file: model, signature, the batch under the name of the input tensor, and for each decoder parameter the shape of the zeros. -/
structure Request (α : Type) where
  model : String
  signature : String
  input : String
  batch : List α
  params : List (String × List Nat)
deriving DecidableEq, Repr

/-- `_request_for_batch`, lines 1133-1166.  The dtype of the tensors is not modelled, and names of decoder parameters differ from the input name. -/
def request {α : Type} (model input signature : String) (spec : List (String × List Nat)) (batch : List α) (size : Option Nat) : Request α :=
  ⟨model, signature, input, adjustBatch batch size, spec.map fun p => (p.1, (adjustBatch batch size).length :: p.2)⟩

/-- `write_warmup_examples`, lines 1323-1347: the records of the file.  `generate` is what `generate_examples_fn` returns, if it is given. -/
def warmup {α : Type} (model input signature : String) (spec : List (String × List Nat)) (batch : List α) (generate : Option (List (List α)))
    (sizes : List (Option Nat)) : List (Request α) :=
  let examples :=
    match generate with
    | some l => l
    | none => [batch]
  examples.flatMap fun e => sizes.map fun s => request model input signature spec e s

/-! ### Output directories -/

/-- `posixpath.basename`. -/
def basename (p : List Char) : List Char := (p.reverse.takeWhile (· ≠ '/')).reverse

/-- `posixpath.dirname`: what is before the last component; trailing slashes are removed unless there is nothing else. -/
def dirname (p : List Char) : List Char :=
  let head := p.reverse.dropWhile (· ≠ '/')
  if head.all (· = '/') then head.reverse else (head.dropWhile (· = '/')).reverse

/-- `posixpath.join` of two paths. -/
def join (a b : List Char) : List Char :=
  if b.head? = some '/' then b else if a = [] ∨ a.getLast? = some '/' then a ++ b else a ++ '/' :: b

inductive DirError where
  | mandatory       -- 'output_dir is mandatory'
  | cpuOrTpu        -- 'output_dir["cpu"] or output_dir["tpu"] is mandatory'
  | version         -- the version is not numeric
deriving DecidableEq, Repr

/-- The argument `output_dir`. -/
inductive OutputDir where
  | none
  | path (p : List Char)
  | dict (d : List (String × List Char))

/-- `str.isdigit`, where `digit` says which characters are digits. -/
def isDigits (digit : Char → Bool) (s : List Char) : Bool := !s.isEmpty && s.all digit

/-- `_standardize_output_dirs`, lines 1370-1393.  Dicts are association lists with distinct keys; a new key goes to the end. -/
def standardizeDirs (digit : Char → Bool) (o : OutputDir) : Except DirError (List (String × List Char)) :=
  match o with
  | .none => .error .mandatory
  | .path p => go [("tpu", p)]
  | .dict d => go d
where
  go (d : List (String × List Char)) : Except DirError (List (String × List Char)) :=
    match d.lookup "cpu" with
    | some _ => .ok d
    | none =>
      match d.lookup "tpu" with
      | none => .error .cpuOrTpu
      | some t =>
        if isDigits digit (basename t) then .ok (d ++ [("cpu", join (dirname t ++ ['_', 'c', 'p', 'u']) (basename t))])
        else .error .version

/-! ### Fake inputs and polymorphic shapes -/

/-- `_gen_dummy_tensor` of `create_fake_input`, lines 1406-1415: the shape of the zeros; `none` is the ValueError.  `all(shape[1:])` fails for None and for 0. -/
def fakeShape (shape : List (Option Nat)) : Option (List Nat) :=
  if (shape.drop 1).all (fun d => d ≠ none && d ≠ some 0) then
    some (match shape with
      | [] => []
      | d :: rest => d.getD 1 :: rest.map fun x => x.getD 0)
  else none

/-- `create_fake_input`, lines 1396-1417. -/
def fakeInputs : List (List (Option Nat)) → Option (List (List Nat))
  | [] => some []
  | s :: l =>
    match fakeShape s, fakeInputs l with
    | some a, some r => some (a :: r)
    | _, _ => none

/-- `dict.update`. -/
def update {β : Type} (d o : List (String × β)) : List (String × β) :=
  o.foldl (fun d p => if d.any (·.1 = p.1) then d.map fun q => if q.1 = p.1 then p else q else d ++ [p]) d

/-- `create_batch_polymorphic_shapes`, lines 1420-1446.  The preprocessor gives the names of the features it makes from inputs of some shapes.  The outer `none` is
an error; an empty dict of overrides counts as none. -/
def polyShapes (signature : List (List (Option Nat))) (features : List (List Nat) → List String) (overrides : Option (List (String × Option String))) :
    Option (Option (List (String × Option String))) :=
  let poly := !signature.all fun s => s.all (·.isSome)
  let over := overrides.getD []
  if !poly && over.isEmpty then some none
  else
    match fakeInputs signature with
    | none => none
    | some inputs => some (some (update ((features inputs).map fun k => (k, if poly then some "b, ..." else none)) over))

end Verif.ExportFront
