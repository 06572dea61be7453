import Verif.Common
/-
Where parameter arrays are stored: t5x/checkpoints.py:237-377 (paths and drivers of tensorstore specs), 691-696
(parameter names) and 1076-1083.

A spec is reduced to its kvstore driver, bucket and path; dtype and metadata play no role for the location.
Strings are lists of characters.
-/
namespace Verif.TsPath

abbrev Str := List Char

inductive Driver | file | gfile | gcs | other
deriving DecidableEq, Repr

/-- `kvPath` is spec['kvstore']['path'] (tensorstore ≥ 0.1.14), `topPath` spec['path'] (older). -/
structure Spec where
  driver : Driver
  bucket : Option Str
  kvPath : Option Str
  topPath : Option Str
deriving DecidableEq, Repr

inductive Err | value | key
deriving DecidableEq, Repr

/-- `'/'.join(keys)`, checkpoints.py:691-696. -/
def join : List Str → Str
  | [] => []
  | [k] => k
  | k :: ks => k ++ '/' :: join ks

/-- `name.replace('/', '.')`, checkpoints.py:366, 373. -/
def dotted (s : Str) : Str := s.map (fun c => if c = '/' then '.' else c)

def gsPrefix : Str := "gs://".toList

/-- checkpoints.py:243: `re.fullmatch('^gs://([^/]*)/(.*)$', dir, re.DOTALL)`, the two groups. -/
def matchGs (dir : Str) : Option (Str × Str) :=
  if gsPrefix.isPrefixOf dir then
    let rest := dir.drop 5
    if '/' ∈ rest then some (rest.takeWhile (· ≠ '/'), (rest.dropWhile (· ≠ '/')).drop 1) else none
  else none

/-- posixpath.join of two arguments. -/
def pathJoin (a b : Str) : Str :=
  if b.head? = some '/' then b
  else if a = [] ∨ a.getLast? = some '/' then a ++ b
  else a ++ '/' :: b

def dummyBucket : Str := "t5x-dummy-bucket".toList

/-- checkpoints.py:350-377 `_get_spec`, followed by the normalisation of ts.Spec, which moves a path to the kvstore. -/
def getSpec (dir name : Str) : Spec :=
  if gsPrefix.isPrefixOf dir then ⟨.gcs, some dummyBucket, some (dotted name), none⟩
  else ⟨.file, none, some (dotted name), none⟩

/-- checkpoints.py:237-269. -/
def updatePath (dir : Str) (s : Spec) : Except Err Spec :=
  match matchGs dir with
  | some (b, d) =>
    if s.driver ≠ .gcs then .error .value
    else go d { s with bucket := some b }
  | none => go dir s
where
  go (d : Str) (s : Spec) : Except Err Spec :=
    match s.kvPath, s.topPath with
    | some p, _ => .ok { s with kvPath := some (pathJoin d p) }
    | none, some p => .ok { s with topPath := some (pathJoin d p) }
    | none, none => .error .value

/-- checkpoints.py:272-308, one spec.  `pop('path')` needs the path in the kvstore. -/
def fileToGcs (s : Spec) : Except Err Spec :=
  match s.driver with
  | .file | .gfile =>
    match s.kvPath with
    | some p => .ok { s with driver := .gcs, bucket := some dummyBucket, kvPath := some p }
    | none => .error .key
  | .gcs => .ok s
  | .other => .error .value

/-- checkpoints.py:311-347, one spec. -/
def gcsToFile (s : Spec) : Except Err Spec :=
  match s.driver with
  | .gcs =>
    match s.kvPath with
    | some p => .ok { s with driver := .file, bucket := none, kvPath := some p }
    | none => .error .key
  | .gfile => .ok { s with driver := .file }
  | .file => .ok s
  | .other => .error .value

/-- checkpoints.py:1076-1083 and `_read_ts` 1719-1730: the spec that is opened when reading from `dir`. -/
def readSpec (dir : Str) (s : Spec) : Except Err Spec := do
  let s ← if gsPrefix.isPrefixOf dir then fileToGcs s else gcsToFile s
  updatePath dir s

end Verif.TsPath
