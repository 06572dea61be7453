import Verif.Common
/-
From logical axis names to mesh axes: `standard_logical_axis_rules` and `PjitPartitioner.__init__` / `get_mesh_axes`,
`/repo/t5x/partitioning.py` lines 545-625, 1070-1082, 1112-1134, and the mixture-of-experts versions,
`/repo/t5x/contrib/moe/partitioning.py` lines 365-424.

`flax.linen.partitioning.logical_to_mesh_axes` is modelled from the flax source.

Simplifications: the mesh axes of a dimension are `None` or a tuple of names, a single name being a tuple of one (jax does not tell the two apart);
a state is its flat list of names and entries (the way there and back is C46).
-/
namespace Verif.AxisRules

abbrev Str := List Char

/-- What a rule or a dimension is assigned to. -/
abbrev Axes := Option (List Str)

abbrev Rule := Str × Axes

inductive Err where
  | duplicate  -- ValueError: the dimensions of an array have duplicate names
  | dims       -- ValueError: unsupported partitioning dims
  | typeError  -- TypeError: exceptions must derive from BaseException
  | failed (param : Str)  -- ValueError: failed to map logical axes for param
deriving DecidableEq, Repr

/-- `_mesh_assignment_free` of flax: no mesh axis of the new assignment has been assigned already. -/
def free (a : Axes) (result : List (Option Axes)) : Bool :=
  result.all fun r => match r with
    | some (some l) => (a.getD []).all fun x => !l.contains x
    | _ => true

/-- One rule in the loop of flax's `logical_to_mesh_axes`; `none` in the result is "not assigned yet". -/
def step (names : List (Option Str)) (result : List (Option Axes)) (rule : Rule) : List (Option Axes) :=
  match names.findIdx? (· == some rule.1) with
  | none => result
  | some pos => if free rule.2 result && (result[pos]? == some none) then result.set pos (some rule.2) else result

/-- No name except `None` twice. -/
def noDuplicates : List (Option Str) → Bool
  | [] => true
  | none :: l => noDuplicates l
  | some n :: l => !l.contains (some n) && noDuplicates l

/-- flax's `logical_to_mesh_axes`. -/
def logicalToMesh (names : List (Option Str)) (rules : List Rule) : Except Err (List Axes) :=
  if noDuplicates names then .ok ((rules.foldl (step names) (List.replicate names.length none)).map (·.getD none))
  else .error .duplicate

def data : Axes := some ["data".toList]
def model : Axes := some ["model".toList]

/-- The first part of `standard_logical_axis_rules`, lines 564-608. -/
def baseRules : Nat → Nat → Option (List Rule)
  | 1, 1 => some [("batch".toList, data), ("vocab".toList, model), ("embed".toList, none), ("mlp".toList, model), ("heads".toList, model),
      ("kv".toList, none), ("joined_kv".toList, model)]
  | 2, 1 => some [("batch".toList, data), ("vocab".toList, model), ("mlp".toList, model), ("heads".toList, model), ("kv".toList, none),
      ("joined_kv".toList, model), ("embed".toList, model)]
  | 1, 2 => some [("batch".toList, data), ("vocab".toList, model), ("mlp".toList, model), ("heads".toList, model), ("kv".toList, none),
      ("joined_kv".toList, model), ("embed".toList, data)]
  | 2, 2 => some [("batch".toList, data), ("vocab".toList, model), ("mlp".toList, model), ("heads".toList, model), ("kv".toList, none),
      ("joined_kv".toList, model), ("embed".toList, model), ("embed".toList, data)]
  | _, _ => none

/-- Lines 611-618. -/
def replicatedRules : List Rule :=
  [("relpos_buckets".toList, none), ("abspos_buckets".toList, none), ("length".toList, none), ("layers".toList, none), ("stack".toList, none),
    ("mlp_activations".toList, none)]

/-- `standard_logical_axis_rules`, lines 545-625. -/
def standardRules (act par : Nat) (additional : List Rule) : Except Err (List Rule) :=
  match baseRules act par with
  | none => .error .dims
  | some rules => .ok (rules ++ replicatedRules ++ additional)

/-- `PjitPartitioner.__init__`, lines 1070-1079: with ICI and DCN mesh shapes the batch is split over the replica axis as well. -/
def partitionerRules (multiSlice : Bool) (rules : List Rule) : List Rule :=
  if multiSlice then rules.map fun r => (r.1, if r.1 = "batch".toList then some ["replica".toList, "data".toList] else r.2) else rules

/-- `self._data_axis`, lines 1080-1082. -/
def dataAxis (rules : List Rule) : Except Err Axes :=
  match logicalToMesh [some "batch".toList] rules with
  | .error e => .error e
  | .ok l => .ok (l.head?.getD none)

/-- An entry of the state dict of logical axes. -/
inductive Leaf where
  | none
  | empty
  | names (l : List (Option Str))
deriving DecidableEq, Repr

inductive MeshLeaf where
  | none
  | empty
  | spec (l : List Axes)
deriving DecidableEq, Repr

/-- `PjitPartitioner.get_mesh_axes`, lines 1112-1134. -/
def getMeshAxes (rules : List Rule) : List (Str × Leaf) → Except Err (List (Str × MeshLeaf))
  | [] => .ok []
  | (k, v) :: rest =>
    match v with
    | .none => (getMeshAxes rules rest).map ((k, .none) :: ·)
    | .empty => (getMeshAxes rules rest).map ((k, .empty) :: ·)
    | .names l =>
      match logicalToMesh l rules with
      | .error _ => .error (.failed k)
      | .ok m => (getMeshAxes rules rest).map ((k, .spec m) :: ·)

/-- The additional rules of mixture-of-experts models, lines 405-410. -/
def moeRules : List Rule :=
  [("expert".toList, some ["expert".toList]), ("expert_mlp".toList, model), ("expert_replicas".toList, data), ("unmodeled".toList, none)]

/-- `standard_logical_axis_rules` of `contrib/moe`, lines 365-424; `raise logging.warning(...)` raises `None`. -/
def moeStandardRules (act par : Nat) (additional : List Rule) : Except Err (List Rule) :=
  if par = 2 then .error .typeError
  else match standardRules act par [] with
    | .error e => .error e
    | .ok rules => .ok ((rules ++ moeRules ++ additional).map fun r =>
        (r.1, if r.1 = "batch".toList then some ["expert".toList, "data".toList] else r.2))

end Verif.AxisRules
