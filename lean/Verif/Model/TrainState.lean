import Verif.Model.OptaxState
import Verif.Model.MultiOpt
/-
`FlaxOptimTrainState` and `InferenceState`: `/repo/t5x/train_state.py`, lines 88-318.

Model variables are a dict from collection names to nested dicts; arrays and axis metadata are leaves of one opaque type, frozen and
plain dicts are not told apart.  An optimizer is a target and an `OptimizerState` (step and parameter states); its serialisation is
that of `Verif.Model.OptaxState`, for `OptimizerDef` and for `OptaxWrapper`.  `flax_partitioning.get_axis_names` is modelled from
the flax source: flatten, strip the suffix `_axes` of the joined name, unflatten.
-/
namespace Verif.TrainState
open Verif Verif.StateDict Verif.MultiOpt Verif.OptaxState

variable {α : Type}

inductive Err where
  | keyError      -- no 'params', or axes of a collection that does not exist
  | missingAxes   -- ValueError: missing axis names for parameters
  | noAxes        -- ValueError: the optimizer wants axes, the model emits none
  | restore       -- an error of `restore_state`
deriving DecidableEq

def axesSuffix : Key := "_axes".toList

/-- `k[:-5]` if `k.endswith('_axes')`. -/
def base (k : Key) : Option Key := if axesSuffix.isSuffixOf k then some (k.take (k.length - 5)) else none

/-- `re.sub(r'_axes$', '', k)`. -/
def stripAxes (k : Key) : Key := (base k).getD k

/-- The flat names of `get_axis_names(axes)`. -/
def axisNames (axes : Dict α) : List Key := (items axes).map fun e => stripAxes (join e.1)

/-- `_validate_params_axes`, lines 88-96: whether no axis names are missing. -/
def validate (axes params : Dict α) : Bool := (items params).all fun e => (axisNames axes).contains (join e.1)

abbrev Collections (α : Type) := List (Key × Dict α)

/-- The loop of `_split_variables_and_axes`, lines 106-111. -/
def splitLoop (all : Collections α) : Collections α → Collections α × Collections α → Except Err (Collections α × Collections α)
  | [], s => .ok s
  | (k, v) :: rest, (vars, axes) =>
    match base k with
    | some b =>
      match PyDict.get all b with
      | none => .error .keyError
      | some t => if validate v t then splitLoop all rest (vars, PyDict.set axes b v) else .error .missingAxes
    | none => splitLoop all rest (PyDict.set vars k v, axes)

/-- `_split_variables_and_axes`, lines 99-112. -/
def splitVars (all : Collections α) : Except Err (Collections α × Collections α) := splitLoop all all ([], [])

/-- What `create` has before it makes the optimizer: parameters, their axes, mutables and their axes (`None` if there are none). -/
structure Parts (α : Type) where
  params : Dict α
  paramsAxes : Option (Dict α)
  mutables : Collections α
  mutablesAxes : Option (Collections α)
deriving DecidableEq

/-- `x or None` for dicts. -/
def orNone (c : Collections α) : Option (Collections α) := if c.isEmpty then none else some c

/-- `FlaxOptimTrainState.create`, lines 127-169, up to the creation of the optimizer; `wants` is
`hasattr(optimizer_def, 'set_param_axes')`.  `InferenceState.create`, lines 244-267, is the same with `wants = false`. -/
def create (wants : Bool) (vars : Collections α) : Except Err (Parts α) :=
  match PyDict.get vars "params".toList with
  | none => .error .keyError
  | some params =>
    let other := PyDict.pop vars "params".toList
    match (match PyDict.get other "params_axes".toList with
      | some ax => if validate ax params then .ok (PyDict.pop other "params_axes".toList, some ax) else .error .missingAxes
      | none => .ok (other, none) : Except Err (Collections α × Option (Dict α))) with
    | .error e => .error e
    | .ok (other, paramsAxes) =>
      match splitVars other with
      | .error e => .error e
      | .ok (mutables, axes) =>
        if wants ∧ paramsAxes = none then .error .noAxes
        else .ok ⟨params, paramsAxes, mutables, orNone axes⟩

/-- Which `state_dict` and `restore_state` the optimizer definition has. -/
inductive Kind where
  | plain
  | optax
deriving DecidableEq

/-- A `FlaxOptimTrainState`. -/
structure TState (α : Type) where
  params : Dict α
  step : α
  paramStates : Dict α
  paramsAxes : Option (Dict α)
  mutables : Collections α
  mutablesAxes : Option (Collections α)
deriving DecidableEq

/-- The state dict of an `OptimizerState` (`/repo/t5x/optimizers.py`, lines 46-49). -/
def optState (step : α) (ps : Dict α) : Dict α := .leaf "step".toList step (.sub "param_states".toList ps .nil)

/-- The `OptimizerState` read back. -/
def readState (d : Dict α) : Option (α × Dict α) :=
  match d.get "step".toList, d.get "param_states".toList with
  | some (.arr x), some (.dict p) => some (x, p)
  | _, _ => none

/-- A train state dict: entries 'target', 'state' and, if present, 'flax_mutables'. -/
structure SDict (α : Type) where
  target : Dict α
  state : Dict α
  mutables : Option (Collections α)
deriving DecidableEq

/-- `FlaxOptimTrainState.state_dict`, lines 182-186. -/
def stateDict (kind : Kind) (t : TState α) : Option (SDict α) :=
  match (match kind with
    | .plain => some (plainStateDict t.params (optState t.step t.paramStates))
    | .optax => optaxStateDict t.params (optState t.step t.paramStates)) with
  | none => none
  | some (target, state) => some ⟨target, state, orNone t.mutables⟩

/-- `FlaxOptimTrainState.restore_state`, lines 209-216. -/
def restoreState (kind : Kind) (t : TState α) (sd : SDict α) : Except Err (TState α) :=
  match (match kind with
    | .plain => plainRestore t.params (optState t.step t.paramStates) (sd.target, sd.state)
    | .optax => optaxRestore t.params (optState t.step t.paramStates) (sd.target, sd.state)) with
  | .error _ => .error .restore
  | .ok (target, state) =>
    match readState state with
    | none => .error .restore
    | some (step, ps) => .ok { t with params := target, step := step, paramStates := ps, mutables := sd.mutables.getD [] }

/-- `FlaxOptimTrainState.replace_step`, lines 204-207. -/
def replaceStep (kind : Kind) (t : TState α) (x : α) : Except Err (TState α) :=
  match stateDict kind t with
  | none => .error .restore
  | some sd => restoreState kind t { sd with state := sd.state.set "step".toList (.arr x) }

/-- The flat names in the mutables of `as_logical_axes`, lines 218-231 and 308-318. -/
def logicalMutables (axes : Option (Collections α)) : List Key :=
  (axes.getD []).flatMap fun c => (items c.2).map fun e => stripAxes (join (c.1 :: e.1))

/-- An `InferenceState`. -/
structure IState (α : Type) where
  step : α
  params : Dict α
  paramsAxes : Option (Dict α)
  mutables : Collections α
  mutablesAxes : Option (Collections α)
deriving DecidableEq

/-- `InferenceState.state_dict`, lines 279-286. -/
def iStateDict (t : IState α) : SDict α := ⟨t.params, .leaf "step".toList t.step .nil, orNone t.mutables⟩

/-- `InferenceState.restore_state`, lines 299-306: nothing is compared with the template. -/
def iRestore (t : IState α) (sd : SDict α) : Except Err (IState α) :=
  match sd.state.get "step".toList with
  | some (.arr x) => .ok { t with params := sd.target, step := x, mutables := sd.mutables.getD [] }
  | _ => .error .keyError

end Verif.TrainState
