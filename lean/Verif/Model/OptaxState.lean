import Verif.Model.StateDict
/-
Serialisation of optimizer states: `OptaxWrapper.state_dict` and `OptaxWrapper.restore_state`
(`/repo/t5x/optimizers.py`, lines 453-525) and the plain `OptimizerDef.state_dict` / `restore_state` (lines 97-118).

An optimizer state (nested tuples, named tuples, dicts and arrays, `optax.EmptyState` being an empty named tuple) is
represented by its flax state dict, so that `to_state_dict` is the identity.  `from_state_dict` is modelled from flax's
documentation: it follows the template, raises if an entry of the template is missing and puts the value of the state dict at
the leaves; flax's additional error for superfluous entries of tuples is not modelled.
-/
namespace Verif.OptaxState
open Verif Verif.StateDict

variable {α : Type}

inductive Err where
  | missing   -- ValueError 'Failed to restore optimizer state, path ... is not present ...'
  | bad       -- errors of `from_state_dict` or `unflatten_dict`
deriving DecidableEq

/-- `flax.serialization.from_state_dict(template, values)`. -/
def fromStateDict : Dict α → Dict α → Option (Dict α)
  | .nil, _ => some .nil
  | .leaf k _ r, u =>
    match u.get k, fromStateDict r u with
    | some v, some r' => some (Dict.cons k v r')
    | _, _ => none
  | .sub k d r, u =>
    match u.get k with
    | some (.dict e) =>
      match fromStateDict d e, fromStateDict r u with
      | some d', some r' => some (.sub k d' r')
      | _, _ => none
    | _ => none

/-- `traverse_util.flatten_dict(d, keep_empty_nodes=keepEmpty, sep='/')`; the kept empty node is the empty dict. -/
def flat (keepEmpty : Bool) (d : Dict α) : List (Key × Val α) :=
  flattenGo (fun _ => false) keepEmpty join [] [] d

/-- The state part of `OptaxWrapper.state_dict`, lines 472-477. -/
def stateDict (state : Dict α) : Option (Dict α) := unflatten (flat false state)

/-- The loop of lines 505-516. -/
def addEmpty : List (Key × Val α) → List (Key × Val α) → Except Err (List (Key × Val α))
  | [], src => .ok src
  | (k, v) :: ref, src =>
    if PyDict.has src k then addEmpty ref src
    else
      match v with
      | .dict .nil => addEmpty ref (PyDict.set src k v)
      | _ => .error .missing

/-- The state part of `OptaxWrapper.restore_state`, lines 497-524. -/
def restoreState (template state : Dict α) : Except Err (Dict α) :=
  match addEmpty (flat true template) (flat false state) with
  | .error e => .error e
  | .ok src =>
    match unflatten src with
    | none => .error .bad
    | some u =>
      match fromStateDict template u with
      | none => .error .bad
      | some s => .ok s

/-- `OptaxWrapper.state_dict`, lines 453-482: the pair is the dict with the entries 'target' and 'state'. -/
def optaxStateDict (target state : Dict α) : Option (Dict α × Dict α) :=
  (stateDict state).map fun s => (target, s)

/-- `OptaxWrapper.restore_state`, lines 484-525. -/
def optaxRestore (target state : Dict α) (sd : Dict α × Dict α) : Except Err (Dict α × Dict α) :=
  match fromStateDict target sd.1 with
  | none => .error .bad
  | some t =>
    match restoreState state sd.2 with
    | .error e => .error e
    | .ok s => .ok (t, s)

/-- `OptimizerDef.state_dict` and `restore_state`, lines 97-118. -/
def plainStateDict (target state : Dict α) : Dict α × Dict α := (target, state)

def plainRestore (target state : Dict α) (sd : Dict α × Dict α) : Except Err (Dict α × Dict α) :=
  match fromStateDict target sd.1, fromStateDict state sd.2 with
  | some t, some s => .ok (t, s)
  | _, _ => .error .bad

end Verif.OptaxState
