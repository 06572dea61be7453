import Verif.Model.MultiOpt
/-
`override_params_axes_names` and `_RegexMap`, `/repo/t5x/utils.py` lines 2201-2281.

Simplifications: a compiled pattern is the set of names it fully matches; the axis metadata of a parameter are its axis names (the assertion on
their class is left out); only the collections 'params' and 'params_axes' are looked at; logging is dropped.
-/
namespace Verif.AxesOverride
open Verif Verif.StateDict Verif.MultiOpt

variable {α : Type}

inductive Err where
  | noAxes     -- ValueError: no 'params_axes' collection
  | rank       -- ValueError: the override does not match the parameter's rank
  | structure  -- an error of `unflatten_dict`
deriving DecidableEq, Repr

abbrev Names := List Key

/-- A priority-ordered sequence of patterns and values; the value can be `None`. -/
abbrev Patterns := List ((Key → Bool) × Option Names)

/-- `_RegexMap.get`, lines 2207-2211: the value of the first pattern that matches, `None` without one. -/
def lookup : Patterns → Key → Option Names
  | [], _ => none
  | (m, v) :: rest, k => if m k then v else lookup rest k

/-- `key[:-1] + (f'{key[-1]}_axes',)`, line 2250. -/
def axesKey (key : List Key) : List Key := key.dropLast ++ [key.getLast?.getD [] ++ "_axes".toList]

/-- The loop of lines 2244-2276. -/
def loop (pats : Patterns) (rank : α → Nat) : List (List Key × α) → List (List Key × Names) → Except Err (List (List Key × Names))
  | [], ax => .ok ax
  | (key, a) :: rest, ax =>
    match lookup pats (join key) with
    | none => loop pats rank rest ax
    | some names => if rank a ≠ names.length then .error .rank else loop pats rank rest (PyDict.set ax (axesKey key) names)

/-- `override_params_axes_names`, lines 2220-2281. -/
def overrideAxes (pats : Patterns) (rank : α → Nat) (params : Dict α) (axes : Option (Dict Names)) : Except Err (Dict Names) :=
  match axes with
  | none => .error .noAxes
  | some axes =>
    match loop pats rank (items params) (items axes) with
    | .error e => .error e
    | .ok ax =>
      match unflat ax with
      | none => .error .structure
      | some d => .ok d

end Verif.AxesOverride
