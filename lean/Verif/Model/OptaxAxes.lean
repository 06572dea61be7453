import Verif.Model.OptaxState
/-
Logical axes of optax states: `OptaxStatePartitionRules` and `OptaxWrapper.derive_logical_axes`, `/repo/t5x/optimizers.py` lines 184-367 and
427-451.

A state is a tree of arrays, `optax.MaskedNode()`s, ordinary nodes (tuples, lists, dicts) and named tuples whose class name ends with "State"; the
entries of a node are named by key, position or field, as in its flax state dict.

Simplifications: no `None` inside a state (other than what the rules put there); the parameters are a nested dict, and their axes have no `None`;
the rule for Amos, which is outside the repository, is left out; keys of a dict keep their order.
-/
namespace Verif.OptaxAxes
open Verif.StateDict

/-- The classes of optax states with a rule; `other` is any other class. -/
inductive Kind where
  | addNoise | dpAggregate | ema | empty | trace | adam | belief | lion | rss | rms | rstddev | sm3 | trustRatio | schedule | zeroNans
  | masked | injectHyperparams | multiSteps | applyIfFinite | conditionallyTransform | multiTransform | other
deriving DecidableEq, Repr

/-- The entries of a node: arrays, masked nodes, ordinary nodes and optax states. -/
inductive State (A : Type) where
  | nil
  | arr (k : Key) (a : A) (rest : State A)
  | masked (k : Key) (rest : State A)
  | node (k : Key) (c rest : State A)
  | named (k : Key) (kind : Kind) (fields rest : State A)

inductive Err where
  | unregistered  -- ValueError: unregistered optax state type
  | structure     -- errors of tree_map
  | missing       -- ValueError of restore_state
  | bad           -- other errors of restore_state
deriving DecidableEq, Repr

/-- What a rule does with a field. -/
inductive Rule where
  | noAxes      -- `None`
  | params      -- `derive_params_axes(state.field, params_axes)`
  | inner       -- `derive_optax_logical_axes(state.field, params_axes)`
  | noneLeaves  -- `jax.tree.map(lambda x: None, state.field)`
  | paramsAxes  -- `params_axes`
  | default     -- the field's default value `()`
deriving DecidableEq, Repr

/-- `_RULES`, lines 200-314. -/
def rules : Kind → Option (List (Key × Rule))
  | .addNoise => some [("count".toList, .noAxes), ("rng_key".toList, .noAxes)]
  | .dpAggregate => some [("rng_key".toList, .noAxes)]
  | .ema => some [("count".toList, .noAxes), ("ema".toList, .params)]
  | .empty => some []
  | .trace => some [("trace".toList, .params)]
  | .adam => some [("count".toList, .noAxes), ("mu".toList, .params), ("nu".toList, .params)]
  | .belief => some [("count".toList, .noAxes), ("mu".toList, .params), ("nu".toList, .params)]
  | .lion => some [("count".toList, .noAxes), ("mu".toList, .params)]
  | .rss => some [("sum_of_squares".toList, .params)]
  | .rms => some [("nu".toList, .params)]
  | .rstddev => some [("mu".toList, .params), ("nu".toList, .params)]
  | .sm3 => some [("mu".toList, .params), ("nu".toList, .params)]
  | .trustRatio => some []
  | .schedule => some [("count".toList, .noAxes)]
  | .zeroNans => some [("found_nan".toList, .noAxes)]
  | .masked => some [("inner_state".toList, .inner)]
  | .injectHyperparams => some [("count".toList, .noAxes), ("hyperparams".toList, .noneLeaves), ("inner_state".toList, .inner)]
  | .multiSteps => some [("mini_step".toList, .noAxes), ("gradient_step".toList, .noAxes), ("inner_opt_state".toList, .inner),
      ("acc_grads".toList, .paramsAxes), ("skip_state".toList, .default)]
  | .applyIfFinite => some [("notfinite_count".toList, .noAxes), ("last_finite".toList, .noAxes), ("total_notfinite".toList, .noAxes),
      ("inner_state".toList, .inner)]
  | .conditionallyTransform => some [("inner_state".toList, .inner), ("step".toList, .noAxes)]
  | .multiTransform => some [("inner_states".toList, .inner)]
  | .other => none

variable {A X : Type}

/-- `jax.tree.map(lambda x: None, state)` as a state dict: the state's own state dict with `None` for the arrays.  `MaskedNode()` is an empty
named tuple. -/
def nones : State A → Dict (Option X)
  | .nil => .nil
  | .arr k _ r => .leaf k none (nones r)
  | .masked k r => .sub k .nil (nones r)
  | .node k c r => .sub k (nones c) (nones r)
  | .named k _ f r => .sub k (nones f) (nones r)

/-- One entry of a node, without its name. -/
inductive Entry (A : Type) where
  | arr (a : A)
  | masked
  | node (c : State A)
  | named (kind : Kind) (fields : State A)

def State.keys : State A → List Key
  | .nil => []
  | .arr k _ r => k :: r.keys
  | .masked k r => k :: r.keys
  | .node k _ r => k :: r.keys
  | .named k _ _ r => k :: r.keys

def State.get : State A → Key → Option (Entry A)
  | .nil, _ => none
  | .arr k a r, k' => if k = k' then some (.arr a) else r.get k'
  | .masked k r, k' => if k = k' then some .masked else r.get k'
  | .node k c r, k' => if k = k' then some (.node c) else r.get k'
  | .named k kind f r, k' => if k = k' then some (.named kind f) else r.get k'

/-- The axes as leaves of a state dict. -/
def allSome : Dict X → Dict (Option X)
  | .nil => .nil
  | .leaf k x r => .leaf k (some x) (allSome r)
  | .sub k d r => .sub k (allSome d) (allSome r)

/-- `derive_params_axes`, lines 359-367, entry by entry: at a leaf of `params_axes` the state may have anything; the axes are kept unless it is a
masked node.  Nodes must have the same keys. -/
def deriveParams : Dict X → State A → Except Err (Dict (Option X))
  | .nil, _ => .ok .nil
  | .leaf k x r, c =>
    match c.get k with
    | none => .error .structure
    | some e =>
      match deriveParams r c with
      | .error e => .error e
      | .ok r' => match e with
        | .masked => .ok (.sub k .nil r')
        | _ => .ok (.leaf k (some x) r')
  | .sub k d r, c =>
    match c.get k with
    | some (.node c') =>
      if c'.keys.all d.keys.contains then
        match deriveParams d c', deriveParams r c with
        | .ok d', .ok r' => .ok (.sub k d' r')
        | .error e, _ => .error e
        | _, .error e => .error e
      else .error .structure
    | _ => .error .structure

/-- The rule for an entry: by the table inside an optax state; elsewhere `derive_optax_logical_axes` goes on. -/
def ruleOf : Option (List (Key × Rule)) → Key → Option Rule
  | none, _ => some .inner
  | some rs, k => rs.lookup k

/-- `derive_optax_logical_axes`, lines 338-357 (first argument `none`), and the rules for the fields of one state (first argument the table of the
class), as state dicts. -/
def derive (pa : Dict X) : Option (List (Key × Rule)) → State A → Except Err (Dict (Option X))
  | _, .nil => .ok .nil
  | m, .arr k _ r =>
    match derive pa m r with
    | .error e => .error e
    | .ok r' =>
      match ruleOf m k with
      | some .noAxes => .ok (.leaf k none r')
      | some .inner => .ok (.leaf k none r')
      | some .noneLeaves => .ok (.leaf k none r')
      | some .paramsAxes => .ok (.sub k (allSome pa) r')
      | some .default => .ok (.sub k .nil r')
      | some .params => .error .structure
      | none => .error .structure
  | m, .masked k r =>
    match derive pa m r with
    | .error e => .error e
    | .ok r' =>
      match ruleOf m k with
      | some .noAxes => .ok (.leaf k none r')
      | some .inner => .ok (.sub k .nil r')
      | some .noneLeaves => .ok (.sub k .nil r')
      | some .paramsAxes => .ok (.sub k (allSome pa) r')
      | some .default => .ok (.sub k .nil r')
      | some .params => .error .structure
      | none => .error .structure
  | m, .node k c r =>
    match derive pa m r with
    | .error e => .error e
    | .ok r' =>
      match ruleOf m k with
      | some .noAxes => .ok (.leaf k none r')
      | some .inner =>
        match derive pa none c with
        | .error e => .error e
        | .ok c' => .ok (.sub k c' r')
      | some .noneLeaves => .ok (.sub k (nones c) r')
      | some .paramsAxes => .ok (.sub k (allSome pa) r')
      | some .default => .ok (.sub k .nil r')
      | some .params =>
        if c.keys.all pa.keys.contains then
          match deriveParams pa c with
          | .error e => .error e
          | .ok c' => .ok (.sub k c' r')
        else .error .structure
      | none => .error .structure
  | m, .named k kind f r =>
    match derive pa m r with
    | .error e => .error e
    | .ok r' =>
      match ruleOf m k with
      | some .noAxes => .ok (.leaf k none r')
      | some .inner =>
        match rules kind with
        | none => .error .unregistered
        | some rs =>
          match derive pa (some rs) f with
          | .error e => .error e
          | .ok f' => .ok (.sub k f' r')
      | some .noneLeaves => .ok (.sub k (nones f) r')
      | some .paramsAxes => .ok (.sub k (allSome pa) r')
      | some .default => .ok (.sub k .nil r')
      | some .params => .error .structure
      | none => .error .structure

/-- `OptaxWrapper.derive_logical_axes`, lines 427-451, for the optimizer state: the derived axes go through the wrapper's `restore_state`. -/
def deriveLogicalAxes (pa : Dict X) (s : State A) : Except Err (Dict (Option X)) :=
  match derive pa none s with
  | .error e => .error e
  | .ok d =>
    match OptaxState.restoreState (nones s) d with
    | .error .missing => .error .missing
    | .error .bad => .error .bad
    | .ok r => .ok r

end Verif.OptaxAxes
