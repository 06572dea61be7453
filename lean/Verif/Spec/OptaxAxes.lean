import Verif.Model.OptaxAxes
import Verif.Spec.OptaxState
namespace Verif.OptaxAxes.Spec
open Verif.StateDict
open Verif.OptaxState.Spec (arrayAt)

variable {A X : Type}

/-- What a field of an optax state holds, from optax's documentation. -/
inductive FieldSort where
  | scalar  -- one array
  | params  -- one array per parameter, or a masked node instead
  | grads   -- one array per parameter
  | inner   -- the state of wrapped transformations
  | tree    -- any tree of arrays
  | unused  -- nothing: `()`
deriving DecidableEq, Repr

/-- The fields of the classes of optax states.  Left out are `ScaleBySM3State` and `ZeroNansState`, for which there are rules that do not work, and
classes without a rule. -/
def sorts : Kind → Option (List (Key × FieldSort))
  | .addNoise => some [("count".toList, .scalar), ("rng_key".toList, .scalar)]
  | .dpAggregate => some [("rng_key".toList, .scalar)]
  | .ema => some [("count".toList, .scalar), ("ema".toList, .params)]
  | .empty => some []
  | .trace => some [("trace".toList, .params)]
  | .adam => some [("count".toList, .scalar), ("mu".toList, .params), ("nu".toList, .params)]
  | .belief => some [("count".toList, .scalar), ("mu".toList, .params), ("nu".toList, .params)]
  | .lion => some [("count".toList, .scalar), ("mu".toList, .params)]
  | .rss => some [("sum_of_squares".toList, .params)]
  | .rms => some [("nu".toList, .params)]
  | .rstddev => some [("mu".toList, .params), ("nu".toList, .params)]
  | .sm3 => none
  | .trustRatio => some []
  | .schedule => some [("count".toList, .scalar)]
  | .zeroNans => none
  | .masked => some [("inner_state".toList, .inner)]
  | .injectHyperparams => some [("count".toList, .scalar), ("hyperparams".toList, .tree), ("inner_state".toList, .inner)]
  | .multiSteps => some [("mini_step".toList, .scalar), ("gradient_step".toList, .scalar), ("inner_opt_state".toList, .inner),
      ("acc_grads".toList, .grads), ("skip_state".toList, .unused)]
  | .applyIfFinite => some [("notfinite_count".toList, .scalar), ("last_finite".toList, .scalar), ("total_notfinite".toList, .scalar),
      ("inner_state".toList, .inner)]
  | .conditionallyTransform => some [("inner_state".toList, .inner), ("step".toList, .scalar)]
  | .multiTransform => some [("inner_states".toList, .inner)]
  | .other => none

/-- The sort of an entry; the entries of tuples, lists and dicts are states again. -/
def sortOf : Option (List (Key × FieldSort)) → Key → Option FieldSort
  | none, _ => some .inner
  | some ss, k => ss.lookup k

/-- A tree with an array, or a masked node if these are allowed, for every parameter. -/
def Mirror (masks : Bool) : Dict X → State A → Prop
  | .nil, .nil => True
  | .leaf k _ r, .arr k' _ r' => k = k' ∧ Mirror masks r r'
  | .leaf k _ r, .masked k' r' => masks = true ∧ k = k' ∧ Mirror masks r r'
  | .sub k d r, .node k' c r' => k = k' ∧ Mirror masks d c ∧ Mirror masks r r'
  | _, _ => False

/-- A state of optax transformations for the parameters, nested to any depth: the first argument says where we are (see `sortOf`). -/
def StateFor (params : Dict X) : Option (List (Key × FieldSort)) → State A → Prop
  | _, .nil => True
  | m, .arr k _ r => (sortOf m k = some .scalar ∨ sortOf m k = some .inner ∨ sortOf m k = some .tree) ∧ StateFor params m r
  | m, .masked k r => (sortOf m k = some .inner ∨ sortOf m k = some .tree) ∧ StateFor params m r
  | m, .node k c r =>
    ((sortOf m k = some .params ∧ Mirror true params c) ∨ (sortOf m k = some .grads ∧ Mirror false params c) ∨
      (sortOf m k = some .inner ∧ StateFor params none c) ∨ sortOf m k = some .tree ∨
      (sortOf m k = some .unused ∧ c = .nil)) ∧ StateFor params m r
  | m, .named k kind f r => sortOf m k = some .inner ∧ (∃ ss, sorts kind = some ss ∧ StateFor params (some ss) f) ∧ StateFor params m r

/-- The parameter that the array at a path belongs to: what remains of the path below a field with one array per parameter. -/
def paramOf : Option (List (Key × FieldSort)) → State A → List Key → Option (List Key)
  | _, _, [] => none
  | m, s, k :: ks =>
    match sortOf m k with
    | some .params => some ks
    | some .grads => some ks
    | some .inner =>
      match s.get k with
      | some (.node c) => paramOf none c ks
      | some (.named kind f) =>
        match sorts kind with
        | some ss => paramOf (some ss) f ks
        | none => none
      | _ => none
    | _ => none

/-- The state contains, at a place for a state, one of a class without a rule. -/
def HasUnregistered : Option (List (Key × FieldSort)) → State A → Prop
  | _, .nil => False
  | m, .arr _ _ r => HasUnregistered m r
  | m, .masked _ r => HasUnregistered m r
  | m, .node k c r => (sortOf m k = some .inner ∧ HasUnregistered none c) ∨ HasUnregistered m r
  | m, .named k kind f r =>
    (sortOf m k = some .inner ∧ (kind = .other ∨ ∃ ss, sorts kind = some ss ∧ HasUnregistered (some ss) f)) ∨ HasUnregistered m r

end Verif.OptaxAxes.Spec
