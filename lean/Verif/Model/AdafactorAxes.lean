import Verif.Model.Adafactor
/-
Logical axes of the Adafactor state: `set_param_axes` and `derive_logical_axes` (`/repo/t5x/adafactor.py`, lines 629-683), the choice of
the state filter `_infer_state_filter_fn` and the overrides of `MoePjitPartitioner.get_logical_axes`, `compute_num_model_partitions` and
`override_partition_specs` (`/repo/t5x/contrib/moe/partitioning.py`, lines 269-317, 427-581).

Simplifications: trees of dicts are lists of entries in the order of traversal, with the slash-joined path as key (paths are distinct;
naming and rebuilding of nested trees are in `NamedTree`); a `PartitionSpec` of names is a list with `none` for an unnamed dimension;
the step and the parameters' own axes are passed through by `derive_logical_axes` and left out.
-/
namespace Verif.AdafactorAxes
open Verif.Adafactor

abbrev Name := List Char
/-- A `PartitionSpec` of logical axis names. -/
abbrev Axes := List (Option Name)

inductive Err where
  | noAxisRule (n : Option Name)  -- KeyError: logical_factor_rules[x]
  | badFactor (n : Name)          -- KeyError of factor_name_to_factordim
  | adafactor (e : Adafactor.Err)
  | structure                     -- ValueError of tree_map: trees of different structure
  | mixedTypes | mixedFactoring | unknownOptimizer  -- ValueErrors of _infer_state_filter_fn
  | noPartitions | inconsistent   -- ValueErrors of compute_num_model_partitions
deriving DecidableEq

/-- A value of `logical_factor_rules`. -/
inductive FVal where
  | dim (d : FactorDim)
  | str (s : Name)

/-- `factor_name_to_factordim`, lines 125-136; `lower` is `str.lower`. -/
def factorNameToFactorDim (lower : Name → Name) : FVal → Except Err FactorDim
  | .dim d => .ok d
  | .str s =>
    let l := lower s
    if l = "row".toList then .ok .row
    else if l = "col".toList then .ok .column
    else if l = "column".toList then .ok .column
    else if l = "batch".toList then .ok .batch
    else if l = "none".toList then .ok .none
    else if l = "unfactorized".toList then .ok .none
    else .error (.badFactor l)

/-- `standard_logical_factor_rules`, lines 104-122. -/
def standardRules : List (Name × FVal) :=
  [("vocab".toList, .dim .column), ("embed".toList, .dim .row), ("mlp".toList, .dim .column), ("heads".toList, .dim .column),
   ("kv".toList, .dim .column), ("joined_kv".toList, .dim .column), ("relpos_buckets".toList, .dim .none),
   ("layers".toList, .dim .batch), ("stack".toList, .dim .batch), ("q_wi_fused".toList, .dim .column),
   ("o_wo_fused".toList, .dim .column), ("multiquery_heads".toList, .dim .column), ("kv_fused".toList, .dim .column),
   ("layer_norm_scale".toList, .dim .none), ("mlp_activations".toList, .dim .column)]

/-- `logical_factor_rules` of `/repo/t5x/contrib/moe/adafactor_utils.py`, lines 24-33 (none of the added names is in the standard rules). -/
def moeRules : List (Name × FVal) :=
  standardRules ++ [("expert".toList, .dim .batch), ("expert_mlp".toList, .dim .column), ("unmodeled".toList, .dim .none),
    ("mlp_embed".toList, .dim .row)]

/-- `logical_factor_rules[x]`; the keys are strings. -/
def lookupRule (rules : List (Name × FVal)) : Option Name → Option FVal
  | none => none
  | some n => (rules.find? (fun e => e.1 = n)).map (·.2)

/-- The two tuples of lines 647-648. -/
def axisRules (lower : Name → Name) (rules : List (Name × FVal)) : Axes → Except Err (List FactorDim)
  | [] => .ok []
  | x :: xs =>
    match lookupRule rules x with
    | none => .error (.noAxisRule x)
    | some v =>
      match factorNameToFactorDim lower v with
      | .error e => .error e
      | .ok d =>
        match axisRules lower rules xs with
        | .error e => .error e
        | .ok ds => .ok (d :: ds)

/-- `apply_rules`, lines 642-655. -/
def applyRulesTo (lower : Name → Name) (rules : List (Name × FVal)) (axes : Axes) : Except Err (List FactorDim) :=
  match axisRules lower rules axes with
  | .error e => .error e
  | .ok l =>
    match applyRules l with
    | .error e => .error (.adafactor e)
    | .ok r => .ok r

/-- The factor map built by `set_param_axes`, lines 657-658. -/
def factorMapOf (lower : Name → Name) (rules : List (Name × FVal)) : List (Name × Axes) → Except Err (List (Name × List FactorDim))
  | [] => .ok []
  | (p, a) :: rest =>
    match applyRulesTo lower rules a with
    | .error e => .error e
    | .ok r =>
      match factorMapOf lower rules rest with
      | .error e => .error e
      | .ok m => .ok ((p, r) :: m)

/-- `set_param_axes`, lines 629-660; an empty map counts as no map (`if self.hyper_params.factor_map`). -/
def setParamAxes (lower : Name → Name) (rules : Option (List (Name × FVal))) (D : Def) (axes : List (Name × Axes)) : Except Err Def :=
  match rules with
  | none => .ok D
  | some rules =>
    match factorMapOf lower rules axes with
    | .error e => .error e
    | .ok [] => .ok { D with factorMap := none }
    | .ok m => .ok { D with factorMap := some fun p => (m.find? (fun e => e.1 = p)).map fun e => Rule.dims e.2 }

variable {V : Type}

/-- `init_state`, lines 451-462. -/
def initState (O : Ops V) (D : Def) (momentum : Bool) : List (Name × List Nat) → Except Err (List (Name × PState V))
  | [] => .ok []
  | (p, s) :: rest =>
    match initParam O D momentum p s with
    | .error e => .error (.adafactor e)
    | .ok st =>
      match initState O D momentum rest with
      | .error e => .error e
      | .ok r => .ok ((p, st) :: r)

/-- The axes of an `_AdafactorParamState`. -/
structure StateAxes where
  vRow : Option Axes
  vCol : Option Axes
  v : Option Axes
  m : Option Axes
deriving DecidableEq

/-- `factor_rule`, lines 669-675; `beta1` is the truth value of `self.hyper_params.beta1`. -/
def leafAxes (beta1 : Bool) (axes : Axes) (st : PState V) : StateAxes :=
  ⟨none, none, if st.v.shape ≠ [1] then some axes else none, if beta1 then some axes else none⟩

/-- `derive_logical_axes`, lines 662-683: the `param_states` of the result. -/
def deriveAxes (beta1 : Bool) : List (Name × Axes) → List (Name × PState V) → Except Err (List (Name × StateAxes))
  | [], [] => .ok []
  | (p, a) :: as, (q, st) :: sts =>
    if p ≠ q then .error .structure
    else
      match deriveAxes beta1 as sts with
      | .error e => .error e
      | .ok r => .ok ((p, leafAxes beta1 a st) :: r)
  | _, _ => .error .structure

/-! ### Mixture of experts -/

/-- Optimizer definitions as seen by `_infer_state_filter_fn`: `other` has the name of its class. -/
inductive OptDef where
  | multi (subs : List OptDef)
  | optax
  | adafactor (factored : Bool)
  | other (cls : Name)

/-- `type(a) is type(b)`. -/
def sameType : OptDef → OptDef → Bool
  | .multi _, .multi _ => true
  | .optax, .optax => true
  | .adafactor _, .adafactor _ => true
  | .other a, .other b => a = b
  | _, _ => false

/-- `opt.hyper_params.factored`. -/
def isFactored : OptDef → Bool
  | .adafactor f => f
  | _ => false

/-- Lines 562-581: whether the filter `.*expert.*/kernel/v_.*` is needed. -/
def inferSingle : OptDef → Except Err Bool
  | .optax => .ok false
  | .adafactor f => .ok f
  | _ => .error .unknownOptimizer

/-- `_infer_state_filter_fn`, lines 506-581: `true` for the filter, `false` for `None`. -/
def inferFilter : OptDef → Except Err Bool
  | .multi [] => .ok false
  | .multi (o :: os) =>
    if !(o :: os).all (fun x => sameType x o) then .error .mixedTypes
    else
      match o with
      | .adafactor f =>
        if !(o :: os).all (fun x => isFactored x == f) then .error .mixedFactoring else inferSingle o
      | _ => inferSingle o
  | o => inferSingle o

/-- Does `s` begin with `p`? -/
def startsWith : Name → Name → Bool
  | [], _ => true
  | _ :: _, [] => false
  | a :: p, b :: s => a == b && startsWith p s

/-- `re.match('.*' + p + ...)`: `p` at some place, and `k` holds of what follows. -/
def searchThen (p : Name) (k : Name → Bool) : Name → Bool
  | [] => startsWith p [] && k ([] : Name)
  | c :: s => (startsWith p (c :: s) && k ((c :: s).drop p.length)) || searchThen p k s

/-- `match_fn(r'.*expert.*/kernel/v_.*')`, line 577; names without line breaks. -/
def expertFilter (name : Name) : Bool :=
  searchThen "expert".toList (fun rest => searchThen "/kernel/v_".toList (fun _ => true) rest) name

/-- `prepend_expert`, lines 302-308. -/
def prependExpert : Option Axes → Option Axes
  | none => some [some "expert".toList]
  | some [] => some [some "expert".toList]
  | some x => some (some "expert".toList :: x)

/-- `tree_map_with_names(prepend_expert, param_states, state_filter_fn)`, lines 311-313, on one parameter's state. -/
def moeLeaf (filter : Name → Bool) (p : Name) (a : StateAxes) : StateAxes :=
  let at_ := fun field x => if filter (p ++ '/' :: field) then prependExpert x else x
  ⟨at_ "v_row".toList a.vRow, at_ "v_col".toList a.vCol, at_ "v".toList a.v, at_ "m".toList a.m⟩

/-- `MoePjitPartitioner.get_logical_axes`, lines 286-317, for a train state: the axes of `param_states`.  `user` is the
`state_filter_fn` of the constructor. -/
def moeAxes (user : Option (Name → Bool)) (opt : OptDef) (base : List (Name × StateAxes)) : Except Err (List (Name × StateAxes)) :=
  match user with
  | some f => .ok (base.map fun e => (e.1, moeLeaf f e.1 e.2))
  | none =>
    match inferFilter opt with
    | .error e => .error e
    | .ok false => .ok base
    | .ok true => .ok (base.map fun e => (e.1, moeLeaf expertFilter e.1 e.2))

/-- `compute_num_model_partitions`, lines 427-461. -/
def computeNumModelPartitions : Option Nat → Option (List Nat) → Except Err Nat
  | none, none => .error .noPartitions
  | some n, none => .ok n
  | some n, some m => if n ≠ m.prod then .error .inconsistent else .ok n
  | none, some m => .ok m.prod

/-- Axis resources as `override_partition_specs` distinguishes them: a `PartitionSpec` (entries: mesh axes of each dimension, written as
a name, a tuple of names or `None`), a sequence, anything else. -/
inductive Entry where
  | none
  | axis (n : Name)
  | tuple (ns : List Name)
deriving DecidableEq

inductive Res (τ : Type) where
  | spec (s : List Entry)
  | seq (l : List (Res τ))
  | other (t : τ)

/-- `_maybe_override_spec`, lines 483-493. -/
def maybeOverride {τ : Type} : Res τ → Res τ
  | .spec s => if s = [.axis "data".toList] then .spec [.tuple ["expert".toList, "data".toList]] else .spec s
  | r => r

/-- `override_partition_specs`, lines 464-503. -/
def overrideSpecs {τ : Type} : Res τ → Res τ
  | .spec s => maybeOverride (.spec s)
  | .seq l => .seq (l.map maybeOverride)
  | .other t => .other t

end Verif.AdafactorAxes
