import Verif.Model.NDArray
/-
The Adafactor optimizer: `/repo/t5x/adafactor.py`.

Scalars are an arbitrary type with the operations below (float arithmetic is not specified), so the theorems hold whatever the
rounding, and for NaN and infinities.  Arrays are shapes with an element at every index; jax's broadcasting, `mean`,
`expand_dims`, `where` and numpy's `delete` are modelled from their documentation.  `np.argsort` is a parameter.
-/
namespace Verif.Adafactor
open Verif.ND

/-- Scalar operations. -/
structure Ops (V : Type) where
  add : V → V → V
  sub : V → V → V
  mul : V → V → V
  div : V → V → V
  max : V → V → V
  min : V → V → V
  pow : V → V → V
  sqrt : V → V
  /-- `x ** -0.5` -/
  rsqrt : V → V
  /-- the mean of a list of elements, for `jnp.mean` -/
  mean : List V → V
  isnan : V → Bool
  zero : V
  one : V
  isZero : V → Bool
  /-- `_decay_rate_pow`, lines 312-316 -/
  decayPow : Int → V → V
  /-- `astype(jnp.float32)` of gradients, `astype(dtype_momentum)`, `astype(param.dtype)` -/
  castG : V → V
  castM : V → V
  castP : V → V

/-- `FactorDim`, lines 72-79. -/
inductive FactorDim where
  | none | batch | row | column
deriving DecidableEq

/-- `FactorRule`, line 87. -/
inductive Rule where
  | heuristic
  | dims (l : List FactorDim)
deriving DecidableEq

inductive Err where
  | rank        -- ValueError: rank above 2 without explicit rule
  | ruleRank    -- ValueError: rule of incorrect rank
  | noRule      -- KeyError: no factor rule found for the parameter
  | noRate      -- AssertionError: no learning rate provided
  | broadcast   -- incompatible shapes
  | incomplete  -- ValueError: incomplete adafactor spec
deriving DecidableEq

/-- The positions of a value in a rule: `tuple(idx for idx, d in enumerate(rule) if d == ...)`. -/
def positions (rule : List FactorDim) (d : FactorDim) : List Nat :=
  (List.range rule.length).filter fun k => rule[k]? = some d

/-- `np.delete(l, dims)`. -/
def del (dims : List Nat) (l : List Nat) : List Nat :=
  ((List.range l.length).filter fun k => !dims.contains k).map fun k => l.getD k 0

/-- The factored dimensions: none, still to be chosen by the heuristic, or (row dims, column dims). -/
inductive Dims where
  | unfactored
  | heuristic
  | dims (d1 d0 : List Nat)
deriving DecidableEq

/-- `Adafactor._parse_rule`, lines 318-390, with `fallback_to_heuristics=True` as everywhere in the code base. -/
def parseRule (rule : Option Rule) (shape : List Nat) : Except Err (List Nat × Dims) :=
  let ndim := shape.length
  match rule with
  | none => .ok (List.range ndim, .unfactored)
  | some .heuristic => if 2 < ndim then .error .rank else .ok (List.range ndim, .heuristic)
  | some (.dims r) =>
    if r.length ≠ ndim then .error .ruleRank
    else
      let row := positions r .row
      let col := positions r .column
      let batched := positions r .batch
      let averaging := del batched (List.range ndim)
      let factor := if row = [] ∧ col = [] then Dims.unfactored else Dims.dims row col
      if ndim ≤ 2 ∧ batched = [] then .ok (List.range ndim, .heuristic)
      else .ok (averaging, factor)

/-- The optimizer definition: `factored`, `factor_map`, `min_dim_size_to_factor` and `np.argsort`.  `factorMap = none` is a
missing or empty map; a lookup that finds nothing raises. -/
structure Def where
  factored : Bool
  factorMap : Option (List Char → Option Rule)
  minDim : Nat
  argsort : List Nat → List Nat

/-- `Adafactor._factored_dims`, lines 397-417. -/
def factoredDims (D : Def) (shape : List Nat) : Dims :=
  if !D.factored ∨ shape.length < 2 then .unfactored
  else
    let s := D.argsort shape
    let a := s.getD (s.length - 2) 0
    let b := s.getD (s.length - 1) 0
    if shape.getD a 0 < D.minDim then .unfactored else .dims [a] [b]

/-- The choice of the rule, lines 422-429 and 481-488. -/
def factorRule (D : Def) (path : List Char) : Except Err (Option Rule) :=
  if D.factored then
    match D.factorMap with
    | none => .ok (some .heuristic)
    | some m =>
      match m path with
      | none => .error .noRule
      | some r => .ok (some r)
  else .ok none

/-- Averaging dims and factored dims of a parameter: lines 422-433 and 481-515. -/
def dimsFor (D : Def) (path : List Char) (shape : List Nat) : Except Err (List Nat × Dims) :=
  match factorRule D path with
  | .error e => .error e
  | .ok rule =>
    match parseRule rule shape with
    | .error e => .error e
    | .ok (avg, .heuristic) => .ok (avg, factoredDims D shape)
    | .ok (avg, d) => .ok (avg, d)

/-! ### Array operations -/

/-- Broadcasting of shapes, aligned at the last dimension (on reversed shapes). -/
def bshapeR : List Nat → List Nat → Option (List Nat)
  | [], b => some b
  | a, [] => some a
  | x :: a, y :: b =>
    match bshapeR a b with
    | none => none
    | some r =>
      if x = y then some (x :: r)
      else if x = 1 then some (y :: r)
      else if y = 1 then some (x :: r)
      else none

def bshape (a b : List Nat) : Option (List Nat) := (bshapeR a.reverse b.reverse).map List.reverse

/-- The index into an operand of shape `s` that is read for the index `i` of the result. -/
def bidx (s i : List Nat) : List Nat :=
  List.zipWith (fun d x => if d = 1 then 0 else x) s (i.drop (i.length - s.length))

variable {V : Type}

/-- A binary elementwise operation with broadcasting. -/
def bin (f : V → V → V) (a b : NDArray V) : Except Err (NDArray V) :=
  match bshape a.shape b.shape with
  | none => .error .broadcast
  | some s => .ok ⟨s, fun i => f (a.get (bidx a.shape i)) (b.get (bidx b.shape i))⟩

/-- A unary elementwise operation; also an operation with a scalar. -/
def un (f : V → V) (a : NDArray V) : NDArray V := ⟨a.shape, fun i => f (a.get i)⟩

/-- All index vectors of a shape in row-major order. -/
def box : List Nat → List (List Nat)
  | [] => [[]]
  | n :: s => (List.range n).flatMap fun x => (box s).map fun i => x :: i

/-- `jnp.mean(a, axis=axes)`. -/
def meanAxes (mean : List V → V) (axes : List Nat) (a : NDArray V) : NDArray V :=
  ⟨del axes a.shape, fun j => mean (((box a.shape).filter fun i => del axes i = j).map a.get)⟩

/-- `jnp.mean(a, axis=axes, keepdims=True)`. -/
def meanKeep (mean : List V → V) (axes : List Nat) (a : NDArray V) : NDArray V :=
  ⟨(List.range a.shape.length).map fun k => if axes.contains k then 1 else a.shape.getD k 0,
   fun j => mean (((box a.shape).filter fun i => del axes i = del axes j).map a.get)⟩

/-- The shape of `jnp.expand_dims`: `n` result dimensions from position `p` on. -/
def expandShape (dims : List Nat) : Nat → Nat → List Nat → List Nat
  | _, 0, _ => []
  | p, n + 1, s =>
    if dims.contains p then 1 :: expandShape dims (p + 1) n s
    else match s with
      | [] => []
      | x :: s' => x :: expandShape dims (p + 1) n s'

/-- `jnp.expand_dims(a, axis=dims)`. -/
def expand (dims : List Nat) (a : NDArray V) : NDArray V :=
  ⟨expandShape dims 0 (a.shape.length + dims.length) a.shape, fun i => a.get (del dims i)⟩

/-- `jnp.where(jnp.isnan(new), old, new)`; all uses have equal shapes, other shapes broadcast. -/
def whereNan (isnan : V → Bool) (old new : NDArray V) : Except Err (NDArray V) :=
  bin (fun o n => if isnan n then o else n) old new

/-! ### The optimizer -/

/-- `_AdafactorParamState`, lines 185-190. -/
structure PState (V : Type) where
  vRow : NDArray V
  vCol : NDArray V
  v : NDArray V
  m : NDArray V

def zeros (z : V) (s : List Nat) : NDArray V := ⟨s, fun _ => z⟩

/-- The hyper parameters used by `apply_param_gradient` (`_AdafactorHyperParams`), lines 162-182; `mulByScale` is `multiply_by_parameter_scale[path]`. -/
structure HP (V : Type) where
  learningRate : Option V
  beta1 : Option V
  decayRate : V
  stepOffset : Int
  mulByScale : Bool
  maxScale : Option V
  clip : Option V
  weightDecay : Option V
  wdExponent : Option V
  eps1 : V
  eps2 : V
  skipNan : Bool

/-- `Adafactor.init_param_state`, lines 419-449; `momentum` is `beta1 is not None`. -/
def initParam (O : Ops V) (D : Def) (momentum : Bool) (path : List Char) (shape : List Nat) : Except Err (PState V) :=
  match dimsFor D path shape with
  | .error e => .error e
  | .ok (_, d) =>
    let one := zeros O.zero [1]
    let m := if momentum then zeros O.zero shape else one
    match d with
    | .dims d1 d0 => .ok ⟨zeros O.zero (del d0 shape), zeros O.zero (del d1 shape), one, m⟩
    | _ => .ok ⟨one, one, zeros O.zero shape, m⟩

/-- The effective weight decay, lines 476-479 (`or` and `if` treat zero as false). -/
def effDecay (O : Ops V) (H : HP V) (lr : V) : Option V :=
  match H.wdExponent with
  | none => H.weightDecay
  | some e =>
    if O.isZero e then H.weightDecay
    else
      let w := match H.weightDecay with
        | none => O.one
        | some w => if O.isZero w then O.one else w
      some (O.mul w (O.pow lr e))

/-- `update_scale`, lines 497-511; a scalar is an array of rank 0. -/
def updateScale (O : Ops V) (H : HP V) (lr : V) (avg : List Nat) (param : NDArray V) : NDArray V :=
  if H.mulByScale then
    let s := un O.sqrt (meanKeep O.mean avg (un (fun x => O.mul x x) param))
    let s := un (fun x => O.max x H.eps2) s
    let s := match H.maxScale with
      | none => s
      | some c => un (fun x => O.min x c) s
    un (fun x => O.mul lr x) s
  else ⟨[], fun _ => lr⟩

/-- The accumulators and the scaled gradient of the factored branch, lines 516-541. -/
def factoredUpdate (O : Ops V) (decay : V) (d1 d0 : List Nat) (st : PState V) (grad gradSqr : NDArray V) :
    Except Err (NDArray V × NDArray V × NDArray V) :=
  let mix := O.sub O.one decay
  match bin O.add (un (O.mul decay) st.vRow) (un (O.mul mix) (meanAxes O.mean d0 gradSqr)) with
  | .error e => .error e
  | .ok newRow =>
    match bin O.add (un (O.mul decay) st.vCol) (un (O.mul mix) (meanAxes O.mean d1 gradSqr)) with
    | .error e => .error e
    | .ok newCol =>
      let reduced := d1.map fun d => d - (d0.filter fun e => e < d).length
      let rowMean := meanKeep O.mean reduced newRow
      match bin O.div newRow rowMean with
      | .error e => .error e
      | .ok q =>
        let rowFactor := un O.rsqrt q
        let colFactor := un O.rsqrt newCol
        match bin O.mul grad (expand d0 rowFactor) with
        | .error e => .error e
        | .ok y1 =>
          match bin O.mul y1 (expand d1 colFactor) with
          | .error e => .error e
          | .ok y => .ok (newRow, newCol, y)

/-- The unfactored branch, lines 542-545. -/
def plainUpdate (O : Ops V) (decay : V) (st : PState V) (grad gradSqr : NDArray V) : Except Err (NDArray V × NDArray V) :=
  let mix := O.sub O.one decay
  match bin O.add (un (O.mul decay) st.v) (un (O.mul mix) gradSqr) with
  | .error e => .error e
  | .ok newV =>
    match bin O.mul grad (un O.rsqrt newV) with
    | .error e => .error e
    | .ok y => .ok (newV, y)

/-- Update clipping, lines 547-553. -/
def clipUpdate (O : Ops V) (clip : Option V) (avg : List Nat) (y : NDArray V) : Except Err (NDArray V) :=
  match clip with
  | none => .ok y
  | some c =>
    bin O.div y (un (fun x => O.max O.one (O.div x c)) (un O.sqrt (meanKeep O.mean avg (un (fun x => O.mul x x) y))))

/-- Momentum, weight decay and subtraction, lines 555-564: the new parameter and the new `m`. -/
def finish (O : Ops V) (H : HP V) (wd : Option V) (param scale y : NDArray V) (st : PState V) :
    Except Err (NDArray V × NDArray V) :=
  match bin O.mul scale y with
  | .error e => .error e
  | .ok sub0 =>
    match (match H.beta1 with
      | none => .ok (sub0, zeros O.zero [1])
      | some b =>
        match bin O.add (un (O.mul b) st.m) (un (O.mul (O.sub O.one b)) sub0) with
        | .error e => .error e
        | .ok m => .ok (m, un O.castM m) : Except Err (NDArray V × NDArray V)) with
    | .error e => .error e
    | .ok (sub, m) =>
      let p := match wd with
        | none => param
        | some w => un (O.mul (O.sub O.one w)) param
      match bin O.sub p sub with
      | .error e => .error e
      | .ok np => .ok (np, m)

/-- The NaN guard and the final cast, lines 566-578. -/
def guard (O : Ops V) (skip : Bool) (param : NDArray V) (st : PState V) (np : NDArray V) (up : PState V) :
    Except Err (NDArray V × PState V) :=
  if skip then
    match whereNan O.isnan st.vRow up.vRow, whereNan O.isnan st.vCol up.vCol, whereNan O.isnan st.v up.v,
      whereNan O.isnan st.m up.m, whereNan O.isnan param np with
    | .ok a, .ok b, .ok c, .ok d, .ok p => .ok (un O.castP p, ⟨a, b, c, d⟩)
    | _, _, _, _, _ => .error .broadcast
  else .ok (un O.castP np, up)

/-- `Adafactor.apply_param_gradient`, lines 464-578. -/
def applyParam (O : Ops V) (D : Def) (H : HP V) (step : Int) (path : List Char) (param : NDArray V) (st : PState V)
    (grad0 : NDArray V) : Except Err (NDArray V × PState V) :=
  match H.learningRate with
  | none => .error .noRate
  | some lr =>
    let wd := effDecay O H lr
    match dimsFor D path param.shape with
    | .error e => .error e
    | .ok (avg, d) =>
      let grad := un O.castG grad0
      let decay := O.decayPow (step - H.stepOffset) H.decayRate
      let scale := updateScale O H lr avg param
      let gradSqr := un (fun g => O.add (O.mul g g) H.eps1) grad
      let one := zeros O.zero [1]
      match (match d with
        | .dims d1 d0 =>
          match factoredUpdate O decay d1 d0 st grad gradSqr with
          | .error e => .error e
          | .ok (r, c, y) => .ok (⟨r, c, one, one⟩, y)
        | _ =>
          match plainUpdate O decay st grad gradSqr with
          | .error e => .error e
          | .ok (v, y) => .ok (⟨one, one, v, one⟩, y) : Except Err (PState V × NDArray V)) with
      | .error e => .error e
      | .ok (up, y) =>
        match clipUpdate O H.clip avg y with
        | .error e => .error e
        | .ok y =>
          match finish O H wd param scale y st with
          | .error e => .error e
          | .ok (np, m) => guard O H.skipNan param st np ⟨up.vRow, up.vCol, up.v, m⟩

/-- Successive updates of one parameter, `apply_gradient` lines 580-627: the step counter grows by one each time; hyper parameters
and gradients are those passed at each step. -/
def run (O : Ops V) (D : Def) (path : List Char) : Int → List (HP V × NDArray V) → NDArray V × PState V →
    Except Err (NDArray V × PState V)
  | _, [], x => .ok x
  | step, (H, g) :: rest, (p, st) =>
    match applyParam O D H step path p st g with
    | .error e => .error e
    | .ok x => run O D path (step + 1) rest x

/-- `apply_rules` inside `set_param_axes`, lines 642-655, after the lookup of the axis names. -/
def applyRules (axisRules : List FactorDim) : Except Err (List FactorDim) :=
  if axisRules.contains .row && axisRules.contains .column && axisRules.contains .none then .error .incomplete
  else if !axisRules.contains .row || !axisRules.contains .column then
    .ok (axisRules.map fun x => if x = .row ∨ x = .column then .none else x)
  else .ok axisRules

end Verif.Adafactor
