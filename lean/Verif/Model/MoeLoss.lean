import Verif.Model.BaseMetrics
/-
The loss and metrics of mixture-of-experts models: `/repo/t5x/contrib/moe/models.py` lines 40-46 and 257-425 (`_moe_loss_fn`,
`_extract_diversity_metrics`, `_expert_losses`, `_expert_metrics`).

The weighted cross entropy and its z-loss (C13) are given.  A value sown by a layer is the list of its entries; the arrays of one metric have the same
shape (broadcasting between layers is not modelled).
-/
namespace Verif.MoeLoss
open Verif Verif.Metrics Verif.BaseMetrics

variable {K : Type} [Field K] [LinearOrder K]

inductive Err where
  | missing  -- ValueError: 'Unable to find expert metric'
deriving DecidableEq, Repr

/-- `MOE_METRICS`, lines 40-46. -/
def moeMetrics : List Str :=
  ["auxiliary_loss".toList, "router_z_loss".toList, "fraction_tokens_left_behind".toList, "expert_usage".toList, "router_confidence".toList]

/-- The flattened state: the path of every sown value. -/
abbrev State (K : Type) := List (List Str × List K)

/-- The loop of lines 334-340: sum and count of the values whose path ends in the metric. -/
def sumValues (metric : Str) : State K → Option (List K) → Nat → Option (List K) × Nat
  | [], s, c => (s, c)
  | (path, v) :: rest, s, c =>
    if path.getLast? = some metric then
      sumValues metric rest (some (s.elim (v.map (0 + ·)) fun s => List.zipWith (· + ·) s v)) (c + 1)
    else sumValues metric rest s c

/-- One iteration of the loop over the metrics, lines 333-348. -/
def average (state : State K) (metric : Str) : Except Err (List K) :=
  match sumValues metric state none 0 with
  | (some s, c) => if c = 0 then .error .missing else .ok (s.map (· / (c : K)))
  | (none, _) => .error .missing

/-- `_extract_diversity_metrics`. -/
def extract (state : State K) : List Str → Except Err (List (Str × List K))
  | [] => .ok []
  | m :: ms =>
    match average state m with
    | .error e => .error e
    | .ok v =>
      match extract state ms with
      | .error e => .error e
      | .ok r => .ok ((m, v) :: r)

/-- `x.mean()`. -/
def mean (v : List K) : K := v.sum / (v.length : Nat)

/-- `diversity_metrics[m].mean()`; all metrics have been extracted. -/
def meanOf (d : List (Str × List K)) (m : Str) : K := mean ((PyDict.get d m).getD [])

/-- `_expert_losses`, lines 352-377. -/
def expertLosses (d : List (Str × List K)) (auxFactor zFactor : K) : K × K :=
  (auxFactor * meanOf d "auxiliary_loss".toList, zFactor * meanOf d "router_z_loss".toList)

/-- `_expert_metrics`, lines 380-425. -/
def expertMetrics (d : List (Str × List K)) (totalLoss z aux routerZ : K) (numTokens : Nat) : Dict K :=
  let crossEnt := totalLoss - z - aux - routerZ
  [("experts/auxiliary_loss".toList, avgStepFrom [aux]),
   ("experts/router_z_loss".toList, avgStepFrom [routerZ]),
   ("experts/fraction_tokens_left_behind".toList, avgStepFrom [meanOf d "fraction_tokens_left_behind".toList]),
   ("experts/expert_usage".toList, avgStepFrom [meanOf d "expert_usage".toList]),
   ("experts/router_confidence".toList, avgStepFrom [meanOf d "router_confidence".toList]),
   ("cross_ent_loss".toList, .avgStep crossEnt 1),
   ("cross_ent_loss_per_all_target_tokens".toList, .average crossEnt (numTokens : Nat))]

/-- What a call of `_moe_loss_fn` gets: the batch, with the weighted cross entropy (including z-loss) as `base.loss`, its z-loss and the state. -/
structure Args (K : Type) where
  base : BaseMetrics.Args K
  z : K
  state : State K

/-- `_moe_loss_fn`, lines 257-313. -/
def moeLoss (devices : Nat) (auxFactor zFactor : K) (a : Args K) : Except Err (K × Dict K) :=
  match extract a.state moeMetrics with
  | .error e => .error e
  | .ok d =>
    let (aux, routerZ) := expertLosses d auxFactor zFactor
    let totalLoss := a.base.loss + (aux + routerZ)
    let metrics := baseMetrics devices { a.base with loss := totalLoss, zLoss := some a.z, segments := none }
    .ok (totalLoss, PyDict.update metrics (expertMetrics d totalLoss a.z aux routerZ (size a.base.targets)))

end Verif.MoeLoss
