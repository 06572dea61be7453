import Verif.Model.PackedMetrics
import Verif.Props.PackedLoss
import Verif.Props.BaseMetrics
/- Vocabulary for C120: what the summary of a period should say about the examples trained or evaluated on. -/
namespace Verif.PackedMetrics.Spec
open Verif.PackedLoss Verif.PackedLoss.Spec Verif.Transformer Verif.Metrics.Spec

/-- The target is one the loss is computed on. -/
def Counts (weighted : Bool) (x : Example) (i : Nat) : Prop := weighted = true → x.weights.getD i 0 ≠ 0

open Classical in
/-- The number of targets of an example the loss is computed on. -/
noncomputable def counted (weighted : Bool) (x : Example) : ℕ := (List.range x.targets.length).countP fun i => decide (Counts weighted x i)

open Classical in
/-- The number of these that have the largest of the example's logits `Y`. -/
noncomputable def right {V : Nat} (weighted : Bool) (x : Example) (Y : Nat → Vec V) : ℕ :=
  (List.range x.targets.length).countP fun i =>
    decide (Counts weighted x i ∧ BaseMetrics.Spec.Predicts (List.ofFn (Y i)) (x.targets.getD i 0))

/-- All examples of a period, given the groups of examples of each of its pieces. -/
def all (t : MTree (List (List Example))) : List Example := t.leaves.flatMap List.flatten

/-- The number of rows of the packed batches of a period. -/
def rows (t : MTree (List (List Example))) : ℕ := (t.leaves.map List.length).sum

/-- The metrics that say something about the examples, not about how they are laid out. -/
def contentKeys : List (List Char) :=
  ["accuracy".toList, "loss".toList, "loss_per_nonpadding_target_token".toList, "z_loss".toList, "cross_ent_loss".toList]

/-- The metrics of all pieces of a period can be computed, and `v` is what the summary of the period then reports under `key`. -/
def Summary {β : Type} (args : β → Option (BaseMetrics.Args ℝ)) (devices : Nat) (t : MTree β) (duration : ℝ) (steps : Nat) (key : List Char) (v : ℝ) : Prop :=
  ∃ A : β → BaseMetrics.Args ℝ, (∀ b ∈ t.leaves, args b = some (A b)) ∧
    BaseMetrics.Spec.Reports (fun b => BaseMetrics.baseMetrics devices (A b)) t duration steps key v

end Verif.PackedMetrics.Spec
