import Verif.Model.BaseMetrics
import Verif.Spec.Metrics
import Verif.Props.LossWeights
/- What the reported metrics should be. -/
namespace Verif.BaseMetrics.Spec
open Verif Verif.Metrics Verif.Metrics.Spec Verif.BaseMetrics

variable {K : Type} [Field K] [LinearOrder K]

/-- The weight of every position: 1 without weights. -/
def weights (a : Args K) : List K := a.mask.elim (a.targets.flatten.map fun _ => 1) List.flatten

/-- Every position of a batch: its logits, its target, its weight. -/
def positions (a : Args K) : List (List K × ℤ × K) := a.logits.flatten.zip (a.targets.flatten.zip (weights a))

/-- The target is the class with the largest logit, the first of these if there are several. -/
def Predicts (v : List K) (t : ℤ) : Prop :=
  ∃ (i : Nat) (x : K), (i : ℤ) = t ∧ v[i]? = some x ∧ (∀ y ∈ v, y ≤ x) ∧ ∀ (j : Nat) (y : K), j < i → v[j]? = some y → y < x

open Classical in
/-- The number of right predictions at positions with weight. -/
noncomputable def correct (a : Args K) : K := ((positions a).countP fun p => decide (p.2.2 ≠ 0 ∧ Predicts p.1 p.2.1) : Nat)

/-- The number of positions with weight. -/
def unmasked (a : Args K) : K := ((weights a).countP fun w => decide (w ≠ 0) : Nat)

/-- The number of sequences and of target tokens. -/
def examples (a : Args K) : K := (a.targets.length : Nat)
def tokens (a : Args K) : K := ((a.targets.map List.length).sum : Nat)

/-- The features with segment ids (or tokens): those that are given and not empty. -/
def features (a : Args K) : List (Str × List (List ℤ)) :=
  ((a.segments.getD []).filterMap fun e => e.2.map fun rows => (e.1, rows)).filter fun e => decide (∃ r ∈ e.2, r ≠ [])

/-- The rows of one feature. -/
def feature (f : Str) (a : Args K) : List (List ℤ) := (PyDict.get (features a) f).getD []

/-- The number of entries of a feature, and of those that are not padding. -/
def entries (rows : List (List ℤ)) : K := ((rows.map List.length).sum : Nat)
def filled (rows : List (List ℤ)) : K := ((rows.map fun r => r.countP fun x => decide (x ≠ 0)).sum : Nat)

/-- The rows are rows of packed sequences, each followed by padding, and hold `n` sequences in all. -/
def Holds (rows : List (List ℤ)) (n : Nat) : Prop :=
  ∃ R : List (LossWeights.PackedRow ℚ), rows = R.map (fun r => LossWeights.Spec.rowIds r.seqs r.pad) ∧
    (∀ r ∈ R, LossWeights.Spec.rowIds r.seqs r.pad ≠ []) ∧
    (∀ r ∈ R, (∀ s ∈ r.seqs, s.weights ≠ [] ∧ s.id ≠ 0) ∧ (r.seqs.map (·.id)).Nodup) ∧ n = (R.flatMap (·.seqs)).length

/-- All rows have the same length. -/
def Rect {β : Type} (rows : List (List β)) : Prop := ∀ r ∈ rows, ∀ r' ∈ rows, r.length = r'.length

/-- Arguments of fitting shapes. -/
structure Good (a : Args K) : Prop where
  logits : a.logits.map List.length = a.targets.map List.length
  classes : ∀ r ∈ a.logits, ∀ v ∈ r, v ≠ []
  mask : ∀ m, a.mask = some m → m.map List.length = a.targets.map List.length
  rect : ∀ segs, a.segments = some segs → ∀ f rows, (f, some rows) ∈ segs → Rect rows
  names : (((a.segments.getD []).map Prod.fst)).Nodup
  reserved : "loss_weights".toList ∉ (a.segments.getD []).map Prod.fst ∧ "overall".toList ∉ (a.segments.getD []).map Prod.fst

/-- All pieces have the same features, and all or none have a z-loss. -/
def Alike (t : MTree (Args K)) : Prop :=
  ∀ a ∈ t.leaves, ∀ b ∈ t.leaves, a.zLoss.isSome = b.zLoss.isSome ∧ a.segments.isSome = b.segments.isSome ∧
    (features a).map Prod.fst = (features b).map Prod.fst

/-- The sum over all pieces. -/
def total {β : Type} (t : MTree β) (f : β → K) : K := (t.leaves.map f).sum

/-- Merging the pieces' metrics `f` succeeds, and `v` is what is then reported under `key`. -/
def Reports {β : Type} (f : β → Dict K) (t : MTree β) (duration : K) (numSteps : Nat) (key : Str) (v : K) : Prop :=
  ∃ r, (t.map f).eval mergeDict = .ok r ∧ PyDict.get (summarizeDict duration numSteps r) key = some (.ok v)

end Verif.BaseMetrics.Spec
