import Verif.Model.Metrics
/- What the aggregate of a number of partial metrics should be. -/
namespace Verif.Metrics.Spec
open Verif.Metrics

variable {K : Type}

inductive Kind | sum | avgStep | timeRate | stepsPerTime | average
deriving DecidableEq, Repr

/-- A metric of the given kind, as it leaves the model: no duration yet. -/
def IsKind : Kind → Metric K → Prop
  | .sum, .sum _ => True
  | .avgStep, .avgStep _ _ => True
  | .timeRate, .timeRate _ none => True
  | .stepsPerTime, .stepsPerTime _ none => True
  | .average, .average _ _ => True
  | _, _ => False

/-- The accumulated number of a metric. -/
def amount [Zero K] : Metric K → K
  | .sum t => t
  | .avgStep t _ => t
  | .timeRate n _ => n
  | .average t _ => t
  | _ => 0

/-- The weight of a clu Average. -/
def weight [Zero K] : Metric K → K
  | .average _ c => c
  | _ => 0

def steps : Metric K → Nat
  | .avgStep _ s => s
  | .stepsPerTime s _ => s
  | _ => 0

/-- The reported number for partial metrics `l` collected over `numSteps` steps and `duration` seconds. -/
def reported [Field K] (k : Kind) (duration : K) (numSteps : Nat) (l : List (Metric K)) : K :=
  match k with
  | .sum => (l.map amount).sum
  | .avgStep => (l.map amount).sum / numSteps
  | .timeRate => (l.map amount).sum / duration
  | .stepsPerTime => numSteps / duration
  | .average => (l.map amount).sum / (l.map weight).sum

/-- A way of combining pieces: any order, any grouping. -/
inductive MTree (α : Type) where
  | leaf (a : α)
  | node (l r : MTree α)
deriving Repr

def MTree.leaves {α : Type} : MTree α → List α
  | .leaf a => [a]
  | .node l r => l.leaves ++ r.leaves

/-- Combine with a merge function that may fail. -/
def MTree.eval {α ε : Type} (f : α → α → Except ε α) : MTree α → Except ε α
  | .leaf a => .ok a
  | .node l r => do f (← l.eval f) (← r.eval f)

def MTree.map {α β : Type} (f : α → β) : MTree α → MTree β
  | .leaf a => .leaf (f a)
  | .node l r => .node (l.map f) (r.map f)

/-- The pieces reported under one key: all of one of the kinds above, or all LastValue. -/
def Uniform (l : List (Metric K)) : Prop := (∃ k, ∀ m ∈ l, IsKind k m) ∨ (∀ m ∈ l, ∃ v, m = .last v)

end Verif.Metrics.Spec
