import Verif.Model.MultiOpt
import Verif.Spec.OptaxState
namespace Verif.MultiOpt.Spec
open Verif.StateDict Verif.OptaxState.Spec

variable {P S H : Type}

/-- The traversal of this optimizer selects the parameter at this path. -/
def Owns (o : Sub P S H) (p : List Key) : Prop := o.focus ('/' :: join p) = true

/-- `s` is the part of `d` that the optimizer selects. -/
def Part {β : Type} (o : Sub P S H) (s d : Dict β) : Prop :=
  ProperDict s ∧ (∀ p, Owns o p → arrayAt s p = arrayAt d p) ∧ ∀ p, ¬ Owns o p → arrayAt s p = none

/-- Two trees have leaves at the same paths. -/
def SamePaths {β γ : Type} (d : Dict β) (e : Dict γ) : Prop := ∀ p, (arrayAt d p).isSome = (arrayAt e p).isSome

/-- A sub-optimizer returns trees with leaves where the parameters have theirs. -/
structure Lawful (o : Sub P S H) : Prop where
  init : ∀ ps, ProperDict ps → ProperDict (o.init ps).2 ∧ SamePaths (o.init ps).2 ps
  apply : ∀ hp ps st gs, ProperDict ps →
    (ProperDict (o.apply hp ps st gs).1 ∧ SamePaths (o.apply hp ps st gs).1 ps) ∧
      (ProperDict (o.apply hp ps st gs).2.2 ∧ SamePaths (o.apply hp ps st gs).2.2 ps)

/-- No parameter is selected twice. -/
def Disjoint (os : List (Sub P S H)) (params : Dict P) : Prop :=
  ∀ p, arrayAt params p ≠ none → ∀ (i j : Nat) (oi oj : Sub P S H), os[i]? = some oi → os[j]? = some oj → Owns oi p → Owns oj p → i = j

/-- The parameter belongs to no optimizer. -/
def Unowned (os : List (Sub P S H)) (p : List Key) : Prop := ∀ o ∈ os, ¬ Owns o p

end Verif.MultiOpt.Spec
