import Verif.Spec.MultiOpt
import Verif.Model.MultiRun
namespace Verif.MultiRun.Spec
open Verif.StateDict Verif.MultiOpt Verif.MultiOpt.Spec Verif.OptaxState.Spec

variable {P S H : Type}

/-- Training with one optimizer alone, each step with its hyper parameters and the gradients. -/
def alone (o : Sub P S H) : List (H × Dict P) → St P S → St P S
  | [], s => s
  | (hp, g) :: rest, s => alone o rest (o.apply hp s.1 s.2 g)

/-- The same leaves at the same paths (the order of the entries of a dict does not count). -/
def SameTree {β : Type} (d e : Dict β) : Prop := ∀ p, arrayAt d p = arrayAt e p

/-- What an optimizer does depends on the leaves of its arguments only, and it counts its steps. -/
structure Regular (o : Sub P S H) : Prop where
  init : ∀ ps ps', ProperDict ps → ProperDict ps' → SameTree ps ps' → SameTree (o.init ps).2 (o.init ps').2
  apply : ∀ hp ps ps' n ss ss' gs gs', ProperDict ps → ProperDict ps' → SameTree ps ps' → SameTree ss ss' → SameTree gs gs' →
    SameTree (o.apply hp ps (n, ss) gs).1 (o.apply hp ps' (n, ss') gs').1 ∧
      SameTree (o.apply hp ps (n, ss) gs).2.2 (o.apply hp ps' (n, ss') gs').2.2
  step : ∀ hp ps st gs, (o.apply hp ps st gs).2.1 = st.1 + 1

/-- The hyper parameters and gradients of the `i`-th optimizer among those of all. -/
def Share (i : Nat) (o : Sub P S H) (L : List (List H × Dict P)) (M : List (H × Dict P)) : Prop :=
  List.Forall₂ (fun x y => x.1[i]? = some y.1 ∧ Part o y.2 x.2) L M

/-- The steps of one parameter, each with the hyper parameters and its gradient, from step `n` on. -/
def leafRun (l : Leafwise P S H) (p : List Key) : Nat → List (H × Option P) → P × S → P × S
  | _, [], x => x
  | n, (hp, g) :: rest, x => leafRun l p (n + 1) rest (l.step hp n p x.1 (some x.2) g)

end Verif.MultiRun.Spec
