import Verif.Model.MoeTrain
import Verif.Spec.Train
/- Vocabulary for C119. -/
namespace Verif.MoeTrain.Spec
open Verif.NamedTree Verif.NamedTree.Spec

/-- A run of several steps. -/
def run {S B M E : Type} (step : S → B → Except E (S × M)) : S → List B → Except E (S × List M)
  | s, [] => .ok (s, [])
  | s, b :: bs =>
    match step s b with
    | .error e => .error e
    | .ok (s', m) =>
      match run step s' bs with
      | .error e => .error e
      | .ok (s'', ms) => .ok (s'', m :: ms)

/-- The leaves of the tree are numbered in the order of jax. -/
structure Numbered {N : Nat} (I : PTree (Fin N)) : Prop where
  good : Good I
  leaves : flatten I = List.finRange N

/-- `g'` is `g` with those leaves multiplied by `k` whose path matches. -/
def Scaled {A : Type} [AddCommMonoid A] {N : Nat} (I : PTree (Fin N)) (m : Key → Bool) (k : Nat) (g g' : Fin N → A) : Prop :=
  ∀ path i, look I path = some (.leaf i) → g' i = if m (name path) then k • g i else g i

end Verif.MoeTrain.Spec
