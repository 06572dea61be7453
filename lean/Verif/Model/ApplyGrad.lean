import Mathlib.Analysis.SpecialFunctions.Sqrt
import Verif.Model.Adafactor
import Verif.Model.MultiOpt
/-
`Adafactor.init_state` and `Adafactor.apply_gradient` on whole parameter trees: `/repo/t5x/adafactor.py`, lines 450-462 and
580-627.  Trees are nested dicts; the update of one parameter (`apply_param_gradient`, modelled in `Verif.Model.Adafactor`) is a
parameter.  Gradients are real arrays (no rounding, no NaN; `1.0 / 0.0` is infinity).
-/
namespace Verif.ApplyGrad
open Verif Verif.StateDict Verif.MultiOpt Verif.ND

inductive Err (E : Type) where
  | keyError     -- a state or gradient is missing for a parameter
  | bad          -- an error of `unflatten_dict`
  | param (e : E)  -- raised by the update of one parameter
deriving DecidableEq

/-- `utils.flatten_dict_string_keys`, `/repo/t5x/utils.py` lines 2196-2198. -/
def flatS {β : Type} (d : Dict β) : List (Key × β) := (items d).map fun e => (join e.1, e.2)

/-- `[d[k] for k in paths]`, lines 599 and 601. -/
def lookupAll {β : Type} (d : List (Key × β)) : List Key → Option (List β)
  | [] => some []
  | k :: ks =>
    match PyDict.get d k, lookupAll d ks with
    | some v, some vs => some (v :: vs)
    | _, _ => none

/-- `jnp.sum(jnp.square(g))`. -/
def sumSq (g : NDArray ℝ) : ℝ := ((Adafactor.box g.shape).map fun i => g.get i * g.get i).sum

/-- `global_norm`, lines 606-607. -/
noncomputable def globalNorm (gs : List (NDArray ℝ)) : ℝ := √ (gs.map sumSq).sum

open Classical in
/-- `scale`, lines 608-610; `1.0 / global_norm` is infinite for norm zero. -/
noncomputable def scaleOf (thr norm : ℝ) : ℝ := thr * (if norm = 0 then 1 / thr else min (1 / thr) (1 / norm))

open Classical in
/-- Global norm clipping, lines 603-611; a threshold of `None` or `0.0` is falsy. -/
noncomputable def clip (thr : Option ℝ) (gs : List (NDArray ℝ)) : List (NDArray ℝ) :=
  match thr with
  | none => gs
  | some t => if t = 0 then gs else gs.map fun g => ⟨g.shape, fun i => g.get i * scaleOf t (globalNorm gs)⟩

variable {P S E : Type}

/-- The list comprehension of lines 613-618. -/
def updateAll (upd : Key → P → S → NDArray ℝ → Except E (P × S)) : List (Key × P) → List S → List (NDArray ℝ) → Except E (List (P × S))
  | (k, p) :: ps, s :: ss, g :: gs =>
    match upd k p s g with
    | .error e => .error e
    | .ok o =>
      match updateAll upd ps ss gs with
      | .error e => .error e
      | .ok os => .ok (o :: os)
  | _, _, _ => .ok []

/-- `_restore`, lines 90-95 (freezing is not modelled). -/
def restore {β : Type} (flat : List (Key × β)) : Option (Dict β) := unflat (flat.map fun e => (split e.1, e.2))

/-- `Adafactor.apply_gradient`, lines 580-627. -/
noncomputable def applyGradient (upd : Nat → Key → P → S → NDArray ℝ → Except E (P × S)) (thr : Option ℝ) (params : Dict P)
    (state : Nat × Dict S) (grads : Dict (NDArray ℝ)) : Except (Err E) (Dict P × (Nat × Dict S)) :=
  let ps := flatS params
  let keys := PyDict.keys ps
  match lookupAll (flatS state.2) keys, lookupAll (flatS grads) keys with
  | some ss, some gs =>
    match updateAll (upd state.1) ps ss (clip thr gs) with
    | .error e => .error (.param e)
    | .ok out =>
      match restore (List.zip keys (out.map Prod.fst)), restore (List.zip keys (out.map Prod.snd)) with
      | some np, some ns => .ok (np, (state.1 + 1, ns))
      | _, _ => .error .bad
  | _, _ => .error .keyError

/-- `Adafactor.init_state`, lines 450-462: the list comprehension of `init_param_state`. -/
def initAll (init : Key → P → Except E S) : List (Key × P) → Except E (List S)
  | [] => .ok []
  | (k, p) :: ps =>
    match init k p with
    | .error e => .error e
    | .ok s =>
      match initAll init ps with
      | .error e => .error e
      | .ok ss => .ok (s :: ss)

/-- `Adafactor.init_state`, lines 450-462. -/
def initState (init : Key → P → Except E S) (params : Dict P) : Except (Err E) (Nat × Dict S) :=
  let ps := flatS params
  match initAll init ps with
  | .error e => .error (.param e)
  | .ok ss =>
    match restore (List.zip (PyDict.keys ps) ss) with
    | some ns => .ok (0, ns)
    | none => .error .bad

end Verif.ApplyGrad
