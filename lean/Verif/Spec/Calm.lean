import Verif.Model.Calm
/-
Vocabulary for the early exit theorems (C65, C66): the layers run one after the other, and the exits.
-/
namespace Verif.Calm.Spec
variable {H C G : Type}

/-- The hidden state after the first `k` layers. -/
def hid (M : Net H C G) (h0 : H) (c : Nat → C) : Nat → H
  | 0 => h0
  | k + 1 => (M.layer k (hid M h0 c k) (c k)).1

/-- The new cache of layer `i`, if it is run after all the layers below. -/
def kv (M : Net H C G) (h0 : H) (c : Nat → C) (i : Nat) : C := (M.layer i (hid M h0 c i) (c i)).2

/-- The number of layers run at exit `k`. -/
def exitAt (cfg : Cfg) (L k : Nat) : Nat := min (cfg.firstExit + 1 + cfg.exitInterval * k) L

/-- The confidences at exit `k`. -/
def confAt (M : Net H C G) (cfg : Cfg) (h0 : H) (c : Nat → C) : Nat → List ℝ
  | 0 => M.conf none (hid M h0 c (exitAt cfg M.numLayers 0))
  | k + 1 => M.conf (some (hid M h0 c (exitAt cfg M.numLayers k))) (hid M h0 c (exitAt cfg M.numLayers (k + 1)))

/-- Exit `k` is taken if it is not before the minimal exit and every example is confident enough, or no layer is left. -/
def Stops (M : Net H C G) (cfg : Cfg) (h0 : H) (c : Nat → C) (k : Nat) : Prop :=
  cfg.minExit ≤ exitAt cfg M.numLayers k ∧
    ((∀ x ∈ confAt M cfg h0 c k, cfg.threshold ≤ x) ∨ exitAt cfg M.numLayers k = M.numLayers)

/-- Settings for which there is an exit: at least one layer is run first, exits are apart, the minimal exit exists. -/
structure Valid (M : Net H C G) (cfg : Cfg) : Prop where
  first : cfg.firstExit + 1 ≤ M.numLayers
  interval : 1 ≤ cfg.exitInterval
  min : cfg.minExit ≤ M.numLayers

end Verif.Calm.Spec
