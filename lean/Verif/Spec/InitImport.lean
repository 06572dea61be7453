import Verif.Spec.InitT5
import Verif.Model.AdafactorAxes
/-
The train state of a T5 network with Adafactor, and the variables of the Mesh TensorFlow checkpoint of the same network.
-/
namespace Verif.InitT5.Spec
open Verif.Importer.Spec

/-- The arrays of the optimizer state of one parameter. -/
inductive Moment where
  | m | v | vRow | vCol
deriving DecidableEq

def Moment.name : Moment → Name
  | .m => "m".toList
  | .v => "v".toList
  | .vRow => "v_row".toList
  | .vCol => "v_col".toList

/-- Is the second moment of a parameter of this shape factored? -/
def Factored (minDim : Nat) (shape : List Nat) : Prop := ∃ a b, shape = [a, b] ∧ minDim ≤ a ∧ minDim ≤ b

/-- The shapes of the state of a parameter: a moment that is not used is an array with one element. -/
structure MomentShapes (minDim : Nat) (momentum : Bool) (shape : List Nat) (s : Moment → List Nat) : Prop where
  first : s .m = if momentum then shape else [1]
  factored : ∀ a b, shape = [a, b] → minDim ≤ a → minDim ≤ b → s .v = [1] ∧ s .vRow = [min a b] ∧ s .vCol = [max a b]
  plain : ¬ Factored minDim shape → s .v = shape ∧ s .vRow = [1] ∧ s .vCol = [1]

/-- The flat state dict of a train state with these parameters: the step (a scalar), the parameters, and the state of each parameter. -/
structure IsState (vars : List Var) (moments : Var → Moment → List Nat) (d : List (List Name × List Nat)) : Prop where
  keys : (d.map Prod.fst).Nodup
  mem : ∀ k s, (k, s) ∈ d ↔ (k = ["state".toList, "step".toList] ∧ s = []) ∨ (∃ v ∈ vars, k = "target".toList :: v.path ∧ s = v.shape) ∨
    ∃ v ∈ vars, ∃ o : Moment, k = "state".toList :: "param_states".toList :: (v.path ++ [o.name]) ∧ s = moments v o

/-- The tower of a checkpoint: a decoder-only model is called `transformer`. -/
def towerOf (lm enc : Bool) : Tower := if enc then .encoder else if lm then .transformer else .decoder

/-- The number of the sub-layer in which the T5 checkpoint keeps a normalisation or the MLP. -/
def normIndex (lm enc : Bool) : Norm → Nat
  | .preAttention => 0
  | .preSelf => 0
  | .preCross => 1
  | .preMlp => if enc || lm then 1 else 2

/-- The variable of the T5 checkpoint for a parameter (or a slot of it). -/
def tfVar (lm rms : Bool) (sl : Slot) : Param → Importer.Spec.Var
  | .shared => .shared sl
  | .emb e => .emb (towerOf lm e) sl
  | .rel e n => .rel (towerOf lm e) n sl
  | .attn e n k m => .attn (towerOf lm e) n (if k = .cross then 1 else 0) (k = .cross) m sl
  | .mlp e n out num => .mlp (towerOf lm e) n (normIndex lm e .preMlp) out num sl
  | .ln e n k => .ln (towerOf lm e) n (normIndex lm e k) rms sl
  | .finalLn e => .finalLn (towerOf lm e) rms sl
  | .logits => .logits lm sl

/-- A T5 checkpoint of the network: the step, and for every parameter its value with its second moment, whole or in two factors; the shapes are those
of the parameter and of the factored moments. -/
structure IsCkpt {V : Type} (cfg : Config) (lm rms : Bool) (Has : Param → Prop) (minDim : Nat) (shape : V → List Nat)
    (ckpt : List (Importer.Spec.Var × V)) : Prop where
  vars : (ckpt.map Prod.fst).Nodup
  mem : ∀ v, v ∈ ckpt.map Prod.fst ↔ v = .step ∨ ∃ sl p, v = tfVar lm rms sl p ∧ Has p ∧
    (sl = .param ∨ (sl = .v ∧ ¬ Factored minDim (shapeOf cfg p)) ∨ ((sl = .vRow ∨ sl = .vCol) ∧ Factored minDim (shapeOf cfg p)))
  param : ∀ p x, Has p → (tfVar lm rms .param p, x) ∈ ckpt → shape x = shapeOf cfg p
  v : ∀ p x, Has p → (tfVar lm rms .v p, x) ∈ ckpt → shape x = shapeOf cfg p
  vRow : ∀ p x a b, Has p → shapeOf cfg p = [a, b] → (tfVar lm rms .vRow p, x) ∈ ckpt → shape x = [min a b]
  vCol : ∀ p x a b, Has p → shapeOf cfg p = [a, b] → (tfVar lm rms .vCol p, x) ∈ ckpt → shape x = [max a b]

/-- The imported state dict `r`: exactly the entries of the state of the network, each once; the step, the parameters and the second moments have the
values of the checkpoint (the step converted by `conv`), and the first moments are the placeholder `ph`; nothing else comes up as a value. -/
structure Imported {V : Type} (lm rms : Bool) (Has : Param → Prop) (conv : V → V) (ph : V) (ckpt : List (Importer.Spec.Var × V))
    (state : List (List Name × List Nat)) (r : List (List Name × V)) : Prop where
  keys : (∀ k, k ∈ r.map Prod.fst ↔ k ∈ state.map Prod.fst) ∧ (r.map Prod.fst).Nodup
  step : ∀ x, (.step, x) ∈ ckpt → (["state".toList, "step".toList], conv x) ∈ r
  param : ∀ p x, Has p → (tfVar lm rms .param p, x) ∈ ckpt → ("target".toList :: pathOf p, x) ∈ r
  v : ∀ p x, Has p → (tfVar lm rms .v p, x) ∈ ckpt → ("state".toList :: "param_states".toList :: (pathOf p ++ ["v".toList]), x) ∈ r
  vRow : ∀ p x, Has p → (tfVar lm rms .vRow p, x) ∈ ckpt → ("state".toList :: "param_states".toList :: (pathOf p ++ ["v_row".toList]), x) ∈ r
  vCol : ∀ p x, Has p → (tfVar lm rms .vCol p, x) ∈ ckpt → ("state".toList :: "param_states".toList :: (pathOf p ++ ["v_col".toList]), x) ∈ r
  m : ∀ p, Has p → ("state".toList :: "param_states".toList :: (pathOf p ++ ["m".toList]), ph) ∈ r
  origin : ∀ k y, (k, y) ∈ r → (k = ["state".toList, "step".toList] ∧ ∃ x, (.step, x) ∈ ckpt ∧ y = conv x) ∨
    (k ≠ ["state".toList, "step".toList] ∧ ((∃ sl p, Has p ∧ (tfVar lm rms sl p, y) ∈ ckpt) ∨ (y = ph ∧ k.head? = some "state".toList)))

end Verif.InitT5.Spec
