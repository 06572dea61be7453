import Verif.Spec.Adafactor
/-
A parameter that holds the parameters of several layers, stacked along one dimension (scanned layers).
-/
namespace Verif.AdafactorStack.Spec
open Verif.ND Verif.Adafactor

/-- Insert an element at a position. -/
def ins {α : Type} : Nat → α → List α → List α
  | 0, k, l => k :: l
  | ax + 1, k, x :: l => x :: ins ax k l
  | _ + 1, k, [] => [k]

variable {V : Type}

/-- Layer `k` of an array of layers stacked along the dimension `ax`. -/
def layer (ax k : Nat) (a : NDArray V) : NDArray V := ⟨a.shape.eraseIdx ax, fun i => a.get (ins ax k i)⟩

/-- The second moments kept for a parameter, seen from its index `i`: the accumulator itself, or the two accumulators averaged over the column and
over the row dimensions. -/
def moments (d : Dims) (st : PState V) (i : List Nat) : List V :=
  match d with
  | .dims d1 d0 => [st.vRow.get (del d0 i), st.vCol.get (del d1 i)]
  | _ => [st.v.get i]

/-- `y`, a parameter of shape `s` with its state, is layer `k` of `x`.  `d` and `d'` are their factored dimensions. -/
def IsLayer (ax k : Nat) (s : List Nat) (momentum : Bool) (d d' : Dims) (y x : NDArray V × PState V) : Prop :=
  ∀ i, InBox s i → y.1.get i = x.1.get (ins ax k i) ∧ moments d y.2 i = moments d' x.2 (ins ax k i) ∧
    (momentum = true → y.2.m.get i = x.2.m.get (ins ax k i))

end Verif.AdafactorStack.Spec
