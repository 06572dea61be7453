import Verif.Model.Adafactor
/-
What one Adafactor update computes, element by element, without arrays, axes or broadcasting.
-/
namespace Verif.Adafactor.Spec
open Verif.ND

variable {V : Type}

/-- The indices of a parameter of shape `s` that differ from `i` at most in the dimensions `dims`. -/
def slice (s dims i : List Nat) : List (List Nat) :=
  (box s).filter fun i' => (List.range s.length).all fun k => dims.contains k || i'.getD k 0 == i.getD k 0

/-- Root mean square of a function over a slice. -/
def rms (O : Ops V) (s dims : List Nat) (f : List Nat → V) (i : List Nat) : V :=
  O.sqrt (O.mean ((slice s dims i).map fun i' => O.mul (f i') (f i')))

/-- The squared gradient plus epsilon. -/
def sqr (O : Ops V) (H : HP V) (grad : List Nat → V) (i : List Nat) : V :=
  O.add (O.mul (O.castG (grad i)) (O.castG (grad i))) H.eps1

/-- Moving average. -/
def ema (O : Ops V) (decay old new : V) : V := O.add (O.mul decay old) (O.mul (O.sub O.one decay) new)

/-- The row accumulator seen from parameter index `i`: the squared gradients averaged over the column dimensions. -/
def rowEst (O : Ops V) (H : HP V) (decay : V) (s d0 : List Nat) (vRow grad : List Nat → V) (i : List Nat) : V :=
  ema O decay (vRow (del d0 i)) (O.mean ((slice s d0 i).map (sqr O H grad)))

/-- The gradient divided by the root of the factored second moment: row accumulator over its mean along the row dimensions,
times column accumulator. -/
def yFactored (O : Ops V) (H : HP V) (decay : V) (s d1 d0 : List Nat) (vRow vCol grad : List Nat → V) (i : List Nat) : V :=
  O.mul (O.mul (O.castG (grad i))
    (O.rsqrt (O.div (rowEst O H decay s d0 vRow grad i) (O.mean ((slice s d1 i).map (rowEst O H decay s d0 vRow grad))))))
    (O.rsqrt (rowEst O H decay s d1 vCol grad i))

/-- The gradient divided by the root of the unfactored second moment. -/
def yPlain (O : Ops V) (H : HP V) (decay : V) (v grad : List Nat → V) (i : List Nat) : V :=
  O.mul (O.castG (grad i)) (O.rsqrt (ema O decay (v i) (sqr O H grad i)))

/-- Update clipping. -/
def clipped (O : Ops V) (clip : Option V) (s avg : List Nat) (y : List Nat → V) (i : List Nat) : V :=
  match clip with
  | none => y i
  | some c => O.div (y i) (O.max O.one (O.div (rms O s avg y i) c))

/-- The step size. -/
def stepSize (O : Ops V) (H : HP V) (lr : V) (s avg : List Nat) (param : List Nat → V) (i : List Nat) : V :=
  if H.mulByScale then
    O.mul lr (match H.maxScale with
      | none => O.max (rms O s avg param i) H.eps2
      | some c => O.min (O.max (rms O s avg param i) H.eps2) c)
  else lr

/-- What is subtracted from the parameter. -/
def subtrahend (O : Ops V) (H : HP V) (lr : V) (s avg : List Nat) (param m y : List Nat → V) (i : List Nat) : V :=
  let u := O.mul (stepSize O H lr s avg param i) (clipped O H.clip s avg y i)
  match H.beta1 with
  | none => u
  | some b => O.add (O.mul b (m i)) (O.mul (O.sub O.one b) u)

/-- The new parameter before the NaN guard. -/
def newParam (O : Ops V) (H : HP V) (lr : V) (s avg : List Nat) (param m y : List Nat → V) (i : List Nat) : V :=
  O.sub (match effDecay O H lr with
    | none => param i
    | some w => O.mul (O.sub O.one w) (param i)) (subtrahend O H lr s avg param m y i)

/-- The NaN guard. -/
def keep (O : Ops V) (H : HP V) (old new : V) : V := if H.skipNan && O.isnan new then old else new

/-- The four accumulators have the shapes they are created with: `init` is what `init_param_state` returned. -/
def ShapesOf (st init : PState V) : Prop :=
  st.vRow.shape = init.vRow.shape ∧ st.vCol.shape = init.vCol.shape ∧ st.v.shape = init.v.shape ∧ st.m.shape = init.m.shape

/-- Two index vectors agree in the given dimensions. -/
def SameAt (dims i j : List Nat) : Prop := ∀ k ∈ dims, i.getD k 0 = j.getD k 0

/-- Two parameters with their accumulators hold the same values in the slice of `i0`'s batch coordinates, for a parameter with
factorization rule `r`. -/
def Agree (r : List FactorDim) (i0 : List Nat) (momentum : Bool) (a b : NDArray V × PState V) : Prop :=
  ∀ i, InBox a.1.shape i → SameAt (positions r .batch) i i0 →
    a.1.get i = b.1.get i ∧ (momentum = true → a.2.m.get i = b.2.m.get i) ∧
    (FactorDim.row ∉ r ∧ FactorDim.column ∉ r → a.2.v.get i = b.2.v.get i) ∧
    (¬ (FactorDim.row ∉ r ∧ FactorDim.column ∉ r) →
      a.2.vRow.get (del (positions r .column) i) = b.2.vRow.get (del (positions r .column) i) ∧
      a.2.vCol.get (del (positions r .row) i) = b.2.vCol.get (del (positions r .row) i))

/-- No element of the array is NaN. -/
def NanFree (O : Ops V) (a : NDArray V) : Prop := ∀ i, InBox a.shape i → O.isnan (a.get i) = false

/-- No element of a parameter or its accumulators is NaN. -/
def AllNanFree (O : Ops V) (x : NDArray V × PState V) : Prop :=
  NanFree O x.1 ∧ NanFree O x.2.vRow ∧ NanFree O x.2.vCol ∧ NanFree O x.2.v ∧ NanFree O x.2.m

end Verif.Adafactor.Spec
