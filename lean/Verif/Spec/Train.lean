import Verif.Model.Train
import Verif.Spec.Metrics
/- What a training step and a training run should do. -/
namespace Verif.Train.Spec
open Verif.Train Verif.Metrics Verif.Metrics.Spec

variable {K P G O Mu R Row : Type}

/-- An example: one row of every feature. -/
abbrev Example (Row : Type) := List (List Char × Option Row)

/-- A batch of `B` examples: at least one feature, all with `B` rows. -/
def Rect (b : Batch Row) (B : Nat) : Prop := b ≠ [] ∧ ∀ e ∈ b, e.2.length = B

def exampleAt (b : Batch Row) (i : Nat) : Example Row := b.map (fun e => (e.1, e.2[i]?))

/-- The examples of a batch, in order. -/
def examples (b : Batch Row) (B : Nat) : List (Example Row) := (List.range B).map (exampleAt b)

/-- The metrics `m` have the given names and kinds and accumulate `am` and `wt` over the examples `xs`. -/
def Accumulates [Field K] (keys : List (List Char × Kind)) (am wt : Nat → Example Row → K) (m : Metrics.Dict K)
    (xs : List (Example Row)) : Prop :=
  m.map (·.1) = keys.map (·.1) ∧
  ∀ (i : Nat) (x : Metric K) (k : Kind), (m.map (·.2))[i]? = some x → (keys.map (·.2))[i]? = some k →
    IsKind k x ∧ amount x = (xs.map (am i)).sum ∧ weight x = (xs.map (wt i)).sum

/-- The loss is a sum over the examples of the batch (no dropout, no mutables): so are gradient and metrics. -/
def SumOverExamples [Field K] [AddMonoid G] (f : LossGrad K P G Mu R Row) (p : P) (keys : List (List Char × Kind))
    (g : Example Row → G) (am wt : Nat → Example Row → K) : Prop :=
  ∀ (b : Batch Row) (B : Nat) (rng : R), Rect b B →
    (f p b rng none).2.1 = none ∧ (f p b rng none).2.2 = ((examples b B).map g).sum ∧
    Accumulates keys am wt (f p b rng none).1 (examples b B)

/-- Names and kinds of metrics; `none` is LastValue. -/
def HasShape (shape : List (List Char × Option Kind)) (m : Metrics.Dict K) : Prop :=
  m.map (·.1) = shape.map (·.1) ∧
  ∀ (i : Nat) (x : Metric K) (k : Option Kind), (m.map (·.2))[i]? = some x → (shape.map (·.2))[i]? = some k →
    match k with
    | some k => IsKind k x
    | none => ∃ v, x = .last v

/-- The states of an uninterrupted run, one batch per step. -/
def run {S B M : Type} (step : S → B → Except Err (S × M)) : S → List B → Except Err S
  | s, [] => .ok s
  | s, b :: bs =>
    match step s b with
    | .error e => .error e
    | .ok (s, _) => run step s bs

end Verif.Train.Spec

namespace Verif.Train.Spec
open Verif.Train Verif.Metrics
variable {K P G O Mu R Row : Type}

/-- The losses of a sequence of microbatches evaluated one after the other with the same key, each receiving the
mutables that the previous one returned. -/
def chain (f : LossGrad K P G Mu R Row) (p : P) (key : R) :
    Option Mu → List (Batch Row) → List (Metrics.Dict K × Option Mu × G)
  | _, [] => []
  | mu, mb :: mbs => f p mb key mu :: chain f p key (f p mb key mu).2.1 mbs

/-- Metrics merged from left to right. -/
def mergeLeft [Add K] (m : Metrics.Dict K) : List (Metrics.Dict K) → Except Metrics.Err (Metrics.Dict K)
  | [] => .ok m
  | x :: xs =>
    match mergeDict m x with
    | .ok r => mergeLeft r xs
    | .error e => .error e

/-- One optimizer step without microbatching: the loss at the current parameters, with the key of this step and the
current mutables; the optimizer with this step's learning rate; the step number plus one. -/
def plainStep (c : Cfg K P G O Mu R Row) (s : State P O Mu) (b : Batch Row) : State P O Mu :=
  let r := c.lossGrad s.params b (c.foldIn c.baseRng s.step) s.mutables
  let u := c.update (c.lr s.step) s.step s.params s.opt r.2.2
  ⟨s.step + 1, u.1, u.2, r.2.1⟩

end Verif.Train.Spec
