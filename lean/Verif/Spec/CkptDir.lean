import Verif.Model.CkptDir
/-
Specification vocabulary for the checkpoint directory properties.
-/
namespace Verif.Ckpt.Spec
open Verif Verif.Ckpt

variable {δ : Type}

/-- A job is well formed when the last write of each of its files is its full
content and the pin marker is not among the files. -/
def Valid (j : Job δ) : Prop :=
  (∀ f x, (f, x) ∈ j.files → (j.writes.filter (fun w => w.1 = f)).getLast? = some (f, some x)) ∧
  ∀ w ∈ j.writes, w.1 ≠ pinnedFile

/-- Every file of the job is in the directory with its full content. -/
def Complete (d : Dir δ) (j : Job δ) : Prop :=
  ∀ f x, (f, x) ∈ j.files → PyDict.get d f = some (some x)

/-- The same without the dataset iterator files `train_ds*`. -/
def ModelComplete (d : Dir δ) (j : Job δ) : Prop :=
  ∀ f x, (f, x) ∈ j.files → ¬ ("train_ds".toList <+: f) → PyDict.get d f = some (some x)

/-- The most recent completed save of a step. -/
def lastSave (log : List (Job δ)) (n : Nat) : Option (Job δ) := log.find? (fun j => j.step = n)

/-- All saves of a history are well formed. -/
def ValidHistory {α : Type} (evs : List (Ev δ α)) : Prop :=
  ∀ pol kd j c, Ev.save pol kd j c ∈ evs → Valid j

/-- A save that does not die while pruning: it runs to the end, or dies before or
right after the rename. -/
def NoPruneCrash {α : Type} (evs : List (Ev δ α)) : Prop :=
  ∀ pol kd j c, Ev.save pol kd j (some c) ∈ evs → c ≤ (writeOps j).length

/-- No save of the history limits the number of dataset checkpoints. -/
def KeepsDs {α : Type} (evs : List (Ev δ α)) : Prop :=
  ∀ pol kd j c, Ev.save pol kd j c ∈ evs → kd = none ∨ kd = some 0

/-- No save of the history limits the number of checkpoints. -/
def KeepsAll {α : Type} (evs : List (Ev δ α)) : Prop :=
  ∀ pol kd j c, Ev.save pol kd j c ∈ evs →
    match pol with
    | .newest k => k = none ∨ k = some 0
    | .best k _ _ _ _ => k = none ∨ k = some 0

end Verif.Ckpt.Spec

namespace Verif.Ckpt.Spec
open Verif Verif.Ckpt

section best
variable {α : Type} [LinearOrder α] [BoundedOrder α]

/-- The checkpoints that save-best pruning may remove: not the latest one, not
one at a multiple of the keep period, and, if checkpoints without metric are
kept, not one without metric. -/
def eligible (keepWithout : Bool) (period : Option Nat) (metric : Nat → Option α) (steps : List Nat) : List Nat :=
  steps.filter fun s =>
    decide (∃ t ∈ steps, s < t) &&
    (match period with
      | some (p + 1) => decide (¬ (p + 1 ∣ s))
      | _ => true) &&
    (!keepWithout || (metric s).isSome)

/-- `a` has a strictly better metric than `b`; a missing metric counts as the
worst value. -/
def Better (maxMode : Bool) (metric : Nat → Option α) (a b : Nat) : Prop :=
  if maxMode then (metric b).getD ⊥ < (metric a).getD ⊥ else (metric a).getD ⊤ < (metric b).getD ⊤

/-- Equal metric values. -/
def Tied (maxMode : Bool) (metric : Nat → Option α) (a b : Nat) : Prop :=
  if maxMode then (metric b).getD ⊥ = (metric a).getD ⊥ else (metric a).getD ⊤ = (metric b).getD ⊤
end best

end Verif.Ckpt.Spec
