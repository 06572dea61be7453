import Verif.Model.JobFiles
import Verif.Model.TrainState
import Verif.Model.Train
/-
A training job whose steps are those of `Trainer` (`Verif.Train`: `/repo/t5x/trainer.py`, lines 704-950 and 1018-1040), whose train state is a
`FlaxOptimTrainState` (`Verif.TrainState`: `/repo/t5x/train_state.py`, lines 115-231), and which writes and reads the files of `Verif.JobFiles`.

The trainer of `Verif.Train` works with parameters, optimizer states and mutables of any types; a codec says how they are laid out as nested dicts of
arrays.  Simplifications: those of the models it is made of.
-/
namespace Verif.TrainedJob
open Verif Verif.StateDict Verif.TrainState

variable {A P O Mu σ B Row K G R : Type}

/-- How the parts of a train state are laid out in arrays.  `num` is the int32 array with the step. -/
structure Codec (A P O Mu : Type) where
  encP : P → Dict (Option A)
  decP : Dict (Option A) → Option P
  encO : O → Dict (Option A)
  decO : Dict (Option A) → Option O
  encM : Mu → Collections (Option A)
  decM : Collections (Option A) → Option Mu
  num : Nat → A
  val : A → Option Nat

/-- The mutables; `none` stands for an empty dict. -/
def Codec.mutables (e : Codec A P O Mu) (mu : Option Mu) : Collections (Option A) := (mu.map e.encM).getD []

/-- The `FlaxOptimTrainState`; the axes are those of the template `u`. -/
def Codec.state (e : Codec A P O Mu) (u : TState (Option A)) (s : Train.State P O Mu) : TState (Option A) :=
  ⟨e.encP s.params, some (e.num s.step), e.encO s.opt, u.paramsAxes, e.mutables s.mutables, u.mutablesAxes⟩

def Codec.read (e : Codec A P O Mu) (t : TState (Option A)) : Option (Train.State P O Mu) :=
  match t.step.bind e.val, e.decP t.params, e.decO t.paramStates with
  | some n, some p, some o =>
    if t.mutables.isEmpty then some ⟨n, p, o, none⟩
    else (e.decM t.mutables).map fun mu => ⟨n, p, o, some mu⟩
  | _, _, _ => none

/-- A dict of collections as a nested dict. -/
def ofColls {α : Type} : Collections α → Dict α
  | [] => .nil
  | (k, d) :: r => .sub k d (ofColls r)

def toColls {α : Type} : Dict α → Option (Collections α)
  | .nil => some []
  | .leaf _ _ _ => none
  | .sub k d r => (toColls r).map fun r => (k, d) :: r

/-- The dict that `state_dict` returns, train_state.py:182-186. -/
def whole {α : Type} (sd : SDict α) : Dict α :=
  .sub "target".toList sd.target (.sub "state".toList sd.state
    (match sd.mutables with
      | none => .nil
      | some m => .sub "flax_mutables".toList (ofColls m) .nil))

/-- The entries that `restore_state` reads, train_state.py:209-216. -/
def parts {α : Type} (d : Dict α) : Option (SDict α) :=
  match d.get "target".toList, d.get "state".toList, d.get "flax_mutables".toList with
  | some (.dict t), some (.dict s), none => some ⟨t, s, none⟩
  | some (.dict t), some (.dict s), some (.dict m) => (toColls m).map fun m => ⟨t, s, some m⟩
  | _, _, _ => none

/-- The job's computation.  `glue` makes the global batch of what the data shards feed.  An exception in a step ends the job; the theorems are about
data sets on which the trainer raises none, so that what stands here in that case does not matter. -/
def comp [Add K] [One K] [AddMonoid G] (kind : Kind) (u : TState (Option A)) (e : Codec A P O Mu) (cfg : Train.Cfg K P G O Mu R Row)
    (init : Train.State P O Mu) (pipe : DsCkpt.Pipe σ B) (seed : Nat) (glue : (Nat → Option B) → Train.Batch Row) :
    JobFiles.Comp (Train.State P O Mu) A σ B where
  init := init
  stepOf := Train.State.step
  step m b := match Train.trainStep cfg m (glue b) with
    | .ok (s, _) => s
    | .error _ => { m with step := m.step + 1 }
  pipe := pipe
  seed := seed
  toDict m := match stateDict kind (e.state u m) with
    | some sd => whole sd
    | none => .nil
  ofDict d := match parts d with
    | none => none
    | some sd => match restoreState kind u sd with
      | .error _ => none
      | .ok t => e.read t

end Verif.TrainedJob
