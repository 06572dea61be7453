import Verif.Model.TrainLoop
import Verif.Model.CkptDir
import Verif.Model.DsCkpt
/-
A training job that is killed and restarted: `/repo/t5x/train.py` lines 96-812 as a whole, put together from the schedule
(`Verif.TrainLoop`), the checkpoint directory (`Verif.Ckpt`) and the checkpoints of the input pipeline (`Verif.DsCkpt`).

Modelled: lines 300-389 (restore the latest checkpoint of `model_dir`, or start from `init`), the events of the schedule in order,
with `trainer.train` (`/repo/t5x/trainer.py` lines 537-580) working on the train state and the iterators, and
`Checkpointer.save` working on the directory; a kill at any moment, also between two file-system operations of a save.

Simplifications: the checkpoints are those of `Checkpointer` (not Orbax), with `save_dataset=True`.  A save does not raise
(`C21_retention` and `C22_save_best` prove that it does not, for directories written by the job).  The numerical step and the file formats
are parameters.
-/
namespace Verif.TrainJob
open Verif
open Verif.Ckpt (FName Dir FS Policy Job latestStep ckptName saveOps executed runOps)
open Verif.DsCkpt (Pipe Host Files dsName)
open Verif.LocalChunk (Layout)

/-- What the job computes, and how a checkpoint stores it. -/
structure Prog (M σ B δ : Type) where
  /-- The train state of line 389, from scratch or from the initial checkpoint of `checkpoint_cfg.restore` (line 2 of the preference list
  at 300-304). -/
  init : M
  /-- `train_state.step`. -/
  stepOf : M → Nat
  /-- One training step on the batches of all data shards. -/
  step : M → (Nat → Option B) → M
  /-- The input pipeline. -/
  pipe : Pipe σ B
  seed : Nat
  /-- Files with the train state, and their reader, which is given the step of the directory it reads. -/
  encM : M → List (FName × δ)
  decM : Nat → Dir δ → Option M
  /-- Content of the file of an iterator, and its reader. -/
  encS : σ → δ
  decS : δ → Option σ

/-- One start of `train.py`: the cluster it gets (process index and data layout of each process), its configuration, the outside world,
and the moment it is killed: `some (i, c)` is during event `i`, after `c` training steps or file-system operations of it. -/
structure Attempt (M σ δ α : Type) where
  cluster : List (Nat × Layout)
  cfg : TrainLoop.Cfg
  env : TrainLoop.Env := {}
  pol : Policy α
  keepDs : Option Nat
  /-- Time stamp and sequence of file writes of a save. -/
  stamp : Nat → Nat
  plan : List (FName × δ) → List (FName × Option δ)
  /-- Steps of the interrupted block that were executed when `PreemptionError` is raised. -/
  lost : Nat := 0
  kill : Option (Nat × Nat)

/-- What the processes hold: the train state, and each its iterator. -/
structure Live (M σ : Type) where
  m : M
  hosts : List (Host σ)

variable {M σ B δ α : Type}

/-- The batches that the processes feed: one per shard. -/
def globalBatch (p : Pipe σ B) (hosts : List (Host σ)) (s : Nat) : Option B :=
  (hosts.find? (fun h => h.layout.shardId = s)).bind (fun h => h.it.map p.out)

/-- Every iterator advances. -/
def advance (p : Pipe σ B) (hosts : List (Host σ)) : List (Host σ) := hosts.map (DsCkpt.steps p 1)

/-- The body of the loop of `trainer.train`, trainer.py:559-567. -/
def step1 (P : Prog M σ B δ) (l : Live M σ) : Live M σ :=
  ⟨P.step l.m (globalBatch P.pipe l.hosts), advance P.pipe l.hosts⟩

/-- `n` iterations. -/
def stepN (P : Prog M σ B δ) : Nat → Live M σ → Live M σ
  | 0, l => l
  | n + 1, l => stepN P n (step1 P l)

/-- The state in which the processes of a cluster start without a checkpoint. -/
def fresh (P : Prog M σ B δ) (cluster : List (Nat × Layout)) : Live M σ :=
  ⟨P.init, cluster.map fun x => DsCkpt.start P.pipe P.seed x.1 x.2⟩

/-- The files of a checkpoint: train state and iterators. -/
def filesOf (P : Prog M σ B δ) (l : Live M σ) : List (FName × δ) :=
  P.encM l.m ++ (DsCkpt.save l.hosts).map fun e => (e.1, P.encS e.2)

/-- The save call for a state (`step = train_state.step`, checkpoints.py:757). -/
def jobOf (P : Prog M σ B δ) (a : Attempt M σ δ α) (l : Live M σ) : Job δ :=
  ⟨P.stepOf l.m, a.stamp (P.stepOf l.m), filesOf P l, a.plan (filesOf P l)⟩

/-- The iterator files of a checkpoint directory. -/
def readDs (P : Prog M σ B δ) (d : Dir δ) : Files σ :=
  d.filterMap fun e => (e.2.bind P.decS).map fun s => (e.1, s)

/-- `DsCkpt.restore` on every process; `none` if it fails on one. -/
def restoreHosts (fs : Files σ) : List (Host σ) → Option (List (Host σ))
  | [] => some []
  | h :: hs => match DsCkpt.restore fs h, restoreHosts fs hs with
    | some r, some rs => some (r :: rs)
    | _, _ => none

/-- train.py:300-389: the latest checkpoint of the model directory, else the initial state.  `none`: an exception. -/
def restore (P : Prog M σ B δ) (cluster : List (Nat × Layout)) (fs : FS δ) : Option (Live M σ) :=
  match latestStep fs with
  | none => some (fresh P cluster)
  | some n => match PyDict.get fs (ckptName n) with
    | none => none
    | some d => match P.decM n d, restoreHosts (readDs P d) (fresh P cluster).hosts with
      | some m, some hosts => some ⟨m, hosts⟩
      | _, _ => none

/-- What the attempt does to the world. -/
inductive Do where
  | train (n : Nat)
  | save
  /-- Steps whose result is thrown away: `trainer.train_state` is assigned after the loop only (trainer.py:570), the iterators have moved. -/
  | lose (n : Nat)
  | eval
  deriving DecidableEq, Repr

def toDo : TrainLoop.Event → Do
  | .train _ n => .train n
  | .save _ => .save
  | .trainEval _ => .eval
  | .inferEval _ => .eval

/-- The actions of `train` started at a step.  After a `PreemptionError` the emergency checkpoint (train.py:748-757) is the
last event. -/
def script (a : Attempt M σ δ α) (first : Nat) : List Do :=
  match TrainLoop.train a.cfg a.env first with
  | .ok st => st.events.map toDo
  | .error (.preempted, st) =>
    if a.cfg.checkpointPeriod ≠ 0 ∧ a.cfg.manager then st.events.dropLast.map toDo ++ [.lose a.lost, .save]
    else st.events.map toDo ++ [.lose a.lost]
  | .error (_, st) => st.events.map toDo

/-- The model directory, and what the processes of the last attempt hold at its end (or when they are killed); `none` if
there is no attempt yet, or restoring failed. -/
structure World (M σ δ : Type) where
  fs : FS δ
  live : Option (Live M σ)

section
variable [LinearOrder α] [BoundedOrder α]

/-- One action; `crash = some c`: killed after `c` parts of it. -/
def exec1 (P : Prog M σ B δ) (a : Attempt M σ δ α) (crash : Option Nat) (x : FS δ × Live M σ) : Do → FS δ × Live M σ
  | .train n => (x.1, stepN P (match crash with | none => n | some c => min c n) x.2)
  | .save => (runOps x.1 (executed (saveOps a.pol a.keepDs x.1 (jobOf P a x.2)) crash), x.2)
  | .lose n => (x.1, ⟨x.2.m, (stepN P (match crash with | none => n | some c => min c n) x.2).hosts⟩)
  | .eval => x

/-- The actions up to the kill. -/
def execAll (P : Prog M σ B δ) (a : Attempt M σ δ α) : List Do → Option (Nat × Nat) → FS δ × Live M σ → FS δ × Live M σ
  | [], _, x => x
  | e :: es, none, x => execAll P a es none (exec1 P a none x e)
  | e :: _, some (0, c), x => exec1 P a (some c) x e
  | e :: es, some (i + 1, c), x => execAll P a es (some (i, c)) (exec1 P a none x e)

/-- What happens to a model directory over time: starts of the job, and pins of checkpoints. -/
inductive Act (M σ δ α : Type) where
  | attempt (a : Attempt M σ δ α)
  | pin (step : Nat)
  | unpin (step : Nat)

/-- One act. -/
def act (P : Prog M σ B δ) (w : World M σ δ) : Act M σ δ α → World M σ δ
  | .attempt a => match restore P a.cluster w.fs with
    | none => ⟨w.fs, none⟩
    | some l =>
      let r := execAll P a (script a (P.stepOf l.m)) a.kill (w.fs, l)
      ⟨r.1, some r.2⟩
  | .pin s => { w with fs := Ckpt.pin w.fs s }
  | .unpin s => { w with fs := Ckpt.unpin w.fs s }

/-- A job from an empty model directory on. -/
def job (P : Prog M σ B δ) (acts : List (Act M σ δ α)) : World M σ δ := acts.foldl (act P) ⟨[], none⟩

end
end Verif.TrainJob
