import Verif.Model.TrainJob
import Verif.Spec.CkptDir
import Verif.Spec.TrainSaves
/-
Vocabulary for C102: what a job without interruptions does.
-/
namespace Verif.TrainJob.Spec
open Verif Verif.TrainJob
open Verif.Ckpt (FName Dir)
open Verif.LocalChunk (Layout)

variable {M σ B δ α : Type}

/-- The batch of shard `s` of `n` at the `k`-th training step of a job that is never interrupted. -/
def idealBatch (P : Prog M σ B δ) (n k s : Nat) : B := P.pipe.out (P.pipe.next^[k] (P.pipe.init P.seed s n))

/-- The train state after `k` training steps of a job with `n` data shards that is never interrupted. -/
def ideal (P : Prog M σ B δ) (n : Nat) : Nat → M
  | 0 => P.init
  | k + 1 => P.step (ideal P n k) (fun s => if s < n then some (idealBatch P n k s) else none)

/-- A cluster with `n` data shards: each process has one of them, and each shard has a process that is its first host.
(`C102_cluster`: such are the layouts that `get_data_layout` computes.) -/
structure GoodCluster (n : Nat) (cl : List (Nat × Layout)) : Prop where
  shards : ∀ x ∈ cl, x.2.numShards = n ∧ x.2.shardId < n
  first : ∀ s < n, ∃ x ∈ cl, x.2.shardId = s ∧ x.2.isFirstHost = true

/-- A step increments `train_state.step`, and what is written of a train state of the uninterrupted job can be read back. -/
structure GoodProg (P : Prog M σ B δ) : Prop where
  step : ∀ m b, P.stepOf (P.step m b) = P.stepOf m + 1
  model : ∀ (n k s : Nat) (d : Dir δ), (∀ f x, (f, x) ∈ P.encM (ideal P n k) → PyDict.get d f = some (some x)) → P.decM s d = some (ideal P n k)
  ds : ∀ s, P.decS (P.encS s) = some s

/-- An attempt on a cluster with `n` data shards whose saves write their files completely before the rename.  Configuration, environment,
retention and the moment of the kill are arbitrary, and may differ between attempts. -/
structure GoodAttempt (P : Prog M σ B δ) (n : Nat) (a : Attempt M σ δ α) : Prop where
  cluster : GoodCluster n a.cluster
  saves : ∀ l, (∃ k, l.m = ideal P n k) → Ckpt.Spec.Valid (jobOf P a l)

/-- If `PreemptionError` is raised, then before the first step of a block. -/
def CleanPreemption (a : Attempt M σ δ α) : Prop :=
  ∀ first st, TrainLoop.train a.cfg a.env first = .error (.preempted, st) → a.lost = 0

/-- All attempts of a job are such. -/
def GoodActs (P : Prog M σ B δ) (n : Nat) (acts : List (Act M σ δ α)) : Prop :=
  ∀ a, Act.attempt a ∈ acts → GoodAttempt P n a ∧ CleanPreemption a

/-- The processes hold the state of an uninterrupted job after `k` steps, and will be fed its batches from number `i` on. -/
def Holds (P : Prog M σ B δ) (n k i : Nat) (l : Live M σ) : Prop :=
  l.m = ideal P n k ∧ P.stepOf l.m = P.stepOf P.init + k ∧ l.hosts ≠ [] ∧
  ∀ h ∈ l.hosts, ∀ j, DsCkpt.batchAt P.pipe j h = some (idealBatch P n (i + j) h.layout.shardId)

end Verif.TrainJob.Spec
