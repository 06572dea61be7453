import Verif.Model.EvalData
/-
How the examples of an evaluation are to be dealt out to the hosts.
-/
namespace Verif.EvalData.Spec
open Verif.EvalData

variable {N S Ex : Type}

/-- Example number `i` of the endlessly repeated dataset. -/
def nth (ds : List Ex) (i : Nat) : Option Ex := ds[i % ds.length]?

/-- The batches of shard `id` of `n`: `steps` batches of `B / n` rows, row `j` of batch `t` being example `t * B + j * n + id`. -/
def Dealt (ds : List Ex) (B n id steps : Nat) (bs : List (List Ex)) : Prop :=
  bs.length = steps ∧ ∀ (t : Nat) (b : List Ex), bs[t]? = some b →
    b.length = B / n ∧ ∀ j < B / n, b[j]? = nth ds (t * B + j * n + id)

/-- The examples of a task, loaded as one shard without batching, for so many epochs that one example per epoch is enough. -/
def examples (load : Request N S → List (List Ex)) (cfg : Cfg N S) (steps : Nat) (name : N) (seed : Int) : List Ex :=
  (load { task := name, split := cfg.split, batch := 1, seed := seed, shard := 0, numShards := 1,
          epochs := some (steps * cfg.batchSize) }).flatten

/-- Whether a dataset is to be loaded under a name: for every subtask that has the split, and for a mixture. -/
def Wanted (cfg : Cfg N S) (name : N) : Prop :=
  match cfg.provider with
  | .task t => t.name = name ∧ cfg.split ∈ t.splits
  | .mixture m tasks => m = name ∨ ∃ t ∈ tasks, t.name = name ∧ cfg.split ∈ t.splits

end Verif.EvalData.Spec
