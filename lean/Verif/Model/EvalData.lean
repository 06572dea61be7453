import Verif.Model.PyDict
/-
The data of training and of the evaluation during training: `get_dataset`, `get_dataset_inner` and `get_training_eval_datasets`
(`/repo/t5x/utils.py`, lines 1952-2037 and 2076-2185), for seqio tasks and mixtures.

Simplifications: `seqio.get_dataset` is the parameter `load`: what it returns is a function of the arguments that differ between the
calls (`Request`).  The configuration is the same on all hosts, except for the seed, which is either given on all hosts or on none.
`jax.process_index()` is a natural number, host 0 is the one that broadcasts.  `eval_steps` is not negative.  A `tf.data.Dataset` is
the function from positions to elements (`none` after the end); `unbatch`, `repeat`, `shard`, `batch` and `take` are modelled from
tensorflow's documentation, `cache` leaves the elements as they are.  For AirIO tasks the loader is a parameter too.  Not modelled: `MOCK_TPU` devices, the import of
`cfg.module`, a loader that does not return a `tf.data.Dataset`.
-/
namespace Verif.EvalData

variable {N S Ex D : Type} [DecidableEq N] [DecidableEq S]

/-- The arguments of `seqio.get_dataset`, lines 2024-2037, that are not the same in all calls for one configuration. -/
structure Request (N S : Type) where
  task : N
  split : S
  batch : Nat
  seed : Int
  shard : Nat
  numShards : Nat
  epochs : Option Nat
deriving DecidableEq

inductive Err where
  | continueFrom   -- ValueError '`continue_from_last_checkpoint` must be set to False ...'
  | zeroDivision   -- ZeroDivisionError
  | batchSize      -- ValueError 'Batch size (...) must be divisible by number of shards (...)'
  | seed           -- AssertionError '`seed` is not same across hosts'
  | shardIndex     -- tensorflow: the index is not smaller than the number of shards
  | emptyBatch     -- tensorflow: the batch size must be positive
  | name           -- NameError
deriving DecidableEq

/-- A task and its splits. -/
structure Task (N S : Type) where
  name : N
  splits : List S

/-- A seqio task, or a mixture with its subtasks (`seqio.get_subtasks`). -/
inductive Provider (N S : Type) where
  | task (t : Task N S)
  | mixture (name : N) (tasks : List (Task N S))

/-- The fields of `DatasetConfig`, lines 530-564, that the functions look at; `seeds` is the seed on each host. -/
structure Cfg (N S : Type) where
  provider : Provider N S
  split : S
  batchSize : Nat
  seeds : Option (Nat → Int)

/-- The seed of a host, lines 1976-1983: the configured one or the time of host 0 (`broadcast_one_to_all`). -/
def seedOf (seeds : Option (Nat → Int)) (clock : Nat → Int) (me : Nat) : Int :=
  match seeds with
  | some f => f me
  | none => clock 0

/-- `get_dataset_inner`, lines 1990-2037, on host `me`: `multihost_assert_equal` compares the seed of each host with that of host 0. -/
def getDatasetInner (load : Request N S → D) (task : N) (split : S) (batchSize : Nat) (seed : Nat → Int) (me shardId numShards : Nat)
    (epochs : Option Nat) : Except Err D :=
  if seed me ≠ seed 0 then .error .seed
  else .ok (load { task := task, split := split, batch := batchSize / numShards, seed := seed me, shard := shardId,
                   numShards := numShards, epochs := epochs })

/-- `get_dataset`, lines 1952-1987, on host `me`; `clock` is the time on each host at this call. -/
def getDataset (load : Request N S → D) (task : N) (split : S) (batchSize : Nat) (seeds : Option (Nat → Int)) (clock : Nat → Int)
    (me shardId numShards : Nat) (epochs : Option Nat) (continueFrom : Bool) : Except Err D :=
  if continueFrom then .error .continueFrom
  else if numShards = 0 then .error .zeroDivision
  else if batchSize % numShards ≠ 0 then .error .batchSize
  else getDatasetInner load task split batchSize (seedOf seeds clock) me shardId numShards epochs

/-- A dataset: the element at every position before its end. -/
abbrev Ds (α : Type) := Nat → Option α

/-- `ds.unbatch()` of a finite dataset of batches. -/
def unbatch (l : List (List Ex)) : List Ex := l.flatten

/-- `ds.repeat()` of a finite dataset; an empty one stays empty. -/
def repeatDs (l : List Ex) : Ds Ex := fun i => l[i % l.length]?

/-- `ds.shard(n, i)`. -/
def shardDs (n i : Nat) (s : Ds Ex) : Ds Ex := fun j => s (j * n + i)

/-- All elements, if none is missing. -/
def collect : List (Option Ex) → Option (List Ex)
  | [] => some []
  | none :: _ => none
  | some x :: l => (collect l).map (x :: ·)

/-- `ds.batch(b, drop_remainder=True)`. -/
def batchDs (b : Nat) (s : Ds Ex) : Ds (List Ex) := fun t => collect ((List.range b).map fun j => s (t * b + j))

/-- `ds.take(k)`, from position `i` on. -/
def takeDs {α : Type} (s : Ds α) : Nat → Nat → List α
  | _, 0 => []
  | i, k + 1 =>
    match s i with
    | none => []
    | some x => x :: takeDs s (i + 1) k

/-- `_repeat_shard_batch_take_cache`, lines 2131-2146. -/
def dealOut (n id B steps : Nat) (ds : List (List Ex)) : Except Err (List (List Ex)) :=
  if n ≤ id then .error .shardIndex
  else if B / n = 0 then .error .emptyBatch
  else .ok (takeDs (batchDs (B / n) (shardDs n id (repeatDs (unbatch ds)))) 0 steps)

/-- One call `datasets[name] = _repeat_shard_batch_take_cache(get_dataset_fn(...))`, lines 2167-2182: loaded with batch size 1 and
as a single shard, for a finite number of epochs. -/
def evalDataset (load : Request N S → List (List Ex)) (cfg : Cfg N S) (clock : Nat → Int) (me id n steps : Nat) (name : N) :
    Except Err (List (List Ex)) :=
  match getDataset load name cfg.split 1 cfg.seeds clock me 0 1 (some (steps * cfg.batchSize)) false with
  | .error e => .error e
  | .ok ds => dealOut n id cfg.batchSize steps ds

/-- The names for which datasets are loaded, lines 2153-2162 and 2174: subtasks with the split, then the mixture itself. -/
def loadedNames (split : S) : Provider N S → List N
  | .task t => if split ∈ t.splits then [t.name] else []
  | .mixture name tasks => (tasks.filter (fun t => split ∈ t.splits)).map (·.name) ++ [name]

/-- The loop of lines 2153-2172 and the call of lines 2174-2183; `clock k` is the time at the `k`-th call. -/
def evalLoop (load : Request N S → List (List Ex)) (cfg : Cfg N S) (clock : Nat → Nat → Int) (me id n steps : Nat) :
    Nat → List N → List (N × List (List Ex)) → Except Err (List (N × List (List Ex)))
  | _, [], d => .ok d
  | k, name :: rest, d =>
    match evalDataset load cfg (clock k) me id n steps name with
    | .error e => .error e
    | .ok b => evalLoop load cfg clock me id n steps (k + 1) rest (PyDict.set d name b)

/-- `get_training_eval_datasets`, lines 2076-2185, on host `me` with shard `id` of `n`.  `get_deterministic_dataset` (line 2106) is
not defined. -/
def trainingEvalDatasets (load : Request N S → List (List Ex)) (cfg : Cfg N S) (clock : Nat → Nat → Int) (me id n steps : Nat)
    (deterministic : Bool) : Except Err (List (N × List (List Ex))) :=
  if deterministic then .error .name
  else if n = 0 then .error .zeroDivision
  else if cfg.batchSize % n ≠ 0 then .error .batchSize
  else evalLoop load cfg clock me id n steps 0 (loadedNames cfg.split cfg.provider) []

/-- `get_training_eval_datasets` for an AirIO task or mixture, lines 2109-2124, on host `me` with shard `id` of `n`: what is loaded is returned as it is. -/
def airioEvalDatasets (load : Request N S → D) (name : N) (cfg : Cfg N S) (clock : Nat → Int) (me _id _n steps : Nat) (deterministic : Bool) :
    Except Err (List (N × D)) :=
  if deterministic then .error .name
  else
    match getDataset load name cfg.split 1 cfg.seeds clock me 0 1 (some (steps * cfg.batchSize)) false with
    | .error e => .error e
    | .ok ds => .ok [(name, ds)]

/-- The number of steps of `Trainer.eval` on a data set, `/repo/t5x/trainer.py` lines 606-650: one for each batch, until the iterator ends. -/
def evalSteps {α : Type} (ds : List α) : Nat := ds.foldl (fun n _ => n + 1) 0

end Verif.EvalData
