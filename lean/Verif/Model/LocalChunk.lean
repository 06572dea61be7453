import Verif.Common
/-
Host-local chunks and data layouts: `LocalChunker` (`/repo/t5x/partitioning.py`, lines 424-542),
`BasePartitioner.get_data_layout` (lines 737-835) and its mixture-of-experts version
(`/repo/t5x/contrib/moe/partitioning.py`, lines 205-267).

Simplifications: an `OrderedDict` keyed by axis name is the list of names plus a function, a missing key is a
KeyError; shapes and positions are natural numbers; axis names are never the empty string.
-/
namespace Verif.LocalChunk

inductive Err where
  | keyError        -- an axis name the mesh does not have
  | notImplemented  -- a tuple of axes in `get_local_chunk_info`, or an explicit host index
  | badBatch        -- ValueError: batch size not divisible by the data mesh size
  | badShards       -- ValueError: batch size not divisible by the number of shards
  | emptyReduce     -- TypeError: `functools.reduce` of an empty sequence
deriving DecidableEq

/-- One entry of `mesh_axes`: `None`, a name, or a tuple of names. -/
inductive Entry (α : Type) where
  | none
  | name (a : α)
  | tuple (l : List α)
deriving DecidableEq

variable {α : Type} [DecidableEq α]

/-- The fields of a `LocalChunker`, lines 436-438. -/
structure Chunker (α : Type) where
  axes : List α
  numChunks : α → Nat
  chunkIds : α → Nat

/-- `LocalChunker.__init__`, lines 427-444: `localShape` is the shape of `global_mesh.local_mesh`, `location` the
position of its first device in the global mesh. -/
def Chunker.init (names : List α) (globalShape localShape location : α → Nat) : Chunker α where
  axes := names
  numChunks := fun a => globalShape a / localShape a
  chunkIds := fun a => location a / localShape a

/-- Body of the loop of `get_local_chunk_info`, lines 464-473: `none` is `slice(None)`. -/
def slice1 (c : Chunker α) (e : Entry α) (size : Nat) : Except Err (Option (Nat × Nat)) :=
  match e with
  | .none => .ok none
  | .tuple [] => .ok none
  | .tuple (_ :: _) => .error .notImplemented
  | .name a =>
    if a ∈ c.axes then
      let chunkId := c.chunkIds a
      let chunkSize := size / c.numChunks a
      .ok (some (chunkId * chunkSize, (chunkId + 1) * chunkSize))
    else .error .keyError

/-- The loop, lines 462-473; `zip` stops at the shorter list, remaining dimensions keep `slice(None)`. -/
def slices (c : Chunker α) : List (Entry α) → List Nat → Except Err (List (Option (Nat × Nat)))
  | e :: es, n :: ns =>
    match slice1 c e n with
    | .error x => .error x
    | .ok s =>
      match slices c es ns with
      | .error x => .error x
      | .ok ss => .ok (s :: ss)
  | _, ns => .ok (ns.map (fun _ => none))

/-- `sharded_mesh_axes`, lines 463 and 467. -/
def shardedAxes : List (Entry α) → List Nat → List α
  | .name a :: es, _ :: ns => a :: shardedAxes es ns
  | _ :: es, _ :: ns => shardedAxes es ns
  | _, _ => []

/-- The loop shared by `get_shard_id` (lines 508-511) and `get_replica_id` (lines 537-540). -/
def code (c : Chunker α) (axes : List α) : Nat :=
  axes.foldl (fun s a => s * c.numChunks a + c.chunkIds a) 0

/-- `get_shard_id`, lines 479-513; a single name is the one-element list. -/
def getShardId (c : Chunker α) (sharded : List α) : Except Err Nat :=
  if sharded.all (· ∈ c.axes) then .ok (code c sharded) else .error .keyError

/-- `get_replica_id`, lines 515-542. -/
def getReplicaId (c : Chunker α) (sharded : List α) : Nat :=
  code c (c.axes.filter (· ∉ sharded))

/-- `get_local_chunk_info`, lines 446-477. -/
def getLocalChunkInfo (c : Chunker α) (shape : List Nat) (entries : List (Entry α)) :
    Except Err (List (Option (Nat × Nat)) × Nat) :=
  match slices c entries shape with
  | .error x => .error x
  | .ok s => .ok (s, getReplicaId c (shardedAxes entries shape))

/-- `functools.reduce(lambda x, y: x * y, [f(axis) for axis in axes])`, lines 750-756 and 773-779. -/
def reduceMul (names : List α) (f : α → Nat) (axes : List α) : Except Err Nat :=
  if axes.all (· ∈ names) then
    match axes with
    | [] => .error .emptyReduce
    | a :: as => .ok (as.foldl (fun x b => x * f b) (f a))
  else .error .keyError

/-- `DataLayout`, lines 638-643. -/
structure Layout where
  batchSize : Option Nat
  shardId : Nat
  numShards : Nat
  isFirstHost : Bool
deriving DecidableEq

/-- `batch_size or size`. -/
def orSize (batch : Option Nat) (size : Nat) : Nat :=
  match batch with
  | none => size
  | some 0 => size
  | some b => b

/-- `BasePartitioner.get_data_layout`, lines 790-835.  `dataAxis` is `self._data_axis`: `None`, or the list of axes
(a single name is the one-element list). -/
def getDataLayout (c : Chunker α) (meshShape : α → Nat) (processIndex : Nat) (dataAxis : Option (List α))
    (batch hostIndex : Option Nat) : Except Err Layout :=
  match hostIndex with
  | some _ => .error .notImplemented
  | none =>
    match dataAxis with
    | none => .ok ⟨batch, 0, 1, processIndex == 0⟩
    | some axes =>
      match reduceMul c.axes meshShape axes with
      | .error x => .error x
      | .ok size =>
        let b := orSize batch size
        if b % size ≠ 0 then .error .badBatch
        else
          match reduceMul c.axes c.numChunks axes with
          | .error x => .error x
          | .ok shards =>
            if b % shards ≠ 0 then .error .badShards
            else
              let replicaId := getReplicaId c axes
              match getShardId c axes with
              | .error x => .error x
              | .ok s => .ok ⟨some b, s, shards, replicaId == 0⟩

/-- `MoePjitPartitioner.get_data_layout`, `/repo/t5x/contrib/moe/partitioning.py` lines 205-267; `data` and `expert` are
the two axis names. -/
def getMoeDataLayout (c : Chunker α) (meshShape : α → Nat) (data expert : α) (batch hostIndex : Option Nat) :
    Except Err Layout :=
  match hostIndex with
  | some _ => .error .notImplemented
  | none =>
    if data ∈ c.axes ∧ expert ∈ c.axes then
      let numData := meshShape data
      let numExpert := meshShape expert
      let size := numData * numExpert
      let b := orSize batch size
      if b % size ≠ 0 then .error .badBatch
      else
        let shards := c.numChunks data * c.numChunks expert
        if b % shards ≠ 0 then .error .badShards
        else
          match getLocalChunkInfo c [numExpert, b / numExpert] [.name expert, .name data] with
          | .error x => .error x
          | .ok info =>
            .ok ⟨some b, c.chunkIds data + c.chunkIds expert * c.numChunks data, shards, info.2 == 0⟩
    else .error .keyError

end Verif.LocalChunk
