import Verif.Model.LocalChunk
/-
Assembling the global batch from the hosts' batches: `_hashed_index`, `_get_index_mappings` and `_create_sharded_array`
(`/repo/t5x/utils.py`, lines 568-695), called by `ShardedDatasetIterator.__next__` (lines 706-709) with the global shapes of
`prepare_train_iter` (lines 751-753).

Simplifications: an array is the list of its rows, only the leading dimension is sharded (`data_partition_spec` is a
`PartitionSpec` with one entry); a `defaultdict(list)` is an association list in insertion order; `hash` is a parameter;
the batch is a dict of features.  jax's `devices_indices_map`, `shard_shape` and `make_array_from_single_device_arrays` and
numpy's `split` are modelled from their documentation.
-/
namespace Verif.ShardedArray

inductive Err where
  | assertion     -- AssertionError
  | badSharding   -- ValueError of jax: the batch size is not divisible by the number of shards
  | split         -- ValueError 'Unable to put to devices shape ...'
  | zeroDivision  -- ZeroDivisionError
  | badShard      -- ValueError of jax: a buffer does not have the shape of a shard
deriving DecidableEq

section Dicts
variable {K V : Type} [DecidableEq K]

/-- `d[k]` of a `defaultdict(list)`. -/
def get (d : List (K × List V)) (k : K) : List V :=
  match d.find? (fun e => e.1 == k) with
  | some e => e.2
  | none => []

/-- `d[k] = v`. -/
def put : List (K × List V) → K → List V → List (K × List V)
  | [], k, v => [(k, v)]
  | e :: d, k, v => if e.1 = k then (k, v) :: d else e :: put d k v

/-- `d[k].append(v)`. -/
def append (d : List (K × List V)) (k : K) (v : V) : List (K × List V) := put d k (get d k ++ [v])

end Dicts

/-- An index of the leading dimension: `slice(None)` or `slice(start, stop)`; the other dimensions have `slice(None)`. -/
abbrev Idx := Option (Nat × Nat)

variable {α D H η : Type} [DecidableEq α] [DecidableEq D] [DecidableEq H] [DecidableEq η]

/-- jax: `NamedSharding(mesh, PartitionSpec(axes)).devices_indices_map((b, ...))` for a mesh whose devices are, in row-major
order, `devs` at positions `pos`: the leading dimension is cut into one block for each position along `axes` (the first axis
slowest); a dimension that is not cut has the index `slice(None)`. -/
def devicesIndicesMap (shape : α → Nat) (axes : List α) (devs : List D) (pos : D → α → Nat) (b : Nat) :
    Except Err (List (D × Idx)) :=
  let parts := (axes.map shape).prod
  if parts = 0 ∨ b % parts ≠ 0 then .error .badSharding
  else .ok (devs.map fun d =>
    let i := axes.foldl (fun s a => s * shape a + pos d a) 0
    (d, if parts = 1 then none else some (i * (b / parts), (i + 1) * (b / parts))))

/-- jax: `shard_shape((b, ...))[0]`. -/
def shardLength (shape : α → Nat) (axes : List α) (b : Nat) : Except Err Nat :=
  let parts := (axes.map shape).prod
  if parts = 0 ∨ b % parts ≠ 0 then .error .badSharding else .ok (b / parts)

/-- The loop of `_get_index_mappings`, lines 578-587. -/
def mappings (hash : Idx → η) (process : D → H) (d2i : List (D × Idx)) : List (H × List η) × List (η × List D) :=
  d2i.foldl (fun s e =>
    let hashed := hash e.2
    let idxs := get s.1 (process e.1)
    (if hashed ∈ idxs then s.1 else append s.1 (process e.1) hashed, append s.2 hashed e.1)) ([], [])

/-- `_get_index_mappings`, lines 576-597; `me` is `jax.process_index()`. -/
def getIndexMappings (hash : Idx → η) (process : D → H) (me : H) (d2i : List (D × Idx)) :
    Except Err (List (H × List η) × List (η × List D)) :=
  let r := mappings hash process d2i
  if me ∉ r.1.map (·.1) then .error .assertion
  else if r.1.all (fun e1 =>
      e1.2.all (fun i => i ∈ r.2.map (·.1)) &&
      r.1.all (fun e2 => e1.1 = e2.1 || !(e1.2.any (fun i => i ∈ e2.2)) ||
        (e1.2.all (fun i => i ∈ e2.2) && e2.2.all (fun i => i ∈ e1.2)))) then .ok r
  else .error .assertion

/-- `np.split(x, n, axis=0)`. -/
def split {R : Type} (x : List R) (n : Nat) : Except Err (List (List R)) :=
  if n = 0 then .error .zeroDivision
  else if x.length % n ≠ 0 then .error .split
  else .ok ((List.range n).map fun i => (x.drop (i * (x.length / n))).take (x.length / n))

/-- Lines 659-666: from device to index in the split array.  The first argument is the counter `i`. -/
def splitIndex (i2d : List (η × List D)) (n : Nat) : Nat → List η → (D → Option Nat) → D → Option Nat
  | _, [], f => f
  | i, e :: es, f =>
    splitIndex i2d n (i + 1) es ((get i2d e).foldl (fun g d => fun d' => if d' = d then some (i % n) else g d') f)

/-- The loop of lines 668-672. -/
def buffers {R : Type} (f : D → Option Nat) (shards : List (List R)) : List D → Except Err (List (D × List R))
  | [] => .ok []
  | d :: ds =>
    match f d with
    | none => .error .assertion
    | some i =>
      match buffers f shards ds with
      | .error e => .error e
      | .ok r => .ok ((d, shards.getD i []) :: r)

/-- `_put_to_devices`, lines 638-676, on process `me` with the rows `x` of one feature. -/
def putToDevices {R : Type} (hash : Idx → η) (process : D → H) (shape : α → Nat) (axes : List α) (devs : List D)
    (pos : D → α → Nat) (b : Nat) (me : H) (x : List R) : Except Err (List (D × List R)) :=
  match devicesIndicesMap shape axes devs pos b with
  | .error e => .error e
  | .ok d2i =>
    match getIndexMappings hash process me d2i with
    | .error e => .error e
    | .ok (h2i, i2d) =>
      match shardLength shape axes b with
      | .error e => .error e
      | .ok len =>
        if len = 0 then .error .zeroDivision
        else
          match split x (x.length / len) with
          | .error e => .error e
          | .ok shards =>
            buffers (splitIndex i2d shards.length 0 (get h2i me) (fun _ => none)) shards (devs.filter (fun d => process d = me))

/-- `_jax_array`, lines 678-681: what process `me` contributes to the global array; jax checks the shape of every buffer. -/
def jaxArray {R : Type} (shape : α → Nat) (axes : List α) (b : Nat) (dbs : List (D × List R)) : Except Err (List (D × List R)) :=
  match shardLength shape axes b with
  | .error e => .error e
  | .ok len => if dbs.all (fun e => e.2.length = len) then .ok dbs else .error .badShard

/-- `jax.tree.map` over the features. -/
def mapFeatures {K R S : Type} (f : R → Except Err S) : List (K × R) → Except Err (List (K × S))
  | [] => .ok []
  | (k, r) :: l =>
    match f r with
    | .error e => .error e
    | .ok s =>
      match mapFeatures f l with
      | .error e => .error e
      | .ok ss => .ok ((k, s) :: ss)

/-- `_create_sharded_array`, lines 600-688, on process `me`. -/
def createShardedArray {K R : Type} (hash : Idx → η) (process : D → H) (shape : α → Nat) (axes : List α) (devs : List D)
    (pos : D → α → Nat) (b : Nat) (me : H) (batch : List (K × List R)) : Except Err (List (K × List (D × List R))) :=
  match mapFeatures (putToDevices hash process shape axes devs pos b me) batch with
  | .error e => .error e
  | .ok dbs => mapFeatures (jaxArray shape axes b) dbs

end Verif.ShardedArray
