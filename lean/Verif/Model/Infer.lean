import Verif.Common
import Mathlib.Data.List.Sort
/-
Batched, sharded inference: t5x/utils.py:1526-1817 (`get_infer_fn`, `_remove_padding`) and t5x/infer.py:342-362.

`step k batch` is the partitioned inference step on the k-th global batch (it may use a random key that depends on k).
The global batch is the concatenation of the batches of the shards in shard order, as
`host_local_array_to_global_array` and the data partition spec define it; its result comes back in the same order.
The examples of the data set come with their position as index.
-/
namespace Verif.Infer

inductive Err | zeroDivision | type | index | value
deriving DecidableEq, Repr

variable {X Y A : Type}

/-- The enumerated data set (infer.py:669). -/
def enumerate (i : Nat) : List X → List (Int × X)
  | [] => []
  | x :: xs => ((i : Int), x) :: enumerate (i + 1) xs

/-- utils.py:1637-1662: pad with the first example under index -1 to a multiple of the batch size. -/
def pad (B : Nat) (ds : List (Int × X)) : List (Int × X) :=
  if ds.length % B ≠ 0 then ds ++ (List.replicate (B - ds.length % B) ((ds.take 1).map (fun e => ((-1 : Int), e.2)))).flatten
  else ds

/-- `tf.data.Dataset.shard(n, s)`: the elements whose position is s modulo n. -/
def shardFrom (n s : Nat) : Nat → List X → List X
  | _, [] => []
  | i, x :: xs => if i % n = s then x :: shardFrom n s (i + 1) xs else shardFrom n s (i + 1) xs

/-- `batch(p, drop_remainder=True)`. -/
def batches (p : Nat) (l : List X) : List (List X) := (List.range (l.length / p)).map (fun k => (l.drop (k * p)).take p)

/-- utils.py:1665-1720: the k-th global batch, shard after shard. -/
def globalBatch (n p : Nat) (ds : List X) (k : Nat) : List X :=
  (List.range n).flatMap (fun s => ((batches p (shardFrom n s 0 ds))[k]?).getD [])

/-- utils.py:1526-1540. -/
def removePadding (l : List (Int × Y)) : List (Int × Y) := l.filter (fun e => decide (e.1 ≥ 0))

/-- numpy `x[indices]` for non-negative indices. -/
def gather (l : List Y) : List Int → Except Err (List Y)
  | [] => .ok []
  | i :: is =>
    match l[i.toNat]?, gather l is with
    | some y, .ok ys => .ok (y :: ys)
    | none, _ => .error .index
    | _, .error e => .error e

/-- utils.py:1623-1806 `infer_fn`: the list of (index, result).  `n` is the number of shards. -/
def inferFn (n B : Nat) (step : Nat → List X → List Y) (xs : List X) : Except Err (List (Int × Y)) :=
  if B = 0 then .error .zeroDivision
  else
    let ds := pad B (enumerate 0 xs)
    let p := B / n
    let count := (batches p (shardFrom n 0 0 ds)).length
    let all := (List.range count).flatMap (fun k =>
      let b := globalBatch n p ds k
      (b.map (·.1)).zip (step k (b.map (·.2))))
    if count = 0 then .error .type
    else
      let kept := removePadding all
      -- utils.py:1766-1767
      match gather (kept.map (·.2)) (kept.map (·.1)), gather (kept.map (·.1)) (kept.map (·.1)) with
      | .ok ys, .ok is => if (is.zip ys).length ≠ xs.length then .error .value else .ok (is.zip ys)
      | .error e, _ => .error e
      | _, .error e => .error e

/-- infer.py:358-360: `sorted(…, key=index)` (stable). -/
def extract (l : List (Int × Y)) : List Y := (l.mergeSort (fun a b => decide (a.1 ≤ b.1))).map (·.2)

/-- `np.argsort`. -/
def argsort (is : List Int) : List Nat := (is.zipIdx.mergeSort (fun a b => decide (a.1 ≤ b.1))).map (·.2)

/-- infer.py:345-356, tokens and auxiliary values. -/
def extractAux (l : List (Int × Y)) (aux : List A) : List (Option Y) × List (Option A) :=
  let perm := argsort (l.map (·.1))
  (perm.map (fun i => (l.map (·.2))[i]?), perm.map (fun i => aux[i]?))

end Verif.Infer
