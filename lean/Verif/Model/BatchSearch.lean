import Verif.Model.BinarySearch
import Verif.Model.ArrayOps
/-
`/repo/t5x/binary_search.py` on arrays of any rank: the arrays, the axes and the broadcasting that `Verif.Model.BinarySearch` leaves out.  The operations of
jax.numpy on arrays are those of `Verif.Model.ArrayOps`; `none` stands for the exception for shapes that do not fit.  A float32 is its bit pattern.

Not modelled: a `logits` or `x` of rank 0 (`none` here).
-/
namespace Verif.BatchSearch
open Verif.ND Verif.Arr Verif.BinarySearch

/-- A list with its last two entries swapped. -/
def swap2 (l : List Nat) : List Nat :=
  match l.reverse with
  | a :: b :: r => r.reverse ++ [a, b]
  | _ => l

/-- `jnp.swapaxes(a, -1, -2)`. -/
def swapLast {α : Type} (a : NDArray α) : NDArray α := ⟨swap2 a.shape, fun i => a.get (swap2 i)⟩

/-- A reduction over one axis, such as `jnp.sum(a, axis=k)`, given by what it makes of the elements along the axis. -/
def reduceAxis {α β : Type} (f : List α → β) (a : NDArray α) (k : Nat) : NDArray β :=
  ⟨a.shape.eraseIdx k, fun i => f ((List.range (a.shape.getD k 0)).map fun j => a.get (i.insertIdx k j))⟩

/-- `jnp.where(c, x, y)`. -/
def whereA {α : Type} (c : NDArray Bool) (x y : NDArray α) : Option (NDArray α) :=
  (zipA (fun a b => (a, b)) x y).bind fun xy => zipA (fun b (p : α × α) => if b then p.1 else p.2) c xy

/-- `jnp.full(shape, v)`; also `jnp.full_like(x, v)` and `jnp.zeros`. -/
def fullA {α : Type} (shape : List Nat) (v : α) : NDArray α := ⟨shape, fun _ => v⟩

/-- `loop_body` of `int32_bsearch`, lines 60-68. -/
def loopBodyA (predicate : NDArray Word → Option (NDArray Bool)) (i : Nat) (currentBits : NDArray Word) : Option (NDArray Word) :=
  let bit : Word := 1#32 <<< (30 - i)
  let midpoint := mapA (fun w => w ||| bit) currentBits
  (predicate midpoint).bind fun satisfied =>
    zipA (fun w v => w ||| v) currentBits (mapA (fun s => if s then 0#32 else bit) satisfied)

/-- `lax.fori_loop(0, n, body, init)`. -/
def foriLoopA {α : Type} (n : Nat) (body : Nat → α → Option α) (init : α) : Option α := (List.range n).foldlM (fun s i => body i s) init

/-- `int32_bsearch`, lines 28-71. -/
def int32BsearchA (batchShape : List Nat) (predicate : NDArray Word → Option (NDArray Bool)) : Option (NDArray Word) :=
  let currentBits := fullA batchShape 0#32
  (predicate currentBits).bind fun satisfied =>
  (zipA (fun w v => w ||| v) currentBits (mapA (fun s => if s then 1#32 <<< 31 else 0#32) satisfied)).bind fun currentBits =>
    foriLoopA 31 (loopBodyA predicate) currentBits

/-- `int32_predicate`, lines 140-152. -/
def int32PredicateA (predicate : NDArray Word → Option (NDArray Bool)) (x : NDArray Word) : Option (NDArray Bool) :=
  let x := mapA monoBits x
  let isFinite := mapA (fun w => (w &&& exponentBits) != exponentBits) x
  let predicateOnNonfinite := mapA (fun w => (0#32).sle w) x
  (predicate x).bind fun p => whereA isFinite p predicateOnNonfinite

/-- `float32_bsearch`, lines 121-164. -/
def float32BsearchA (batchShape : List Nat) (predicate : NDArray Word → Option (NDArray Bool)) : Option (NDArray Word) :=
  (int32BsearchA batchShape (int32PredicateA predicate)).map (mapA monoBits)

/-- `x_for_loop` and `reduce_axis`, lines 190-204 and 261-270. -/
def forLoop {α : Type} (x : NDArray α) : NDArray α × Nat :=
  if x.shape.length > 1 then (swapLast x, x.shape.length - 2) else (x, x.shape.length - 1)

section masks
variable (gt ge : Word → Word → Bool)

/-- The predicate of `topk_mask`, lines 207-221. -/
def topkPredicateA (x : NDArray Word) (k : Nat) (threshold : NDArray Word) : Option (NDArray Bool) :=
  let threshold := mapA fneg threshold
  (expandDims threshold (forLoop x).2).bind fun threshold =>
  (zipA gt (forLoop x).1 threshold).map fun above =>
    mapA (fun n => decide (n ≥ k)) (reduceAxis (fun bs => bs.countP id) above (forLoop x).2)

/-- `topk_mask`, lines 167-227. -/
def topkMaskA (x : NDArray Word) (k : Nat) (replaceVal : Word) : Option (NDArray Word) :=
  if x.shape.length = 0 then none
  else
    (float32BsearchA x.shape.dropLast (topkPredicateA gt x k)).bind fun cutoff =>
    let cutoff := mapA fneg cutoff
    (expandDims cutoff cutoff.shape.length).bind fun cutoff =>
    (zipA ge x cutoff).bind fun keep => whereA keep x (fullA x.shape replaceVal)

/-- `jax.nn.softmax(logits, axis=-1)` by what it makes of a row. -/
def softmaxA (softmax : List Word → List Word) (logits : NDArray Word) : NDArray Word :=
  ⟨logits.shape, fun i => (softmax ((List.range (logits.shape.getLastD 0)).map fun j => logits.get (i.dropLast ++ [j]))).getD (i.getLastD 0) 0#32⟩

/-- The predicate of `topp_mask`, lines 280-291; `sum` is the floating point reduction. -/
def toppPredicateA (sum : List Word → Rat) (probs : NDArray Word) (p : Rat) (threshold : NDArray Word) : Option (NDArray Bool) :=
  (expandDims threshold (forLoop probs).2).bind fun threshold =>
  (zipA ge (forLoop probs).1 threshold).bind fun above =>
  (whereA above (forLoop probs).1 (fullA (forLoop probs).1.shape 0#32)).map fun kept =>
    mapA (fun mass => decide (mass < p)) (reduceAxis sum kept (forLoop probs).2)

/-- `topp_mask`, lines 230-299. -/
def toppMaskA (sum : List Word → Rat) (softmax : List Word → List Word) (logits : NDArray Word) (p : Rat) (replaceVal : Word) : Option (NDArray Word) :=
  if logits.shape.length = 0 then none
  else
    let probs := softmaxA softmax logits
    (float32BsearchA logits.shape.dropLast (toppPredicateA ge sum probs p)).bind fun threshold =>
    (expandDims threshold threshold.shape.length).bind fun threshold =>
    (zipA ge probs threshold).bind fun keep => whereA keep logits (fullA logits.shape replaceVal)

end masks
end Verif.BatchSearch
