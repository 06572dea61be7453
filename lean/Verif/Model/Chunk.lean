import Verif.Common
/-
Model of t5x/checkpoints.py:103-157 `_choose_chunk_shape`.
-/
namespace Verif.Chunk

inductive Err | assertion | index | fuel
deriving DecidableEq, Repr

/-- checkpoints.py:126-128: the divisors of a size, ascending. -/
def divisors (n : ℕ) : List ℕ := (List.range' 1 n).filter (fun i => n % i == 0)

/-- checkpoints.py:131: the current shape; `[-1]` of an empty list is an IndexError. -/
def current (df : List (List ℕ)) : Option (List ℕ) := df.mapM List.getLast?

/-- checkpoints.py:146-152: the first dimension of largest size above 1, or none. -/
def pick (cur : List ℕ) : Option ℕ × ℕ :=
  cur.zipIdx.foldl (fun best p => if p.1 > best.2 then (some p.2, p.1) else best) (none, 1)

/-- checkpoints.py:142-157: the loop. -/
def go (target : ℕ) : ℕ → List (List ℕ) → Except Err (List ℕ)
  | 0, _ => .error .fuel
  | f + 1, df =>
    match current df with
    | none => .error .index
    | some cur =>
      if cur.prod > target then
        match pick cur with
        | (some i, _) => go target f (df.modify i List.dropLast)
        | (none, _) => .error .assertion
      else .ok cur

/-- checkpoints.py:103-157.  Every iteration removes one divisor, so as many iterations as there are divisors
are enough (proved in C24_returns). -/
def chooseChunkShape (shape : List ℕ) (target : ℕ) : Except Err (List ℕ) :=
  if target < 1 then .error .assertion
  else
    let df := shape.map divisors
    go target ((df.map List.length).sum + 1) df

end Verif.Chunk
