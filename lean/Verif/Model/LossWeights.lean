import Verif.Common
import Mathlib.Algebra.Order.Field.Basic
/-
Loss normalisation: t5x/losses.py:220-356, and models.py:1337-1368 count_packed_examples.

Weights live in any linearly ordered field instead of float32.  A row is a list.
-/
namespace Verif.LossWeights

variable {K : Type} [Field K] [LinearOrder K]

/-- losses.py:254-260 _repeat_last_nonnegative, forward: a scan which keeps the last non-zero value. -/
def repeatLast (prev : K) : List K → List K
  | [] => []
  | x :: xs =>
    let y := if x = 0 then prev else x
    y :: repeatLast y xs

/-- The same with reverse=True. -/
def repeatLastRev (xs : List K) : List K := (repeatLast 0 xs.reverse).reverse

/-- jnp.cumsum. -/
def cumsum (acc : K) : List K → List K
  | [] => []
  | x :: xs => (acc + x) :: cumsum (acc + x) xs

/-- jnp.diff along a row. -/
def diff (xs : List K) : List K := List.zipWith (· - ·) xs.tail xs

/-- losses.py:263-266: 1 at the last position of each packed sequence, 0 elsewhere. -/
def finalPositions (positions : List ℕ) (segmentIds : List ℤ) : List K :=
  let start : List K := positions.map (fun p => if p = 0 then 1 else 0)
  let final := start.tail ++ [1]
  List.zipWith (fun f s => f * (if s ≠ 0 then 1 else 0)) final segmentIds

/-- losses.py:246-275 _sum_weights_per_segment, one row. -/
def sumWeightsPerSegment (positions : List ℕ) (segmentIds : List ℤ) (weights : List K) : List K :=
  let finalCum := List.zipWith (· * ·) (finalPositions positions segmentIds) (cumsum 0 weights)
  let finalTotal := finalCum.take 1 ++ diff (repeatLast 0 finalCum)
  repeatLastRev finalTotal

/-- losses.py:343-345: nan_to_num(w / norm, nan=0, posinf=0, neginf=0): every division by zero gives 0. -/
def safeDiv (w norm : K) : K := if norm = 0 then 0 else w / norm

/-- The special normalising factors, losses.py:196-243. -/
inductive Special | numReal | numTotal | averagePerSequence
deriving DecidableEq

/-- losses.py:220-243: conversion from a string (a list of characters); none is ValueError. -/
def convertSpecial (x : List Char) : Option Special :=
  let x := x.map Char.toUpper
  if x = "NUM_REAL_TARGET_TOKENS".toList then some .numReal
  else if x = "NUM_TOTAL_TARGET_TOKENS".toList then some .numTotal
  else if x = "AVERAGE_PER_SEQUENCE".toList then some .averagePerSequence
  else none

/-- The loss_normalizing_factor argument. -/
inductive LNF (K : Type) | none | const (k : K) | special (s : Special) | str (s : List Char)

/-- The features of a batch read by the function: one list per row. -/
structure Batch (K : Type) where
  targets : List (List ℤ)
  weights : Option (List (List K))
  /-- decoder_segment_ids and decoder_positions of a packed batch -/
  packed : Option (List (List ℤ) × List (List ℕ))

/-- jnp.sum over rows. -/
def total (rows : List (List K)) : K := (rows.map List.sum).sum

/-- losses.py:278-356 get_loss_normalizing_factor_and_weights; outer none is ValueError.  The batch is
rectangular: np.prod(shape) is the number of entries. -/
def lnfAndWeights (lnf : LNF K) (b : Batch K) : Option (Option K × Option (List (List K))) :=
  let go (s : Special) : Option K × Option (List (List K)) :=
    let w := match b.weights with
      | some w => w
      | .none => b.targets.map (fun r => r.map (fun t => if t > 0 then (1 : K) else 0))
    match s with
    | .numReal => (some (total w), some w)
    | .numTotal => (some ((b.targets.map List.length).sum : ℕ), some w)
    | .averagePerSequence =>
      let w' := match b.packed with
        | some (seg, pos) =>
          List.zipWith (fun (sp : List ℤ × List ℕ) r => List.zipWith safeDiv r (sumWeightsPerSegment sp.2 sp.1 r))
            (seg.zip pos) w
        | .none => w.map (fun r => r.map (fun a => safeDiv a r.sum))
      (some (total w'), some w')
  match lnf with
  | .none => some (.none, b.weights)
  | .const k => some (some k, b.weights)
  | .special s => some (go s)
  | .str s => (convertSpecial s).map go

/-- models.py:1360-1368 count_packed_examples; rows are not empty. -/
def countPackedExamples (rows : List (List ℤ)) : ℤ :=
  let padded := (rows.filter (fun r => r.getLast? = some 0)).length
  let diffs := (rows.map (fun r => ((List.zipWith (· - ·) r.tail r).filter (· ≠ 0)).length)).sum
  (diffs : ℤ) + rows.length - padded

end Verif.LossWeights
