import Verif.Common
import Mathlib.Data.Nat.Log
/-
Model of t5x/decoding.py:1069-1120 `_right_align_prompts`, `_left_align_prompts`, for one
row (all operations are row-wise), and t5x/models.py:1248-1282 `remove_prefix`.
-/
namespace Verif.Align

/-- `jnp.argmax` over natural numbers: first position of the maximum. -/
def argmax (l : List Nat) : Nat := l.idxOf (l.foldr max 0)

/-- `jnp.argmin`: first position of the minimum; `big` bounds all entries. -/
def argmin (big : Nat) (l : List Nat) : Nat := l.idxOf (l.foldr min big)

/-- decoding.py:1092: `jnp.pad(row, (b, 0))[:-b]`. -/
def shr (b : Nat) (row : List Int) : List Int :=
  (List.replicate b 0 ++ row).take (b + row.length - b)

/-- decoding.py:1117: `jnp.pad(row, (0, b))[b:]`. -/
def shl (b : Nat) (row : List Int) : List Int := (row ++ List.replicate b 0).drop b

/-- decoding.py:1088-1094 / 1113-1119: shift by the binary digits of `shifts`. -/
def shiftBits (sh : Nat → List Int → List Int) (shifts : Nat) (nbits : Nat) (row : List Int) : List Int :=
  (List.range (nbits + 1)).foldl (fun row i => if shifts &&& 2 ^ i ≠ 0 then sh (2 ^ i) row else row) row

/-- decoding.py:1084: `ceil(log2(max_len))`, for `max_len >= 1` (exact arithmetic). -/
def nbits (maxLen : Nat) : Nat := Nat.clog 2 maxLen

/-- decoding.py:1069-1095. -/
def rightAlign (row : List Int) : List Int :=
  let maxLen := row.length
  let maxIndex := argmax (row.zipIdx.map (fun p => if p.1 ≠ 0 then p.2 else 0))
  shiftBits shr (maxLen - maxIndex - 1) (nbits maxLen) row

/-- decoding.py:1098-1120. -/
def leftAlign (row : List Int) : List Int :=
  let maxLen := row.length
  let m := row.zipIdx.map (fun p => if p.1 ≠ 0 then p.2 + 1 else maxLen + 1)
  shiftBits shl (argmin (maxLen + 1) m) (nbits maxLen) row

/-- models.py:1248-1282 for one row: mask out the prefix, then `jnp.roll` to the left. -/
def removePrefix (row : List Int) (prefixLength : Nat) : List Int :=
  let length := row.length
  let targets := row.zipIdx.map (fun p => p.1 * (if p.2 < prefixLength then 0 else 1))
  (List.range length).map (fun j => targets.getD ((j + prefixLength) % length) 0)

end Verif.Align
