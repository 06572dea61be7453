import Verif.Model.PyDict
import Mathlib.Data.List.Sort
/-
Checkpoint directory names: `/repo/t5x/checkpoints_utils.py`.
-/
namespace Verif.Ckpt
open Verif

/-- File and directory names, paths. -/
abbrev Name := List Char

/-- `str(n)` for a non-negative integer. -/
def dec (n : Nat) : Name := Nat.toDigits 10 n

/-- `f'{n:0{w}d}'`: decimal, zero-filled to width `w`. -/
def decPad (w n : Nat) : Name := List.replicate (w - (dec n).length) '0' ++ dec n

/-- `int(s)` restricted to strings of ASCII digits.  (Python's `int` also accepts
signs, surrounding blanks and underscores; those strings are errors here.) -/
def parseInt (s : Name) : Option Nat :=
  if s ≠ [] ∧ s.all Char.isDigit then some (Nat.ofDigitChars 10 s 0) else none

/-- `os.path.join(d, name)` for a relative `name`. -/
def pathJoin (d name : Name) : Name :=
  if d = [] ∨ d.getLast? = some '/' then d ++ name else d ++ '/' :: name

/-- `p.rstrip('/')`. -/
def rstrip (p : Name) : Name := (p.reverse.dropWhile (· == '/')).reverse

/-- `os.path.split(p)` (posixpath): the part up to and including the last slash,
without its trailing slashes unless it consists of slashes only, and the rest. -/
def pathSplit (p : Name) : Name × Name :=
  let tail := (p.reverse.takeWhile (· != '/')).reverse
  let head := (p.reverse.dropWhile (· != '/')).reverse
  (if head.all (· == '/') then head else rstrip head, tail)

/-- `sub in s` for strings. -/
def contains (s sub : Name) : Bool :=
  match s with
  | [] => sub.isEmpty
  | _ :: t => sub.isPrefixOf s || contains t sub

/-- `s.replace(old, '')` for a non-empty `old`: leftmost, non-overlapping.
`skip` is the number of characters of a found occurrence still to be dropped. -/
def removeAll (old : Name) : Nat → Name → Name
  | _, [] => []
  | skip + 1, _ :: t => removeAll old skip t
  | 0, c :: t => if old.isPrefixOf (c :: t) then removeAll old (old.length - 1) t else c :: removeAll old 0 t

/-- checkpoints_utils.py:68-79 `get_checkpoint_dir`; `pfx` is the value of the
gin-configurable `get_checkpoint_prefix()`, `width` is
`step_format_fixed_length`. -/
def getCheckpointDir (pfx : Name) (d : Name) (step : Nat) (width : Option Nat := none) : Name :=
  let s := match width with
    | none => dec step
    | some w => decPad w step
  pathJoin d (pfx ++ '_' :: s)

/-- checkpoints_utils.py:82-89 `get_step_from_checkpoint_dir`; `none` is
`ValueError`. -/
def getStepFromCheckpointDir (pfx : Name) (p : Name) : Option (Name × Nat) :=
  let p := if p.getLast? = some '/' then p.dropLast else p
  let (parent, checkpoint) := pathSplit p
  if contains checkpoint pfx then
    (parseInt (removeAll (pfx ++ ['_']) 0 checkpoint)).map fun n => (parent, n)
  else none

/-- The prefix `'checkpoint_'` that is written out in `all_steps`. -/
def ckptPrefix : Name := "checkpoint_".toList

/-- The name of the checkpoint directory of a step, checkpoints.py:769-771 and
704-705, with the default prefix. -/
def ckptName (n : Nat) : Name := ckptPrefix ++ dec n

/-- The name of the temporary directory, checkpoints.py:772. -/
def tmpName (n stamp : Nat) : Name := ckptName n ++ ".tmp-".toList ++ dec stamp

/-- The regular expression `checkpoint_(\d+)$` applied to a directory entry.
(Unicode digits and a trailing newline are not considered.) -/
def stepOfName (n : Name) : Option Nat :=
  if ckptPrefix.isPrefixOf n then parseInt (n.drop ckptPrefix.length) else none

/-- checkpoints_utils.py:40-46 `all_steps`, given the entries of the directory. -/
def allStepsOf (entries : List Name) : List Nat :=
  (entries.filterMap stepOfName).insertionSort (· ≤ ·)

/-- checkpoints_utils.py:60-65 `latest_step`. -/
def latestOf (entries : List Name) : Option Nat := (allStepsOf entries).getLast?

end Verif.Ckpt
