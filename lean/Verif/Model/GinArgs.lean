/-
Model of `rewrite_gin_args`, t5x/gin_utils.py:93-111.  Strings are lists of
characters; logging is left out.
-/
namespace Verif.GinArgs

abbrev Str := List Char

/-- `ValueError`, gin_utils.py:99-103, with the offending argument. -/
inductive Err where
  | notABinding (arg : Str)
  deriving DecidableEq, Repr

def pre : Str := "--gin.".toList

/-- `s.split('=', maxsplit=1)` for a string that contains `'='`. -/
def splitEq : Str → Str × Str
  | [] => ([], [])
  | c :: s => if c = '=' then ([], s) else ((c :: (splitEq s).1), (splitEq s).2)

/-- `_rewrite_gin_arg`, gin_utils.py:96-109. -/
def rewriteArg (arg : Str) : Except Err Str :=
  if !pre.isPrefixOf arg then .ok arg
  else if !arg.contains '=' then .error (.notABinding arg)
  else
    let a := arg.drop 6
    .ok ("--gin_bindings=".toList ++ (splitEq a).1 ++ " = ".toList ++ (splitEq a).2)

/-- `rewrite_gin_args`, gin_utils.py:111: the list comprehension stops at the first exception. -/
def rewriteArgs : List Str → Except Err (List Str)
  | [] => .ok []
  | a :: as =>
    match rewriteArg a with
    | .error e => .error e
    | .ok b => match rewriteArgs as with
      | .error e => .error e
      | .ok bs => .ok (b :: bs)

end Verif.GinArgs
