import Verif.Model.Sampling
/-
Model of the limits on the number of decoding steps in t5x/decoding.py:
`max_decode_steps`, `max_decode_steps_hard_limit` and the length limit of each row
that `temperature_sample` hands to its loop (decoding.py:346-389 and 431-455).
Integers are unbounded; the arrays are concrete or traced, which the code can tell.
-/
namespace Verif.DecodeLimit

/-- `max_decode_steps`: absent, a scalar, or a vector (decoding.py:129). -/
inductive Steps where
  | absent
  | one (k : Int)
  | rows (ks : List Int)

inductive Err where
  /-- 'Cannot decode more steps than the sequence length.' -/
  | tooMany
  /-- The truth value of an array with several elements. -/
  | ambiguous
  /-- Shapes that do not broadcast. -/
  | shape
  deriving DecidableEq, Repr

/-- decoding.py:348-352: whether the hard limit is used for given steps. -/
def limited (hard : Option Int) : Bool := hard.elim false fun l => decide (l > 0)

/-- decoding.py:353-355: `jnp.minimum`. -/
def clip (hard : Option Int) : Steps → Steps
  | .absent => .absent
  | .one k => .one (if limited hard then min k (hard.getD 0) else k)
  | .rows ks => .rows (ks.map fun k => if limited hard then min k (hard.getD 0) else k)

/-- decoding.py:107-108 and 353: whether the steps are a tracer when they are checked.  They are when
they were, and inside `jit` (`jit = true`) also when `jnp.minimum` has computed them. -/
def isTracer (traced jit : Bool) (hard : Option Int) : Bool := traced || (limited hard && jit)

/-- Addition of two vectors with broadcasting of vectors of one element. -/
def addBroadcast (a b : List Int) : Except Err (List Int) :=
  if a.length = b.length then .ok (List.zipWith (· + ·) a b)
  else match a, b with
    | _, [k] => .ok (a.map (· + k))
    | [c], _ => .ok (b.map (c + ·))
    | _, _ => .error .shape

/-- decoding.py:440-441: the check for a vector of steps, made only when it is no tracer. -/
def checkRows (n : Nat) (ks : List Int) : Except Err Unit :=
  match ks with
  | [k] => if k > n then .error .tooMany else .ok ()
  | _ => .error .ambiguous

/-- decoding.py:357-376: the rows of the loop. -/
def loopRows (numDecodes : Nat) (inputs : List (List Int)) : List (List Int) :=
  if numDecodes > 1 then Sampling.expand numDecodes inputs else inputs

/-- decoding.py:346-389 and 436-455: the value of `max_decode_len` for each row of the loop, in rows of `n` positions.  Without
`max_decode_steps` it is the one number `n`, written here once for each row. -/
def limits (n numDecodes : Nat) (inputs : List (List Int)) (steps : Steps) (hard : Option Int) (traced jit : Bool) :
    Except Err (List Int) :=
  let used := (loopRows numDecodes inputs).map fun r => ((r.filter (· ≠ 0)).length : Int)
  match clip hard steps with
  | .absent => .ok (used.map fun _ => (n : Int))
  | .one k =>
    if isTracer traced jit hard = false ∧ k > n then .error .tooMany
    else .ok (used.map fun c => min (n : Int) (c + k))
  | .rows ks =>
    match (if isTracer traced jit hard then .ok () else checkRows n ks) with
    | .error e => .error e
    | .ok _ => match addBroadcast used ks with
      | .error e => .error e
      | .ok l => .ok (l.map fun x => min (n : Int) x)

end Verif.DecodeLimit
