import Verif.Common
/-
`FailFastThreadPoolExecutor`, t5x/infer.py:66-98.

The main thread calls `submit` and `shutdown` in any order and with any reaction to exceptions.  Task number i has the
outcome `outcome[i]`: `none` for a normal return, `some e` for an exception.  `finished i` records that the main thread
has seen task i finished; whether a task not yet seen finished is finished when it is polled is chosen by the schedule
(`done`), anew at every call.  Tasks always finish in the end (a blocking `future.exception()` returns); nobody cancels a future.
-/
namespace Verif.Executor

variable {E : Type}

/-- What the main thread may get: the exception of a task, or the `UnboundLocalError` of a local variable read before
its assignment. -/
inductive Exc (E : Type) | task (e : E) | unbound
deriving DecidableEq, Repr

/-- infer.py:73: the executor and its `_incomplete_futures`. -/
structure St (E : Type) where
  outcome : List (Option E)
  pending : List Nat
  finished : Nat → Bool

def St.empty : St E := ⟨[], [], fun _ => false⟩

/-- infer.py:77-85: the loop over the futures.  `exc` is the Python local `exception` (outer `none`: not assigned yet);
`still` the list `still_incomplete_futures`. -/
def checkLoop (wait : Bool) (done : Nat → Bool) (outcome : List (Option E)) :
    List Nat → Option (Option E) → List Nat → (Nat → Bool) → Except (Exc E) (List Nat) × (Nat → Bool)
  | [], _, still, fin => (.ok still, fin)
  | i :: rest, exc, still, fin =>
    -- `future.exception(timeout=0 if wait else None)`
    if wait = true ∧ fin i = false ∧ done i = false then
      match exc with
      | none => (.error .unbound, fin)
      | some (some e) => (.error (.task e), fin)
      | some none => checkLoop wait done outcome rest exc (still ++ [i]) fin
    else
      let fin := fun j => if j = i then true else fin j
      match (outcome[i]?).getD none with
      | some e => (.error (.task e), fin)
      | none => checkLoop wait done outcome rest (some none) still fin

/-- infer.py:74-87 `check_for_exceptions`. -/
def check (wait : Bool) (done : Nat → Bool) (s : St E) : Option (Exc E) × St E :=
  match checkLoop wait done s.outcome s.pending none [] s.finished with
  | (.ok still, fin) => (none, { s with pending := still, finished := fin })
  | (.error e, fin) => (some e, { s with finished := fin })

/-- What the main thread does: submit a task (with its outcome), or shut down. -/
inductive Op (E : Type)
  | submit (outcome : Option E)
  | shutdown (wait : Bool)

/-- infer.py:89-98.  The reply is the exception raised, if any.  (`super().shutdown` without `wait` waits for the tasks;
it raises nothing.) -/
def apply (op : Op E) (done : Nat → Bool) (s : St E) : Option (Exc E) × St E :=
  match op with
  | .submit o =>
    check false done { s with outcome := s.outcome ++ [o], pending := s.pending ++ [s.outcome.length] }
  | .shutdown wait => check wait done s

/-- A whole life of the executor: the replies. -/
def run : St E → List (Op E × (Nat → Bool)) → List (Option (Exc E))
  | _, [] => []
  | s, (op, done) :: ops => (apply op done s).1 :: run (apply op done s).2 ops

def final : St E → List (Op E × (Nat → Bool)) → St E
  | s, [] => s
  | s, (op, done) :: ops => final (apply op done s).2 ops

end Verif.Executor
