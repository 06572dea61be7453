import Verif.Common
/-
Model of t5x/checkpoints.py:424-442 `_BytesConditionVariable` and of its use in `_write_array`, 857-938.

Writers are coroutines on one event loop; the bodies of `wait_for_bytes` and `return_bytes` run under the lock,
so each is one atomic step.  A writer may take the step once its condition holds (`wait_for`); which writer
runs next is arbitrary.  The actual write between the two is not modelled except as the time between them.
-/
namespace Verif.Bytes

/-- Where a writer is: before wait_for_bytes returned, between, after return_bytes. -/
inductive Pc | waiting | holding | done
deriving DecidableEq, Repr

/-- checkpoints.py:427-430: the counter of a condition variable; `max` is fixed. -/
structure CV where
  max : ℕ
  avail : ℕ
deriving DecidableEq, Repr

/-- checkpoints.py:432-436 once `wait_for` is satisfied; none while it has to wait. -/
def waitForBytes (cv : CV) (n : ℕ) : Option CV := if cv.avail > n then some { cv with avail := cv.avail - n } else none

/-- checkpoints.py:438-442; none if the assertion fails. -/
def returnBytes (cv : CV) (n : ℕ) : Option CV :=
  if cv.avail + n ≤ cv.max then some { cv with avail := cv.avail + n } else none

/-- checkpoints.py:883-902: the number of bytes a writer asks for. -/
def request (limit size : ℕ) : ℕ := if size > limit then limit else size

/-- Condition variables by index, and the writers.  `cvOf i` is the variable writer i uses. -/
structure Sys where
  limit : ℕ
  sizes : List ℕ
  cvOf : ℕ → ℕ

structure State where
  cv : ℕ → CV
  pc : ℕ → Pc

def init (s : Sys) : State := ⟨fun _ => ⟨s.limit, s.limit⟩, fun _ => .waiting⟩

def setPc (f : ℕ → Pc) (i : ℕ) (p : Pc) : ℕ → Pc := fun j => if j = i then p else f j
def setCv (f : ℕ → CV) (i : ℕ) (c : CV) : ℕ → CV := fun j => if j = i then c else f j

/-- One step of writer i. -/
inductive Step (s : Sys) : State → State → Prop
  | acquire (st : State) (i n : ℕ) (c : CV) (hi : s.sizes[i]? = some n) (hp : st.pc i = .waiting)
      (hc : waitForBytes (st.cv (s.cvOf i)) (request s.limit n) = some c) :
      Step s st ⟨setCv st.cv (s.cvOf i) c, setPc st.pc i .holding⟩
  | release (st : State) (i n : ℕ) (c : CV) (hi : s.sizes[i]? = some n) (hp : st.pc i = .holding)
      (hc : returnBytes (st.cv (s.cvOf i)) (request s.limit n) = some c) :
      Step s st ⟨setCv st.cv (s.cvOf i) c, setPc st.pc i .done⟩

/-- Executions, with their number of steps. -/
inductive Run (s : Sys) : ℕ → State → Prop
  | zero : Run s 0 (init s)
  | succ (n : ℕ) (a b : State) : Run s n a → Step s a b → Run s (n + 1) b

/-- checkpoints.py:873: `_write_array` makes a new condition variable in every call. -/
def code (limit : ℕ) (sizes : List ℕ) : Sys := ⟨limit, sizes, fun i => i⟩

/-- What the docstring of `concurrent_gb` describes: one variable for all writers. -/
def shared (limit : ℕ) (sizes : List ℕ) : Sys := ⟨limit, sizes, fun _ => 0⟩

end Verif.Bytes
