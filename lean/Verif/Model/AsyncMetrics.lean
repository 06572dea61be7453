import Verif.Common
/-
The threads behind the training metrics: `_AsyncTimer` (`/repo/t5x/trainer.py`, lines 235-287) and `MetricsManager.write_scalars`,
`start_duration_timer`, `write_metrics_summary` and `flush` (lines 369-443).

The main thread makes calls; two thread pools with one worker each, the timer's and the summaries', run the submitted tasks in the
order of submission.  The model is a transition system: between any two steps the other threads, the clock and the devices may go on.
A future is the number of its task in its pool; its result is there once the worker has got past that task.

Simplifications: the values waited for never fail (a deleted buffer counts as ready, lines 259-270); the values written are reduced to
what this module sets, the step, `num_steps` and the duration; logging is dropped.  `asynclib.Pool` with `max_workers=1` is taken from
its documentation: tasks run one at a time in the order of submission, `join` waits for all of them.
-/
namespace Verif.AsyncMetrics

/-- Calls of the main thread; `τ` are values computed on devices. -/
inductive Call (τ : Type) where
  | start (on : τ)                       -- start_duration_timer(block_on)
  | summary (metrics : τ) (step n : Nat) -- write_metrics_summary(metrics, step, num_steps)
  | scalars (step : Nat)                 -- write_scalars(step, ...)
  | flush

/-- Tasks of the timer's pool. -/
inductive Task (τ : Type) where
  | completion (on : τ)            -- `_get_completion_time`, lines 256-271
  | difference (start stop : Nat)  -- line 287: `stop_future.result() - start_future.result()`

/-- Tasks of the summary pool: `_summarize_and_write`, lines 407-434. -/
structure SumTask (τ : Type) where
  duration : Nat
  metrics : τ
  step : Nat
  n : Nat

/-- What has been written. -/
inductive Entry where
  | summary (step n : Nat) (duration : Int)
  | scalars (step : Nat)
deriving DecidableEq

/-- Where the main thread is: between calls, inside `stop` after its first submission (lines 284-286), inside `write_metrics_summary`
after `stop` (line 405), or after the ValueError of line 282. -/
inductive Pc (τ : Type) where
  | idle
  | stopped (start stop : Nat) (metrics : τ) (step n : Nat)
  | timed (duration : Nat) (metrics : τ) (step n : Nat)
  | raised

structure State (τ : Type) where
  calls : List (Call τ)
  pc : Pc τ
  startFuture : Option Nat       -- `self._start_future`
  tasks : List (Task τ)          -- submitted to the timer's pool
  results : List Int             -- results of its first tasks
  sums : List (SumTask τ)        -- submitted to the summary pool
  done : Nat                     -- how many of them are finished
  written : List Entry
  now : Int
  readyAt : τ → Option Int       -- when a value became ready

variable {τ : Type}

/-- The manager before the first call. -/
def init (calls : List (Call τ)) (t0 : Int) : State τ := ⟨calls, .idle, none, [], [], [], 0, [], t0, fun _ => none⟩

/-- One step of the main thread. -/
inductive Main : State τ → State τ → Prop
  /-- `start`, lines 275-277. -/
  | start {s on cs} : s.calls = .start on :: cs → s.pc = .idle →
      Main s { s with calls := cs, tasks := s.tasks ++ [.completion on], startFuture := some s.tasks.length }
  /-- `stop` without `start`, lines 281-282 of `stop`. -/
  | raise {s m k n cs} : s.calls = .summary m k n :: cs → s.pc = .idle → s.startFuture = none →
      Main s { s with calls := cs, pc := .raised }
  /-- `stop`, lines 284-286. -/
  | stop {s m k n cs a} : s.calls = .summary m k n :: cs → s.pc = .idle → s.startFuture = some a →
      Main s { s with calls := cs, pc := .stopped a s.tasks.length m k n, startFuture := none, tasks := s.tasks ++ [.completion m] }
  /-- `stop`, line 287. -/
  | difference {s a b m k n} : s.pc = .stopped a b m k n →
      Main s { s with pc := .timed s.tasks.length m k n, tasks := s.tasks ++ [.difference a b] }
  /-- Line 436. -/
  | submit {s d m k n} : s.pc = .timed d m k n → Main s { s with pc := .idle, sums := s.sums ++ [⟨d, m, k, n⟩] }
  /-- `write_scalars`, lines 369-376. -/
  | scalars {s k cs} : s.calls = .scalars k :: cs → s.pc = .idle →
      Main s { s with calls := cs, written := s.written ++ [.scalars k] }
  /-- `flush`, lines 438-443: waits for the summary pool. -/
  | flush {s cs} : s.calls = .flush :: cs → s.pc = .idle → s.done = s.sums.length → Main s { s with calls := cs }

/-- One task of a worker thread. -/
inductive Worker : State τ → State τ → Prop
  /-- Lines 256-271: wait for the value, then take the time. -/
  | completion {s on r} : s.tasks[s.results.length]? = some (.completion on) → s.readyAt on = some r →
      Worker s { s with results := s.results ++ [s.now] }
  /-- Line 287: `result()` waits for the futures. -/
  | difference {s a b x y} : s.tasks[s.results.length]? = some (.difference a b) → s.results[a]? = some x → s.results[b]? = some y →
      Worker s { s with results := s.results ++ [y - x] }
  /-- Lines 407-434: fetch the metrics, wait for the duration, write. -/
  | summary {s q r x} : s.sums[s.done]? = some q → s.readyAt q.metrics = some r → s.results[q.duration]? = some x →
      Worker s { s with done := s.done + 1, written := s.written ++ [.summary q.step q.n x] }

/-- The clock goes on; a value becomes ready. -/
inductive Env : State τ → State τ → Prop
  | tick {s} (d : Nat) : Env s { s with now := s.now + d }
  | ready {s f} (t : τ) : s.readyAt t = none → f t = some s.now → (∀ u, u ≠ t → f u = s.readyAt u) → Env s { s with readyAt := f }

/-- Any step of any thread. -/
inductive Step (s s' : State τ) : Prop
  | main (h : Main s s')
  | worker (h : Worker s s')
  | env (h : Env s s')

/-- The states the program can reach, under every schedule. -/
inductive Reachable (calls : List (Call τ)) (t0 : Int) : State τ → Prop
  | init : Reachable calls t0 (init calls t0)
  | step {s s'} : Reachable calls t0 s → Step s s' → Reachable calls t0 s'

end Verif.AsyncMetrics
