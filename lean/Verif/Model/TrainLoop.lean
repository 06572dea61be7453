/-
Model of the control flow of `/repo/t5x/train.py:train` (lines 96-812) together
with `find_first_checkpoint_step` / `find_next_checkpoint_step` of
`/repo/t5x/utils.py`.

Modelled: which step ranges are handed to `trainer.train`, at which steps
`checkpoint_manager.save` and the two evaluations are called, in which order,
how the stop flag travels, and every exception on that path.
Not modelled here: data loading, compilation, logging, timing, garbage
collection calls, and the numerical content of the train state.
-/
namespace Verif.TrainLoop

/-- Exceptions that leave `train`. -/
inductive Err where
  /-- `ValueError`: periods are not multiples of each other, train.py:414-426. -/
  | badPeriods
  /-- `ValueError`: total_steps < first_step, train.py:592-596. -/
  | totalBelowFirst
  /-- `% 0` / `% None` in `find_next_checkpoint_step` (ZeroDivisionError / TypeError). -/
  | badModulus
  /-- `IndexError` on `checkpoint_steps[...]`. -/
  | indexError
  /-- `trainer.train` over an empty range: the metrics are `None`, and
  `write_metrics_summary` fails with `None.items()` (trainer.py:557-579, 424). -/
  | noMetrics
  /-- `PreemptionError`, re-raised on train.py:748-757. -/
  | preempted
  deriving DecidableEq, Repr

inductive Event where
  /-- `trainer.train(train_iter, n, start_step=start)` ran the steps
  `start, …, start+n-1`. -/
  | train (start n : Nat)
  /-- `checkpoint_manager.save(trainer.train_state)`; `step` is the step stored in
  that train state. -/
  | save (step : Nat)
  | trainEval (step : Nat)
  | inferEval (step : Nat)
  deriving DecidableEq, Repr

/-- The arguments of `train` that drive the schedule. `0` stands for a falsy
period (`None` or `0`); an absent `checkpoint_steps` is `[]`. -/
structure Cfg where
  totalSteps : Nat
  relativeSteps : Nat := 0
  evalPeriod : Nat := 0
  checkpointPeriod : Nat := 0
  gcPeriod : Nat := 0
  statsPeriod : Nat := 0
  checkpointSteps : List Nat := []
  /-- `checkpoint_manager` is not `None`. -/
  manager : Bool := true
  /-- Orbax is used and the restored step is already in `all_steps()`. -/
  alreadySaved : Bool := false
  /-- `train_eval_datasets` is non-empty. -/
  hasTrainEval : Bool := false
  /-- `evaluator is not None`. -/
  hasInferEval : Bool := false
  concurrentMetrics : Bool := false
  runEvalBeforeTraining : Bool := false

/-- What the outside answers: the results of `run_actions` in the three modes
after reaching a step, and whether `trainer.train` raises `PreemptionError` when
called at a step. -/
structure Env where
  trainStop : Nat → Bool := fun _ => false
  trainEvalStop : Nat → Bool := fun _ => false
  inferEvalStop : Nat → Bool := fun _ => false
  preempt : Nat → Bool := fun _ => false

/-- The mutable variables of `train`: `host_step`, the step inside
`trainer.train_state`, `checkpoint_steps_index`, `trainer.stop_training`, and the
chronological list of observable events. -/
structure St where
  host : Nat
  trained : Nat
  idx : Nat := 0
  stop : Bool := false
  events : List Event := []

/-- `find_first_checkpoint_step`, utils.py:2353-2382.  The `while` loop runs at
most `len(checkpoint_steps)` times; `fuel` is that bound. -/
def findFirstGo (steps : List Nat) (first host : Nat) : Nat → Nat → Nat
  | 0, idx => idx
  | fuel + 1, idx =>
    if idx < steps.length - 1 ∧ (host > steps.getD idx 0 ∨ steps.getD idx 0 = first) then
      findFirstGo steps first host fuel (idx + 1)
    else idx

def findFirst (idx : Nat) (steps : List Nat) (first host : Nat) : Nat :=
  findFirstGo steps first host steps.length idx

/-- The loop of `find_next_checkpoint_step`, utils.py:2325-2350, over the
entries from the current index on.  `is_checkpoint_step` is `False` at the only
call site.  `period = 0` is a falsy `checkpoint_period`, on which Python's `%`
raises. -/
def findNextGo (inner host epochEnd period first : Nat) : List Nat → Except Err (Int × Bool)
  | [] => .error .indexError
  | cur :: rest =>
    if inner + host ≥ cur then
      if period = 0 then .error .badModulus
      else if ((cur : Int) - first) % period ≠ 0 ∧ cur > first ∧ cur ≤ epochEnd then
        .ok ((cur : Int) - host, true)
      else if rest = [] then .ok (inner, false)
      else findNextGo inner host epochEnd period first rest
    else .ok (inner, false)

/-- `find_next_checkpoint_step`, utils.py:2284-2350. -/
def findNext (idx inner host : Nat) (steps : List Nat) (epochEnd period first : Nat) :
    Except Err (Int × Bool) :=
  if steps = [] then .ok (inner, false)
  else findNextGo inner host epochEnd period first (steps.drop idx)

/-- One iteration of the `while host_step < epoch_end_step` loop,
train.py:692-746, once the stop flag has been found unset. -/
def block (c : Cfg) (env : Env) (total stats first epochEnd : Nat) (st : St) :
    Except (Err × St) St :=
  let inner := min (epochEnd - st.host) stats
  let idx := findFirst st.idx c.checkpointSteps first st.host
  match findNext idx inner st.host c.checkpointSteps epochEnd c.checkpointPeriod first with
  | .error e => .error (e, { st with idx := idx })
  | .ok (inner, isCkpt) =>
    let isCkpt := if (st.host : Int) + inner = total then false else isCkpt
    if env.preempt st.host then
      -- emergency checkpoint, train.py:748-757: `trainer.train` assigns
      -- `trainer.train_state` only when its loop has finished (trainer.py:570),
      -- so the state saved is the one from before the interrupted block
      .error (.preempted, { st with
        idx := idx
        events := if c.checkpointPeriod ≠ 0 ∧ c.manager then st.events ++ [.save st.trained]
                  else st.events })
    else if inner ≤ 0 then
      -- `range(start, start+inner)` is empty
      .error (.noMetrics, { st with idx := idx })
    else
      let n := inner.toNat
      let trained := st.trained + n
      let stop := if c.concurrentMetrics then st.stop else env.trainStop (st.host + n)
      let events := st.events ++ [.train st.host n]
      let (events, idx) :=
        if isCkpt ∧ c.manager then
          (events ++ [.save trained], if idx < c.checkpointSteps.length - 1 then idx + 1 else idx)
        else (events, idx)
      .ok { host := st.host + n, trained := trained, idx := idx, stop := stop, events := events }

/-- The `while host_step < epoch_end_step` loop, train.py:680-746.  Each
iteration that does not raise advances `host_step`; `fuel` bounds the number of
iterations and is at least `epoch_end_step - host_step` at the call site. -/
def innerLoop (c : Cfg) (env : Env) (total stats first epochEnd : Nat) :
    Nat → St → Except (Err × St) St
  | 0, st => .ok st
  | fuel + 1, st =>
    if st.host < epochEnd then
      if st.stop then
        -- "Saving a checkpoint before early stopping", train.py:681-691
        .ok (if c.checkpointPeriod ≠ 0 ∧ c.manager then
          { st with events := st.events ++ [.save st.trained] } else st)
      else
        match block c env total stats first epochEnd st with
        | .error e => .error e
        | .ok st' => innerLoop c env total stats first epochEnd fuel st'
    else .ok st

/-- `_run_training_eval`, train.py:501-522. -/
def runTrainingEval (env : Env) (st : St) : St :=
  { st with events := st.events ++ [.trainEval st.host], stop := env.trainEvalStop st.host }

/-- `_run_inference_eval`, train.py:524-542: the actions run only when metrics
are not concurrent. -/
def runInferenceEval (c : Cfg) (env : Env) (st : St) : St :=
  { st with
    events := st.events ++ [.inferEval st.host]
    stop := if c.concurrentMetrics then st.stop else env.inferEvalStop st.host }

/-- Everything after the inner loop of one epoch, train.py:759-800.
`evalPeriod` has already been set to 0 when evaluation is disabled. -/
def afterEpoch (c : Cfg) (env : Env) (evalPeriod first : Nat) (finalEpoch : Bool) (st : St) : St :=
  let stepOffset := st.host - first
  let st := if c.checkpointPeriod ≠ 0 ∧ (finalEpoch ∨ stepOffset % c.checkpointPeriod = 0) ∧ c.manager
    then { st with events := st.events ++ [.save st.trained] } else st
  let isEvalEpoch := evalPeriod ≠ 0 ∧ (finalEpoch ∨ stepOffset % evalPeriod = 0)
  let st := if isEvalEpoch ∧ c.hasTrainEval then runTrainingEval env st else st
  if isEvalEpoch ∧ c.hasInferEval then runInferenceEval c env st else st

/-- The loop over epochs, train.py:666-800.  `k` is `epoch - first_epoch`, and
`left` is the number of epochs still to run, so the epoch is final iff
`left = 1`. -/
def epochLoop (c : Cfg) (env : Env) (total stats spe evalPeriod first : Nat) :
    Nat → Nat → St → Except (Err × St) St
  | 0, _, st => .ok st
  | left + 1, k, st =>
    if st.stop then .ok st
    else
      let epochEnd := min total (first + spe * (k + 1))
      match innerLoop c env total stats first epochEnd (epochEnd - st.host) st with
      | .error e => .error e
      | .ok st' =>
        epochLoop c env total stats spe evalPeriod first left (k + 1)
          (afterEpoch c env evalPeriod first (left = 0) st')

/-- Minimum of the non-zero periods, train.py:407-410
(`min(eval_period or np.inf, …)`), `0` if all are falsy. -/
def minPeriod (a b c : Nat) : Nat :=
  let m (x y : Nat) := if x = 0 then y else if y = 0 then x else min x y
  m (m a b) c

/-- The restored or initial step is `first`; model of `train`,
train.py:207-220 and 402-812 as far as the schedule is concerned. -/
def train (c : Cfg) (env : Env) (first : Nat) : Except (Err × St) St :=
  -- train.py:211-212
  let evalPeriod := if c.hasTrainEval ∨ c.hasInferEval then c.evalPeriod else 0
  -- train.py:404-405
  let total := if c.relativeSteps ≠ 0 then first + c.relativeSteps else c.totalSteps
  -- train.py:407-413
  let mp := minPeriod evalPeriod c.checkpointPeriod c.gcPeriod
  let spe := if mp ≠ 0 then mp else total
  let stats := if c.statsPeriod ≠ 0 then c.statsPeriod else spe
  let st0 : St := { host := first, trained := first }
  -- train.py:414-426 (when a period is non-zero, spe is non-zero too)
  if evalPeriod % spe ≠ 0 ∨ c.checkpointPeriod % spe ≠ 0 ∨ c.gcPeriod % spe ≠ 0 then
    .error (.badPeriods, st0)
  else
    -- train.py:547-553
    let st1 := if c.runEvalBeforeTraining ∧ c.hasTrainEval then runTrainingEval env st0 else st0
    let st1 := if c.runEvalBeforeTraining ∧ c.hasInferEval then runInferenceEval c env st1 else st1
    -- train.py:555-572
    let st1 := if c.checkpointPeriod ≠ 0 ∧ c.manager ∧ ¬ c.alreadySaved then
      { st1 with events := st1.events ++ [.save st1.trained] } else st1
    -- train.py:590-605
    if total < first then .error (.totalBelowFirst, st1)
    else if total = first then .ok st1
    else
      -- train.py:609-613; `num_epochs - first_epoch = ceil((total-first)/spe)`
      let spe := min spe total
      let numEpochs := (total - first + spe - 1) / spe
      epochLoop c env total stats spe evalPeriod first numEpochs 0 st1

end Verif.TrainLoop
