import Verif.Model.Metrics
/-
One training step and the inner training loop: t5x/trainer.py:524-579, 704-950, 1018-1040, t5x/train_state.py:188-194.

`lossGrad params batch rng mutables` stands for `jax.value_and_grad(model.loss_fn, has_aux=True)`: it returns the
metrics, the new mutables and the gradient.  Gradients are an additive monoid (exact sums).  Mutables are `none` when
empty.  Sharding annotations, profiling, logging and timers are left out.
-/
namespace Verif.Train
open Verif.Metrics

inductive Err | stopIteration | assertion | slice | merge (e : Metrics.Err)
deriving DecidableEq, Repr

/-- A batch: feature name → rows (one per example). -/
abbrev Batch (Row : Type) := List (List Char × List Row)

/-- `jax.lax.dynamic_slice` on the leading axis: the size must fit, the start is clamped. -/
def dynamicSlice {Row : Type} (rows : List Row) (start size : Nat) : Except Err (List Row) :=
  if size > rows.length then .error .slice
  else .ok ((rows.drop (min start (rows.length - size))).take size)

/-- trainer.py:765-774 `get_microbatch`. -/
def getMicrobatch {Row : Type} (size : Nat) (idx : Nat) : Batch Row → Except Err (Batch Row)
  | [] => .ok []
  | (k, rows) :: b =>
    match dynamicSlice rows (idx * size) size, getMicrobatch size idx b with
    | .ok r, .ok rs => .ok ((k, r) :: rs)
    | .error e, _ => .error e
    | _, .error e => .error e

variable {K P G O Mu R Row : Type}

/-- The type of the differentiated loss. -/
abbrev LossGrad (K P G Mu R Row : Type) := P → Batch Row → R → Option Mu → Metrics.Dict K × Option Mu × G

/-- Loop state of the accumulation: gradient, metrics, mutables (trainer.py:810). -/
structure Accum (K G Mu : Type) where
  grad : G
  metrics : Metrics.Dict K
  mutables : Option Mu
deriving DecidableEq, Repr

/-- trainer.py:776-822, iteration `i`.  The split rng of line 777 is local to `metrics_and_grad`; the loop carries
the unsplit `rng` on. -/
def microStep [Add K] [Add G] (split : R → R × R) (f : LossGrad K P G Mu R Row) (params : P) (batch : Batch Row)
    (size : Nat) (rng : R) (i : Nat) (s : Accum K G Mu) : Except Err (R × Accum K G Mu) :=
  match getMicrobatch size i batch with
  | .error e => .error e
  | .ok mb =>
    let r := f params mb (split rng).2 s.mutables
    if i = 0 then .ok (rng, ⟨s.grad + r.2.2, r.1, r.2.1⟩)
    else
      match mergeDict s.metrics r.1 with
      | .ok m => .ok (rng, ⟨s.grad + r.2.2, m, r.2.1⟩)
      | .error e => .error (.merge e)

/-- The fori_loop of trainer.py:846-848: iterations `i .. i + n - 1`. -/
def microLoop [Add K] [Add G] (split : R → R × R) (f : LossGrad K P G Mu R Row) (params : P) (batch : Batch Row)
    (size : Nat) : Nat → Nat → R → Accum K G Mu → Except Err (Accum K G Mu)
  | 0, _, _, s => .ok s
  | n + 1, i, rng, s =>
    match microStep split f params batch size rng i s with
    | .error e => .error e
    | .ok (rng, s) => microLoop split f params batch size n (i + 1) rng s

/-- trainer.py:704-852.  `n` is num_microbatches; the initial metrics (zeros) are never read. -/
def accumulate [Add K] [AddMonoid G] (split : R → R × R) (f : LossGrad K P G Mu R Row) (params : P) (mutables : Option Mu)
    (batch : Batch Row) (rng : R) (n : Option Nat) : Except Err (Accum K G Mu) :=
  match batch with
  | [] => .error .stopIteration
  | (_, rows) :: _ =>
    match n with
    | none => let r := f params batch rng mutables; .ok ⟨r.2.2, r.1, r.2.1⟩
    | some n =>
      if n ≤ 1 then let r := f params batch rng mutables; .ok ⟨r.2.2, r.1, r.2.1⟩
      else if rows.length % n ≠ 0 then .error .assertion
      else microLoop split f params batch (rows.length / n) n 0 rng ⟨0, [], mutables⟩

/-- A train state (train_state.py:115-194): step, parameters, optimizer state, mutables. -/
structure State (P O Mu : Type) where
  step : Nat
  params : P
  opt : O
  mutables : Option Mu
deriving DecidableEq, Repr

/-- What a Trainer is constructed with (trainer.py:969-1016).  `update` is the optimizer (it may read the step),
`foldIn` is jax.random.fold_in, `weightMetrics` is the optional WeightMetricsComputer. -/
structure Cfg (K P G O Mu R Row : Type) where
  lossGrad : LossGrad K P G Mu R Row
  update : K → Nat → P → O → G → P × O
  lr : Nat → K
  foldIn : R → Nat → R
  split : R → R × R
  baseRng : R
  microbatches : Option Nat
  weightMetrics : G → P → P → Metrics.Dict K

/-- train_state.py:188-194 with the optimizers' step + 1 (optimizers.py:423-425, 741; adafactor.py): the mutables are
replaced by what is passed, by default nothing. -/
def applyGradient (c : Cfg K P G O Mu R Row) (s : State P O Mu) (g : G) (lr : K) (mu : Option Mu) : State P O Mu :=
  let r := c.update lr s.step s.params s.opt g
  ⟨s.step + 1, r.1, r.2, mu⟩

/-- trainer.py:855-896, 920-950, 1020-1030: one train step. -/
def trainStep [Add K] [One K] [AddMonoid G] (c : Cfg K P G O Mu R Row) (s : State P O Mu) (batch : Batch Row) :
    Except Err (State P O Mu × Metrics.Dict K) :=
  match accumulate c.split c.lossGrad s.params s.mutables batch (c.foldIn c.baseRng s.step) c.microbatches with
  | .error e => .error e
  | .ok a =>
    let s' := applyGradient c s a.grad (c.lr s.step) a.mutables
    .ok (s', a.metrics ++ [("learning_rate".toList, .average (c.lr s.step) 1), ("learning_rate/current".toList, .last (c.lr s.step))] ++
      c.weightMetrics a.grad s.params s'.params)

/-- trainer.py:565-568: `if metrics: merge else take`. -/
def addMetrics [Add K] (m : Option (Metrics.Dict K)) (u : Metrics.Dict K) : Except Err (Metrics.Dict K) :=
  match m with
  | none => .ok u
  | some [] => .ok u
  | some m =>
    match mergeDict m u with
    | .ok r => .ok r
    | .error e => .error (.merge e)

/-- trainer.py:558-568, the loop.  Also returns what is left of the iterator. -/
def trainLoop {B S M : Type} (step : S → B → Except Err (S × M)) (add : Option M → M → Except Err M) :
    Nat → S → Option M → List B → List B × Except Err (S × Option M)
  | 0, s, m, bs => (bs, .ok (s, m))
  | _ + 1, _, _, [] => ([], .error .stopIteration)
  | n + 1, s, m, b :: bs =>
    match step s b with
    | .error e => (bs, .error e)
    | .ok (s, u) =>
      match add m u with
      | .error e => (bs, .error e)
      | .ok m => trainLoop step add n s (some m) bs

/-- trainer.py:537-579 `train`: new trainer state, rest of the iterator, metrics (before the summary) and the step
they are written for.  The trainer's state is only replaced at the end of the loop (570). -/
def train {B S M : Type} (step : S → B → Except Err (S × M)) (add : Option M → M → Except Err M) (stepOf : S → Nat)
    (s : S) (bs : List B) (numSteps : Nat) (startStep : Option Nat) :
    S × List B × Except Err (Option M × Nat) :=
  let r := trainLoop step add numSteps s none bs
  match r.2 with
  | .error e => (s, r.1, .error e)
  | .ok (s', m) => (s', r.1, .ok (m, startStep.getD (stepOf s) + numSteps))

/-- Interruptions of a training job (train.py:300-392, 700-760).  `cur` is the running state with the number of
batches read from the data set, `saved` the latest checkpoint: the saved form of the state and of the position. -/
structure Job (S C : Type) where
  cur : S × Nat
  saved : Option (C × Nat)

inductive Event
  | train (n : Nat)
  | save
  | restart
deriving DecidableEq, Repr

/-- `steps n (s, k)`: n steps with batches k, k + 1, … of the data set. -/
def steps {S B : Type} (step : S → B → S) (ds : Nat → B) : Nat → S × Nat → S × Nat
  | 0, x => x
  | n + 1, x => steps step ds n (step x.1 (ds x.2), x.2 + 1)

/-- What a job goes through.  A restart (after a crash or a preemption at any time) begins from the latest checkpoint
in model_dir, or from scratch when there is none (train.py:302-392); the data set begins where the checkpoint says if
`save_dataset` is set (train.py:323-326, checkpoints.py:798, 1145-1149), and at its beginning otherwise.  `enc` and `dec`
are saving and restoring of a train state. -/
def event {S C B : Type} (step : S → B → S) (ds : Nat → B) (enc : S → C) (dec : C → S) (init : S) (saveDataset : Bool) :
    Job S C → Event → Job S C
  | j, .train n => { j with cur := steps step ds n j.cur }
  | j, .save => { j with saved := some (enc j.cur.1, j.cur.2) }
  | j, .restart =>
    { j with cur := match j.saved with
        | some (c, k) => (dec c, if saveDataset then k else 0)
        | none => (init, 0) }

def job {S C B : Type} (step : S → B → S) (ds : Nat → B) (enc : S → C) (dec : C → S) (init : S) (saveDataset : Bool)
    (es : List Event) : Job S C :=
  es.foldl (event step ds enc dec init saveDataset) ⟨(init, 0), none⟩

end Verif.Train
