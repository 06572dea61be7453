import Verif.Model.InferEval
import Verif.Props.TrainInfer
/-
C132: what the inference evaluation during training gives.  Composes C36 (`infer_fn`) and C127 (the inference job).
-/
namespace Verif.InferEval
open Verif

variable {P M K Ax X Y Z W R : Type}

namespace Spec

/-- The key for the batch number `k`: the first half of the `k`-th second half. -/
def keyAt (split : K → K × K) (key : K) (k : Nat) : K := (split ((fun r => (split r).2)^[k] key)).1

/-- The evaluation of one state, on its own: decoding with the keys that follow from `PRNGKey(0)`, scoring without keys, metrics on the first host only. -/
def alone (u : Setup P M K Ax X Y Z W R) (host : Nat) (s : State P M) : R :=
  u.seqio (decide (host = 0)) s.step (Infer.inferFn u.shards u.batch fun k => u.predict s.params s.mutables (some (keyAt u.split u.key0 k)))
    (Infer.inferFn u.shards u.batch fun _ => u.score s.params s.mutables none)
    (Infer.inferFn u.shards u.batch fun k => u.predictAux s.params s.mutables (some (keyAt u.split u.key0 k)))

end Spec
open Spec

theorem stepKey_some (split : K → K × K) (key : K) (k : Nat) : stepKey split (some key) k = some (keyAt split key k) := by
  induction k generalizing key with
  | zero => rfl
  | succ k ih => rw [stepKey, ih]; rfl

theorem stepKey_none (split : K → K × K) (k : Nat) : stepKey split none k = none := by cases k <;> rfl

theorem evaluate_fits (u : Setup P M K Ax X Y Z W R) (ev : Option Ax) (host : Nat) (s : State P M) (a : Ax) (hev : ev = none ∨ ev = some a) (hs : u.fits a s.params = true) :
    evaluate u ev host s a = (some a, alone u host s) := by
  obtain rfl | rfl := hev <;>
    simp only [evaluate, inferFn, hs, if_true, stepKey_some, stepKey_none] <;> rfl

/-- **C132** (each evaluation on its own).  A program evaluates any number of states of one model with one evaluator.  What it gets for each is what a fresh
evaluator gives for it alone: no earlier evaluation, and not how many there were, has an effect; each uses the same random numbers. -/
theorem C132_alone (u : Setup P M K Ax X Y Z W R) (host : Nat) (a : Ax) (states : List (State P M)) (h : ∀ s ∈ states, u.fits a s.params = true) :
    evaluations u host none (states.map fun s => (s, a)) = states.map (alone u host) := by
  have key : ∀ (l : List (State P M)) (ev : Option Ax), (ev = none ∨ ev = some a) → (∀ s ∈ l, u.fits a s.params = true) →
      evaluations u host ev (l.map fun s => (s, a)) = l.map (alone u host) := by
    intro l
    induction l with
    | nil => intros; rfl
    | cons s l ih =>
      intro ev hev hl
      rw [List.map_cons, evaluations, evaluate_fits u ev host s a hev (hl s (List.mem_cons_self ..)), List.map_cons,
        ih (some a) (.inr rfl) fun s hs => hl s (List.mem_cons_of_mem _ hs)]
  exact key states none (.inl rfl) h

/-- **C132** (hosts).  All hosts evaluate the same functions on the same state, so that all of them take part in the same steps; only the first one computes
metrics.  (`seqio` here only tells what it is called with.) -/
theorem C132_hosts (u : Setup P M K Ax X Y Z W (Bool × Nat × (List X → Except Infer.Err (List (Int × Y))) × (List X → Except Infer.Err (List (Int × Z))) ×
      (List X → Except Infer.Err (List (Int × W))))) (hu : u.seqio = fun c n p s w => (c, n, p, s, w))
    (calls : List (State P M × Ax)) (host : Nat) :
    (evaluations u host none calls).map (·.2) = (evaluations u 0 none calls).map (·.2) ∧
      (evaluations u host none calls).map (·.1) = calls.map fun _ => decide (host = 0) := by
  have key : ∀ (calls : List (State P M × Ax)) (ev : Option Ax), (evaluations u host ev calls).map (·.2) = (evaluations u 0 ev calls).map (·.2) ∧
      (evaluations u host ev calls).map (·.1) = calls.map fun _ => decide (host = 0) := by
    intro calls
    induction calls with
    | nil => intro; exact ⟨rfl, rfl⟩
    | cons c calls ih =>
      intro ev
      obtain ⟨s, a⟩ := c
      have h1 : (evaluate u ev host s a).1 = (evaluate u ev 0 s a).1 := rfl
      refine ⟨?_, ?_⟩
      · rw [evaluations, evaluations, List.map_cons, List.map_cons, h1, (ih _).1]
        congr 1
        simp only [evaluate, hu]
      · rw [evaluations, List.map_cons, List.map_cons, (ih _).2]
        congr 1
        simp only [evaluate, hu]
  exact key calls none

/-- **C132** (a limit).  `train_state_axes` is looked at in the first call only.  A program that uses one evaluator for states with other trees of parameters,
each with its own axes, gets an error for the second one, which a fresh evaluator would evaluate. -/
theorem C132_first_axes (u : Setup P M K Ax X Y Z W R) (a b : Ax) (s t : State P M) (host : Nat) (hs : u.fits a s.params = true) (h1 : u.fits a t.params = false)
    (h2 : u.fits b t.params = true) :
    evaluations u host none [(s, a), (t, b)] =
        [alone u host s, u.seqio (decide (host = 0)) t.step (fun _ => .error .value) (fun _ => .error .value) (fun _ => .error .value)] ∧
      evaluations u host none [(t, b)] = [alone u host t] := by
  constructor
  · rw [evaluations, evaluate_fits u none host s a (.inl rfl) hs]
    simp only [evaluations, evaluate, inferFn, h1, Bool.false_eq_true, if_false]
  · rw [evaluations, evaluate_fits u none host t b (.inl rfl) h2]
    rfl

section
open Verif.StateDict Verif.TrainState Verif.SaveRestore Verif.TrainInfer Verif.TrainInfer.Spec
open Verif.JobFiles (Store Content prog)
open Verif.JobFiles.Spec (Fine Tmp History)
open Verif.Ckpt (ckptName pathJoin latestStep)
open Verif.TsPath (Str)
open Verif.TrainedJob (Codec comp)
open Verif.TrainedJob.Spec (GoodCodec Keeps batches)

variable {A T P O Mu σ B Row G RR Q KK : Type} [DecidableEq T] [Add KK] [One KK] [AddMonoid G] {α : Type} [LinearOrder α] [BoundedOrder α]
variable {c : Store A T} {kind : Kind} {u : TState (Option A)} {e : Codec A P O Mu} {cfg : Train.Cfg KK P G O Mu RR Row} {init : Train.State P O Mu}
  {pipe : DsCkpt.Pipe σ B} {seed : Nat} {glue : (Nat → Option B) → Train.Batch Row} {r : Reader A T}

theorem castAll_none (O : Ops A T) (d : Dict (Option A)) : castAll O none d = d := by
  unfold castAll
  generalize ([] : List Key) = pre
  induction d generalizing pre with
  | nil => rfl
  | leaf k x r ih => rw [mapL, ih]; cases x <;> rfl
  | sub k d r ihd ih => rw [mapL, ih, ihd]

/-- What the evaluator reads of the state of the trainer. -/
def evalState (s : Train.State P O Mu) : State P (Option Mu) := ⟨s.step, s.params, s.mutables⟩

/-- **C132** (during training and after).  A training job evaluates with the scores of the examples, each of which depends on the parameters and the example
only.  The job is killed and restarted as in C125; later an inference job, with its own batch size and number of shards, scores the same examples with the latest
checkpoint, without a cast.  Its output is what `score_fn` gave in the job (had it been evaluated in that step) and what it would give after training on the
first `k` batches without interruption. -/
theorem C132_offline (hc : Fine c) (hk : Keeps c kind u e cfg init) (he : GoodCodec e) (hr : Suits c u r) (hr' : r.dtype = none) {tmp : Str} (ht : Tmp c tmp) {n : Nat}
    (hrun : ∀ k, ∃ s, Train.Spec.run (Train.trainStep cfg) init (batches pipe seed glue n k) = .ok s)
    (acts : List (TrainJob.Act (Train.State P O Mu) σ (Content A T σ) α)) (h : History n acts) (N : Nat)
    (hs : latestStep (TrainJob.job (prog c (comp kind u e cfg init pipe seed glue) tmp) acts).fs = some N) (loc : Str)
    (hloc : TsPath.Spec.Dir (pathJoin loc (ckptName N)))
    -- the model
    (load : Dict (Option A) → Q) (score : Q → X → Z) (v : Setup P (Option Mu) K Ax X Y Z W R) (a : Ax)
    (hv : ∀ p m key b, v.score p m key b = b.map (score (load (e.encP p)))) (hfit : ∀ p, v.fits a p = true) (hb : 0 < v.batch) (hsh : v.shards ∣ v.batch)
    -- the inference job
    (shards batch : Nat) (hb' : 0 < batch) (hsh' : shards ∣ batch) (xs : List X) (hxs : xs ≠ []) :
    ∃ k s out out', N = init.step + k ∧ Train.Spec.run (Train.trainStep cfg) init (batches pipe seed glue n k) = .ok s ∧
      inferFn v a v.score xs (evalState s) none = .ok out ∧
      infer r loc load shards batch (fun q _ b => b.map (score q)) xs (TrainJob.job (prog c (comp kind u e cfg init pipe seed glue) tmp) acts).fs = some out' ∧
      Infer.extract out' = Infer.extract out := by
  obtain ⟨k, s, h1, h2, h3⟩ := C127_restore hc hk he hr ht hrun acts h N hs loc hloc
  have hA := Infer.C36_map v.shards v.batch hb hsh (score (load (e.encP s.params))) xs hxs
  have hB := Infer.C36_map shards batch hb' hsh' (score (load (e.encP s.params))) xs hxs
  cases ha : Infer.inferFn v.shards v.batch (fun _ b => b.map (score (load (e.encP s.params)))) xs with
  | error x => rw [ha] at hA; cases hA
  | ok out =>
    cases hb : Infer.inferFn shards batch (fun _ b => b.map (score (load (e.encP s.params)))) xs with
    | error x => rw [hb] at hB; cases hB
    | ok out' =>
      rw [ha] at hA
      rw [hb] at hB
      refine ⟨k, s, out, out', h1, h2, ?_, ?_, (Except.ok.inj hB).trans (Except.ok.inj hA).symm⟩
      · simp only [inferFn, hfit, if_true, hv]
        exact ha
      · unfold infer
        rw [h3]
        simp only
        rw [hr', castAll_none, hb]
        rfl

end

/-! ### Examples -/

section Examples
open Verif.TrainedJob Verif.TrainInfer Verif.JobFiles

/-- Two shards, batches of two; a "sampled" prediction depends on the key; scores are the parameter plus the example. -/
def exU : Setup Nat (Option Nat) Nat Bool Nat (Nat × Nat) Nat Nat (Bool × Nat × Except Infer.Err (List (Int × (Nat × Nat))) × Except Infer.Err (List (Int × Nat)) ×
    Except Infer.Err (List (Int × Nat))) where
  shards := 2
  batch := 2
  predict p _ key b := b.map fun x => (p * x, key.getD 0)
  predictAux p _ key b := b.map fun x => p * x + key.getD 0
  score p _ _ b := b.map (p + ·)
  fits a p := a || decide (p < 10)
  key0 := 5
  split r := (2 * r, 2 * r + 1)
  seqio c n p s w := (c, n, p [1, 2, 3], s [4, 5], w [7])

example : evaluations exU 0 none [(⟨3, 2, none⟩, true), (⟨6, 4, none⟩, true), (⟨3, 2, none⟩, true)] =
    [(true, 3, .ok [(0, (2, 10)), (1, (4, 10)), (2, (6, 22))], .ok [(0, 6), (1, 7)], .ok [(0, 24)]),
     (true, 6, .ok [(0, (4, 10)), (1, (8, 10)), (2, (12, 22))], .ok [(0, 8), (1, 9)], .ok [(0, 38)]),
     (true, 3, .ok [(0, (2, 10)), (1, (4, 10)), (2, (6, 22))], .ok [(0, 6), (1, 7)], .ok [(0, 24)])] := by rfl

example (host : Nat) : evaluations exU host none [(⟨3, 2, none⟩, true), (⟨6, 14, none⟩, true)] = [alone exU host ⟨3, 2, none⟩, alone exU host ⟨6, 14, none⟩] :=
  C132_alone exU host true [⟨3, 2, none⟩, ⟨6, 14, none⟩] (by decide)

/-- `exU` with a `seqio` that tells what it is called with. -/
example (host : Nat) (calls : List (State Nat (Option Nat) × Bool)) : let u := { exU with seqio := fun c n p s w => (c, n, p, s, w) }
    (evaluations u host none calls).map (·.2) = (evaluations u 0 none calls).map (·.2) :=
  (C132_hosts _ rfl calls host).1

example : evaluations exU 1 none [(⟨3, 2, none⟩, false), (⟨6, 14, none⟩, true)] =
    [alone exU 1 ⟨3, 2, none⟩, (false, 6, .error .value, .error .value, .error .value)] :=
  (C132_first_axes exU false true ⟨3, 2, none⟩ ⟨6, 14, none⟩ 1 rfl rfl rfl).1

/-- A job that was killed twice (C126): scoring with its latest checkpoint gives the scores of the evaluator. -/
example : ∃ k s out out', 5 = 0 + k ∧ Train.Spec.run (Train.trainStep exCfg) exInit (Verif.TrainedJob.Spec.batches exPipe 0 exGlue 2 k) = .ok s ∧
    inferFn exU true exU.score [7, 8, 9] (evalState s) none = .ok out ∧
    infer (exReader 3 (some 0) none) "gs://b".toList (fun d => ((exCod Nat Nat).decP d).getD 0) 3 6 (fun q _ b => b.map (q + ·)) [7, 8, 9]
      (TrainJob.job exProg (exActs _ _)).fs = some out' ∧ Infer.extract out' = Infer.extract out :=
  C132_offline (exSt_fine 0 _ _ exDir) (exSt_keeps 0 _ _ _ _ rfl fun _ _ _ m h => by simpa [exCfg] using h) (exCod_good _ _) (exReader_suits 0 3 _ _ _) rfl
    (exTmp_ok _ _) exRun (exActs _ _) (exActs_ok _) 5 exLatest "gs://b".toList (fun _ => by decide) _ (fun q x => q + x) exU true (fun _ _ _ _ => rfl) (fun _ => rfl)
    (by decide) (by decide) 3 6 (by decide) (by decide) [7, 8, 9] (by decide)

end Examples

end Verif.InferEval
