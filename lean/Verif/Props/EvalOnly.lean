import Verif.Model.EvalOnly
import Verif.Props.TrainLoop
/-
Property theorems for runs of the training script that only evaluate (C136).
-/
namespace Verif.TrainLoop
open Verif.TrainLoop.Spec

/-- The periods pass the check of `train`: the smallest one divides the others, or there is none. -/
def PeriodsFit (c : Cfg) : Prop :=
  (∃ m, Compatible c m) ∨ ((c.hasTrainEval = true ∨ c.hasInferEval = true → c.evalPeriod = 0) ∧ c.checkpointPeriod = 0 ∧ c.gcPeriod = 0)

/-- What a run without training does: the evaluations asked for, then the checkpoint before training. -/
def beforeTraining (c : Cfg) (first : Nat) : List Event :=
  (if c.runEvalBeforeTraining = true ∧ c.hasTrainEval = true then [.trainEval first] else []) ++
  (if c.runEvalBeforeTraining = true ∧ c.hasInferEval = true then [.inferEval first] else []) ++
  (if c.checkpointPeriod ≠ 0 ∧ c.manager = true ∧ c.alreadySaved = false then [.save first] else [])

theorem startSt_events (c : Cfg) (env : Env) (first : Nat) :
    (startSt c env first).events = beforeTraining c first ∧ (startSt c env first).host = first ∧ (startSt c env first).trained = first := by
  unfold startSt beforeTraining
  cases c.runEvalBeforeTraining <;> cases c.hasTrainEval <;> cases c.hasInferEval <;> cases c.alreadySaved <;> cases c.manager <;>
    by_cases h : c.checkpointPeriod = 0 <;> simp [h, runTrainingEval, runInferenceEval]

theorem train_short (c : Cfg) (env : Env) (first : Nat) (hp : PeriodsFit c) (h : totalOf c first ≤ first) :
    train c env first = if totalOf c first < first then .error (.totalBelowFirst, startSt c env first) else .ok (startSt c env first) := by
  rcases hp with ⟨m, hm⟩ | ⟨h1, h2, h3⟩
  · rw [train_eq c env first m hm]
    by_cases a : totalOf c first < first
    · rw [if_pos a, if_pos a]
    · rw [if_neg a, if_neg a, if_pos (by omega)]
  · have he : (if c.hasTrainEval = true ∨ c.hasInferEval = true then c.evalPeriod else 0) = 0 := by
      split_ifs with hh
      · exact h1 hh
      · rfl
    have ht : train c env first = if totalOf c first < first then .error (.totalBelowFirst, startSt c env first)
        else if totalOf c first = first then .ok (startSt c env first) else
          epochLoop c env (totalOf c first) (if c.statsPeriod ≠ 0 then c.statsPeriod else totalOf c first) (min (totalOf c first) (totalOf c first)) 0 first
            ((totalOf c first - first + min (totalOf c first) (totalOf c first) - 1) / min (totalOf c first) (totalOf c first)) 0 (startSt c env first) := by
      have hmp : minPeriod 0 c.checkpointPeriod c.gcPeriod = 0 := by rw [h2, h3]; rfl
      unfold train
      simp only [he, hmp]
      rw [if_neg (by simp [h2, h3])]
      rfl
    rw [ht]
    by_cases a : totalOf c first < first
    · rw [if_pos a, if_pos a]
    · rw [if_neg a, if_neg a, if_pos (by omega)]

/-- C136: if `total_steps` is the step of the checkpoint, `train` makes the evaluations asked for with `run_eval_before_training`, saves the state before training if
checkpoints are wanted, and returns that state without a step of training, whatever actions and preemptions there are. -/
theorem C136_only_evaluates (c : Cfg) (env : Env) (first : Nat) (hp : PeriodsFit c) (h : totalOf c first = first) :
    ∃ st, train c env first = .ok st ∧ st.host = first ∧ st.trained = first ∧ st.events = beforeTraining c first := by
  obtain ⟨e1, e2, e3⟩ := startSt_events c env first
  refine ⟨startSt c env first, ?_, e2, e3, e1⟩
  rw [train_short c env first hp h.le, if_neg (by omega)]

/-- C136 (too few steps): if `total_steps` is below the step of the checkpoint, `train` fails with a ValueError, but only after it made the evaluations and saved the state. -/
theorem C136_too_late (c : Cfg) (env : Env) (first : Nat) (hp : PeriodsFit c) (h : totalOf c first < first) :
    ∃ st, train c env first = .error (.totalBelowFirst, st) ∧ st.host = first ∧ st.trained = first ∧ st.events = beforeTraining c first := by
  obtain ⟨e1, e2, e3⟩ := startSt_events c env first
  refine ⟨startSt c env first, ?_, e2, e3, e1⟩
  rw [train_short c env first hp h.le, if_pos h]

/-- C136 (relative steps): with `relative_steps` neither case can occur, so that a run with it never only evaluates. -/
theorem C136_relative (c : Cfg) (first : Nat) (h : c.relativeSteps ≠ 0) : first < totalOf c first := by
  rw [totalOf, if_pos h]; omega

/-- C136 (the script of the interactive model): the configuration that it writes for evaluation makes no inference evaluation.  For a fresh model it evaluates and ends; for
every checkpoint with a step above 0 the run evaluates, saves a checkpoint into the model directory, and then fails with a ValueError. -/
theorem C136_script (period : Nat) (hasTrainEval alreadySaved : Bool) (env : Env) (first : Nat) :
    ∃ st, train (evalScript period hasTrainEval alreadySaved) env first = (if first = 0 then .ok st else .error (.totalBelowFirst, st)) ∧
      st.events = (if hasTrainEval then [.trainEval first] else []) ++ (if period ≠ 0 ∧ alreadySaved = false then [.save first] else []) := by
  have hp : PeriodsFit (evalScript period hasTrainEval alreadySaved) := by
    by_cases h : period = 0
    · exact Or.inr ⟨fun _ => rfl, h, rfl⟩
    · refine Or.inl ⟨period, h, Or.inr (Or.inl rfl), ?_, dvd_refl _, dvd_zero _⟩
      simp [evalScript]
  have ht : totalOf (evalScript period hasTrainEval alreadySaved) first = 0 := rfl
  have he : beforeTraining (evalScript period hasTrainEval alreadySaved) first =
      (if hasTrainEval then [.trainEval first] else []) ++ (if period ≠ 0 ∧ alreadySaved = false then [.save first] else []) := by
    simp [beforeTraining, evalScript]
  rw [← he]
  by_cases h : first = 0
  · obtain ⟨st, h1, _, _, h2⟩ := C136_only_evaluates _ env first hp (ht.trans h.symm)
    exact ⟨st, by rw [if_pos h, h1], h2⟩
  · obtain ⟨st, h1, _, _, h2⟩ := C136_too_late _ env first hp (by rw [ht]; omega)
    exact ⟨st, by rw [if_neg h, h1], h2⟩

/-- A run that only evaluates: step 7 restored, both evaluations, checkpoints every 5 steps. -/
example : let c : Cfg := { totalSteps := 7, evalPeriod := 5, checkpointPeriod := 5, hasTrainEval := true, hasInferEval := true, runEvalBeforeTraining := true }
    PeriodsFit c ∧ totalOf c 7 = 7 ∧ beforeTraining c 7 = [.trainEval 7, .inferEval 7, .save 7] ∧ totalOf c 9 < 9 :=
  ⟨Or.inl ⟨5, by decide⟩, by decide, by decide, by decide⟩

end Verif.TrainLoop
