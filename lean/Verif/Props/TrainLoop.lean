import Verif.Spec.TrainLoop
import Verif.Lemmas.TrainLoop
/-
C34 (training schedule) and C35 (stop requests).
-/
namespace Verif.TrainLoop
open Spec

theorem minPeriod_eq (a b c m : Nat) (h0 : m ≠ 0) (h : m = a ∨ m = b ∨ m = c)
    (ha : m ∣ a) (hb : m ∣ b) (hc : m ∣ c) : minPeriod a b c = m := by
  have la : a = 0 ∨ m ≤ a := (Nat.eq_zero_or_pos a).imp id (fun h => Nat.le_of_dvd h ha)
  have lb : b = 0 ∨ m ≤ b := (Nat.eq_zero_or_pos b).imp id (fun h => Nat.le_of_dvd h hb)
  have lc : c = 0 ∨ m ≤ c := (Nat.eq_zero_or_pos c).imp id (fun h => Nat.le_of_dvd h hc)
  unfold minPeriod
  simp only
  split_ifs <;> omega

theorem ceil_facts (d spe : Nat) (hspe : 0 < spe) (hd : 0 < d) :
    0 < (d + spe - 1) / spe ∧ spe * ((d + spe - 1) / spe - 1) < d ∧ d ≤ spe * ((d + spe - 1) / spe) := by
  have h1 := Nat.div_add_mod (d + spe - 1) spe
  have h2 := Nat.mod_lt (d + spe - 1) hspe
  have h3 : 0 < (d + spe - 1) / spe := Nat.div_pos (by omega) hspe
  have h4 : spe * ((d + spe - 1) / spe - 1) + spe = spe * ((d + spe - 1) / spe) := by
    rw [← Nat.mul_succ]; congr 1; omega
  refine ⟨h3, by omega, by omega⟩

theorem dvd_min_aligned {m total P : Nat} (hm : m ∣ P) (hP : P ≠ 0) : Aligned (min m total) total P := by
  rcases Nat.le_total m total with h | h
  · rw [Nat.min_eq_left h]; exact Or.inl hm
  · right; exact le_trans h (Nat.le_of_dvd (Nat.pos_of_ne_zero hP) hm)

theorem filter_from (p : Nat → Bool) (first total : Nat) (hft : first ≤ total)
    (hlow : ∀ s < first, p s = false) (hfirst : p first = true) :
    (List.range (total + 1)).filter p = first :: (List.range' (first + 1) (total - first)).filter p := by
  have h1 : List.range (total + 1) = List.range' 0 first ++ List.range' first (total + 1 - first) := by
    rw [List.range_eq_range']
    have := @List.range'_append_1 0 first (total + 1 - first)
    rw [Nat.zero_add] at this
    rw [this]; congr 1; omega
  rw [h1, List.filter_append, range'_filter_eq_nil (fun s _ h => hlow s (by omega)), List.nil_append,
    show total + 1 - first = (total - first) + 1 by omega, List.range'_succ, List.filter_cons, if_pos hfirst]

theorem filter_from' (p : Nat → Bool) (first total : Nat) (hft : first ≤ total)
    (hlow : ∀ s ≤ first, p s = false) :
    (List.range (total + 1)).filter p = (List.range' (first + 1) (total - first)).filter p := by
  have h1 : List.range (total + 1) = List.range' 0 (first + 1) ++ List.range' (first + 1) (total - first) := by
    rw [List.range_eq_range']
    have := @List.range'_append_1 0 (first + 1) (total - first)
    rw [Nat.zero_add] at this
    rw [this]; congr 1; omega
  rw [h1, List.filter_append, range'_filter_eq_nil (fun s _ h => hlow s (by omega)), List.nil_append]

/-- `train`, once the periods have been found compatible. -/
theorem train_eq (c : Cfg) (env : Env) (first m : Nat) (hm : Compatible c m) :
    train c env first =
      if totalOf c first < first then .error (.totalBelowFirst, startSt c env first)
      else if totalOf c first = first then .ok (startSt c env first) else
        epochLoop c env (totalOf c first) (if c.statsPeriod ≠ 0 then c.statsPeriod else m)
          (min m (totalOf c first)) (if c.hasTrainEval ∨ c.hasInferEval then c.evalPeriod else 0) first
          ((totalOf c first - first + min m (totalOf c first) - 1) / min m (totalOf c first)) 0
          (startSt c env first) := by
  obtain ⟨h0, h1, h2, h3, h4⟩ := hm
  have hmp := minPeriod_eq _ _ _ _ h0 h1 h2 h3 h4
  unfold train
  simp only [hmp]
  rw [if_pos h0]
  rw [if_neg (by
    rw [Nat.mod_eq_zero_of_dvd h2, Nat.mod_eq_zero_of_dvd h3, Nat.mod_eq_zero_of_dvd h4]; simp)]
  rfl

theorem quiet_lastAnswer (c : Cfg) (env : Env) (hq : Quiet env) (evs : List Event) :
    lastAnswer c env evs = false := by
  unfold lastAnswer
  induction evs with
  | nil => rfl
  | cons e l ih =>
    rw [List.foldl_cons]
    have : (match e with
      | .train s n => if c.concurrentMetrics then false else env.trainStop (s + n)
      | .trainEval s => env.trainEvalStop s
      | .inferEval s => if c.concurrentMetrics then false else env.inferEvalStop s
      | .save _ => false) = false := by cases e <;> simp [hq.t, hq.te, hq.ie]
    exact (congrArg (fun b => List.foldl _ b l) this).trans ih

/-- Every run that returns has done all steps, or somebody asked to stop. -/
theorem train_ended (c : Cfg) (env : Env) (first m : Nat) (hm : Compatible c m) (st : St)
    (h : train c env first = .ok st) : Ended c env (totalOf c first) (min m (totalOf c first)) first st := by
  obtain ⟨f1, f2, f3, f4, f5⟩ := startSt_facts c env first
  rw [train_eq c env first m hm] at h
  by_cases h1 : totalOf c first < first
  · rw [if_pos h1] at h; cases h
  rw [if_neg h1] at h
  by_cases h2 : totalOf c first = first
  · rw [if_pos h2] at h
    simp only [Except.ok.injEq] at h
    subst h
    exact Or.inl (by omega)
  · rw [if_neg h2] at h
    have h0 := hm.1
    obtain ⟨c1, c2, c3⟩ := ceil_facts (totalOf c first - first) (min m (totalOf c first))
      (by omega) (by omega)
    refine (epochLoop_inv c env _ _ _ _ first _ 0 _ f4 (by rw [f1, f2]) (by rw [f1]; omega)).2 st h ?_ ?_
    · left; rw [f1]; exact ⟨by omega, fun _ => f5⟩
    · rw [Nat.zero_add]; omega

/-- **C34.**  For every accepted configuration with checkpoints enabled, every
starting step and every sorted list of extra checkpoint steps that satisfies
`GoodSteps`: if nobody asks to stop and nothing is preempted, `train` returns
with exactly `total` steps done; it runs each training step in
`first, …, total-1` once and in order; it saves exactly at the first step, the
multiples of the checkpoint period, the extra steps and the last step, each once
and in order; and it evaluates exactly at the multiples of the evaluation period
and the last step.  (`_partial`: `GoodSteps` is a restriction that the
documentation does not mention; without it the claim is false, see below.) -/
theorem C34_schedule_partial (c : Cfg) (env : Env) (first m : Nat) (hq : Quiet env)
    (hm : Compatible c m) (hP : c.checkpointPeriod ≠ 0) (hman : c.manager = true)
    (hnew : c.alreadySaved = false) (hpre : c.runEvalBeforeTraining = false)
    (hft : first ≤ totalOf c first)
    (hsort : c.checkpointSteps.Pairwise (· < ·))
    (hgood : GoodSteps c.checkpointSteps first (totalOf c first) c.checkpointPeriod (blockLen c m)) :
    ∃ st, train c env first = .ok st ∧ st.host = totalOf c first ∧
      trainedSteps st.events = List.range' first (totalOf c first - first) ∧
      savedSteps st.events = (List.range (totalOf c first + 1)).filter
        (fun s => ShouldSave first (totalOf c first) c.checkpointPeriod c.checkpointSteps s) ∧
      trainEvalSteps st.events = (List.range (totalOf c first + 1)).filter
        (fun s => c.hasTrainEval && ShouldEval first (totalOf c first) c.evalPeriod s) ∧
      inferEvalSteps st.events = (List.range (totalOf c first + 1)).filter
        (fun s => c.hasInferEval && ShouldEval first (totalOf c first) c.evalPeriod s) := by
  have hm' := hm
  obtain ⟨h0, h1, h2, h3, h4⟩ := hm'
  set total := totalOf c first with htotal
  set ev := (if c.hasTrainEval ∨ c.hasInferEval then c.evalPeriod else 0) with hev
  have hmp : minPeriod ev c.checkpointPeriod c.gcPeriod = m := minPeriod_eq _ _ _ _ h0 h1 h2 h3 h4
  have hS : (List.range (total + 1)).filter
        (fun s => decide (ShouldSave first total c.checkpointPeriod c.checkpointSteps s)) =
      first :: allSaves c.checkpointSteps first total c.checkpointPeriod first (total - first) := by
    refine filter_from _ _ _ hft ?_ ?_
    · intro s hs
      rw [decide_eq_false_iff_not]
      rintro (h | ⟨h, _⟩) <;> omega
    · simp [ShouldSave]
  have hT : ∀ on : Bool, (on = true → ev = c.evalPeriod) → (List.range (total + 1)).filter
        (fun s => on && decide (ShouldEval first total c.evalPeriod s)) =
      evalSteps on first total ev first (total - first) := by
    intro on hon
    rw [filter_from' _ _ _ hft (by
      intro s hs
      have : ¬ first < s := by omega
      simp [ShouldEval, this])]
    unfold evalSteps
    apply List.filter_congr
    intro x hx
    rw [List.mem_range'_1] at hx
    cases on
    · simp
    · simp only [Bool.true_and, hon rfl, decide_eq_decide]
      have : first < x := by omega
      simp [ShouldEval, this]
  rw [hS, hT c.hasTrainEval (by intro h; simp [hev, h]), hT c.hasInferEval (by intro h; simp [hev, h])]
  set st1 : St := { host := first, trained := first, events := [.save first] } with hst1
  have htrain : train c env first = if total < first then .error (.totalBelowFirst, st1)
      else if total = first then .ok st1 else
        epochLoop c env total (if c.statsPeriod ≠ 0 then c.statsPeriod else m) (min m total) ev first
          ((total - first + min m total - 1) / min m total) 0 st1 := by
    have : startSt c env first = st1 := by
      unfold startSt
      simp only [hpre, hman, hnew, hP, Bool.false_eq_true, false_and, if_false, ne_eq, not_false_eq_true,
        and_self, if_true]
      rfl
    rw [train_eq c env first m hm, this]
  rcases Nat.eq_or_lt_of_le hft with he | hlt
  · refine ⟨st1, ?_, ?_, ?_, ?_, ?_, ?_⟩
    · rw [htrain, if_neg (by omega), if_pos he.symm]
    · exact he
    all_goals simp [← he, hst1, trainedSteps, savedSteps, trainEvalSteps, inferEvalSteps, allSaves, evalSteps]
  · have hspe : 0 < min m total := by omega
    obtain ⟨c1, c2, c3⟩ := ceil_facts (total - first) (min m total) hspe (by omega)
    have hstats : 0 < (if c.statsPeriod ≠ 0 then c.statsPeriod else m) := by split_ifs <;> omega
    have hae : Aligned (min m total) total ev := by
      by_cases h : ev = 0
      · rw [h]; exact Or.inl (dvd_zero _)
      · exact dvd_min_aligned h2 h
    obtain ⟨st, hl, hrun⟩ := epochLoop_quiet c env hq total
      (if c.statsPeriod ≠ 0 then c.statsPeriod else m) (min m total) ev first hP hstats hspe hman hsort
      (by
        refine ⟨hgood.last, ?_⟩
        intro pre s s' post he h1 h2 h3 h4
        have := hgood.gap pre s s' post he h1 h2 h3 h4
        unfold blockLen at this
        split_ifs at this ⊢ <;> omega)
      (dvd_min_aligned h3 hP) hae ((total - first + min m total - 1) / min m total) 0 st1
      (by simp [hst1]; omega) hft (by omega)
      (by intro _; rw [Nat.zero_add]; omega) (by rw [Nat.zero_add]; omega)
      (by
        refine ⟨rfl, ⟨?_, by simp [hst1]⟩, ?_⟩
        · intro h; exact List.length_pos_iff.2 h
        · intro _ a _ _ ho; exact absurd ho.1 (by simp [hst1]))
      rfl
    obtain ⟨r0, _, evs, r1, r2, r3, r4, r5⟩ := hrun
    refine ⟨st, ?_, ?_, ?_, ?_, ?_, ?_⟩
    · rw [htrain, if_neg (by omega), if_neg (by omega), hl]
    · rw [r0]; simp only [hst1]; omega
    · rw [r1, trainedSteps_append, r3]; rfl
    · rw [r1, savedSteps_append, r2]; rfl
    · rw [r1, trainEvalSteps_append, r4]; rfl
    · rw [r1, inferEvalSteps_append, r5]; rfl

/-- A concrete configuration that meets the hypotheses: 10 steps from step 0,
checkpoint every 6, evaluate every 3, extra checkpoints at 5, 7 and 12. -/
def exCfg : Cfg := { totalSteps := 10, evalPeriod := 3, checkpointPeriod := 6,
                     checkpointSteps := [5, 7, 12], hasTrainEval := true }

theorem exCfg_good : GoodSteps exCfg.checkpointSteps 0 10 exCfg.checkpointPeriod (blockLen exCfg 3) := by
  refine ⟨?_, ?_⟩
  · intro s h; simp [exCfg] at h; omega
  · intro pre s s' post he h1 h2 h3 h4
    exfalso
    match pre with
    | [] => simp [exCfg] at he; obtain ⟨rfl, rfl, _⟩ := he; revert h3; decide
    | [_] => simp [exCfg] at he; obtain ⟨_, rfl, rfl, _⟩ := he; revert h3; decide
    | [_, _] => simp [exCfg] at he
    | _ :: _ :: _ :: pre => simp [exCfg] at he

example : Compatible exCfg 3 := by decide
example : exCfg.checkpointSteps.Pairwise (· < ·) := by decide
example : Quiet {} := ⟨fun _ => rfl, fun _ => rfl, fun _ => rfl, fun _ => rfl⟩
example : (match train exCfg {} 0 with
    | .ok st => (st.host, savedSteps st.events, trainedSteps st.events, trainEvalSteps st.events)
    | .error _ => (0, [], [], [])) =
  (10, [0, 5, 6, 7, 10], [0, 1, 2, 3, 4, 5, 6, 7, 8, 9], [3, 6, 9, 10]) := by decide

/-- **C34, negative part.**  Whenever the last entry of a sorted
`checkpoint_steps` lies strictly between the first and the last step and is not
on the checkpoint period, `train` never returns: it raises after saving there,
whatever the other arguments are. -/
theorem C34_last_extra_step_crashes (c : Cfg) (env : Env) (first m s : Nat) (hq : Quiet env)
    (hm : Compatible c m) (hsort : c.checkpointSteps.Pairwise (· < ·))
    (hl : c.checkpointSteps.getLast? = some s) (h1 : first < s) (h2 : s < totalOf c first)
    (h3 : ¬ onPeriod first c.checkpointPeriod s) (st : St) : train c env first ≠ .ok st := by
  intro h
  have hend := train_ended c env first m hm st h
  obtain ⟨f1, f2, f3, f4, f5⟩ := startSt_facts c env first
  have hlen : 0 < c.checkpointSteps.length := by
    rw [List.length_pos_iff]; rintro h; rw [h] at hl; simp at hl
  rw [train_eq c env first m hm, if_neg (by omega), if_neg (by omega)] at h
  have hle := epochLoop_last c env _ _ _ _ first s ⟨h1, h3⟩ hl hsort _ 0 _ st
    (by rw [f3]; exact hlen) (by rw [f1]; omega) h
  rcases hend with h4 | ⟨⟨pre, _, h4⟩, _⟩
  · omega
  · rw [quiet_lastAnswer c env hq] at h4; cases h4

/-- The simplest instance: 100 steps, checkpoint every 20 steps and additionally
at step 5. The run saves at 0 and 5 and then raises. -/
def badLast : Cfg := { totalSteps := 100, checkpointPeriod := 20, checkpointSteps := [5] }
example : Compatible badLast 20 ∧ badLast.checkpointSteps.getLast? = some 5 ∧
    ¬ onPeriod 0 badLast.checkpointPeriod 5 := by decide
example : (match train badLast {} 0 with
    | .error (e, st) => some (e, savedSteps st.events) | .ok _ => none) =
  some (.noMetrics, [0, 5]) := by decide

/-- The second restriction in `GoodSteps` is needed as well: an extra step on the
checkpoint period directly followed by a close one off the period.  The run
raises at step 25 although the list is sorted and ends on the period. -/
theorem C34_gap_needed :
    ∃ c : Cfg, Compatible c 20 ∧ c.checkpointPeriod ≠ 0 ∧ c.manager = true ∧
      c.checkpointSteps.Pairwise (· < ·) ∧
      (∀ s, c.checkpointSteps.getLast? = some s → onPeriod 0 c.checkpointPeriod s) ∧
      ∀ st, train c {} 0 ≠ .ok st := by
  refine ⟨{ totalSteps := 60, checkpointPeriod := 20, checkpointSteps := [20, 25, 40] },
    by decide, by decide, rfl, by decide, by simp [onPeriod], ?_⟩
  have h : (match train { totalSteps := 60, checkpointPeriod := 20, checkpointSteps := [20, 25, 40] } {} 0 with
    | .error _ => true | .ok _ => false) = true := by decide
  intro st hst
  rw [hst] at h
  cases h

/-- Extra steps need a checkpoint period: with a falsy one the first listed step
within reach makes `train` raise, although the run would otherwise be accepted. -/
theorem C34_extra_steps_need_period :
    ∃ c : Cfg, Compatible c 20 ∧ c.checkpointPeriod = 0 ∧
      ∃ st, train c {} 0 = .error (.badModulus, st) := by
  refine ⟨{ totalSteps := 60, gcPeriod := 20, checkpointSteps := [10, 40] }, by decide, rfl, ?_⟩
  exact ⟨_, rfl⟩

/-- **C35 (soundness of stopping).**  In every run, whatever the actions answer
and wherever it ends (return or exception), no block of training starts while
the most recent answer was "stop". -/
theorem C35_no_training_after_stop (c : Cfg) (env : Env) (first m : Nat) (hm : Compatible c m) :
    StopsAtOnce c env (finalSt (train c env first)).events := by
  obtain ⟨f1, f2, f3, f4, f5⟩ := startSt_facts c env first
  rw [train_eq c env first m hm]
  by_cases h1 : totalOf c first < first
  · rw [if_pos h1]; exact f4.once
  rw [if_neg h1]
  by_cases h2 : totalOf c first = first
  · rw [if_pos h2]; exact f4.once
  · rw [if_neg h2]
    exact (epochLoop_inv c env _ _ _ _ first _ 0 _ f4 (by rw [f1, f2]) (by rw [f1]; omega)).1.once

/-- **C35 (completeness).**  A run that returns before all steps are done was
asked to stop. -/
theorem C35_early_return_only_if_asked (c : Cfg) (env : Env) (first m : Nat) (hm : Compatible c m)
    (st : St) (h : train c env first = .ok st) :
    st.host = totalOf c first ∨ ∃ pre, pre <+: st.events ∧ lastAnswer c env pre = true := by
  rcases train_ended c env first m hm st h with h | h
  · exact Or.inl h
  · exact Or.inr h.1

/-- **C35 (state at the stop).**  With checkpoints enabled and epochs no shorter
than the checkpoint period, the state in which an early stopped run ends has been
saved. (`_partial`: fails when an evaluation or GC period is shorter than the
checkpoint period, see `C35_stop_without_save`.) -/
theorem C35_stop_saves_partial (c : Cfg) (env : Env) (first : Nat)
    (hm : Compatible c c.checkpointPeriod) (hman : c.manager = true) (hnew : c.alreadySaved = false)
    (hlen : c.checkpointPeriod ≤ totalOf c first)
    (st : St) (h : train c env first = .ok st) (hlt : st.host ≠ totalOf c first) :
    st.host ∈ savedSteps st.events := by
  rcases train_ended c env first _ hm st h with h | ⟨_, h | ⟨⟨k, h1⟩, h2⟩⟩
  · exact absurd h hlt
  · rcases h hm.1 hman with h | ⟨h, _⟩
    · unfold savedSteps
      rw [List.mem_filterMap]
      exact ⟨_, h, rfl⟩
    · rw [hnew] at h; cases h
  · exfalso
    apply h2
    rw [Nat.min_eq_left hlen] at h1
    unfold onPeriod
    rw [h1, Nat.add_sub_cancel_left, Nat.mul_mod_right]

/-- Non-vacuity: TRAIN actions ask to stop at step 4, in the middle of an epoch. -/
def stopCfg : Cfg := { totalSteps := 20, checkpointPeriod := 6, statsPeriod := 2 }
def stopEnv : Env := { trainStop := fun s => s == 4 }
example : Compatible stopCfg stopCfg.checkpointPeriod := by decide
example : (match train stopCfg stopEnv 0 with
    | .ok st => some (st.host, savedSteps st.events, lastAnswer stopCfg stopEnv st.events)
    | .error _ => none) = some (4, [0, 4], true) := by decide

/-- **C35, negative.**  A stop request answered right at an epoch boundary that
is off the checkpoint period ends the run without saving: evaluation every 5
steps asks to stop at step 5, checkpoints are taken every 10 steps, and the five
training steps are lost. -/
theorem C35_stop_without_save :
    ∃ (c : Cfg) (env : Env), Compatible c 5 ∧ c.manager = true ∧ c.checkpointPeriod ≠ 0 ∧
      ∃ st, train c env 0 = .ok st ∧ st.host = 5 ∧ totalOf c 0 = 40 ∧ savedSteps st.events = [0] := by
  refine ⟨{ totalSteps := 40, checkpointPeriod := 10, evalPeriod := 5, hasTrainEval := true },
    { trainEvalStop := fun s => s == 5 }, by decide, rfl, by decide, ?_⟩
  exact ⟨_, rfl, by decide, by decide, by decide⟩

theorem runs_forget_trainEval (c : Cfg) (env : Env) (ev first : Nat) (fin : Bool) (st : St)
    (hc : c.concurrentMetrics = false) (hi : c.hasInferEval = true) (f : Nat → Bool) :
    afterEpoch c env ev first fin st = afterEpoch c { env with trainEvalStop := f } ev first fin st := by
  unfold afterEpoch runTrainingEval runInferenceEval
  simp only [hc, hi, Bool.false_eq_true, if_false]
  split_ifs <;> simp_all

/-- **C35, negative.**  When an inference evaluator is configured (and metrics
are not concurrent), the answers of the TRAIN_EVAL actions have no effect
whatsoever: the run is the same as if they had answered anything else. An
early-stopping action hooked to TRAIN_EVAL is silently ignored. -/
theorem C35_train_eval_ignored (c : Cfg) (env : Env) (first m : Nat) (hm : Compatible c m)
    (hc : c.concurrentMetrics = false) (hi : c.hasInferEval = true) (f : Nat → Bool) :
    train c env first = train c { env with trainEvalStop := f } first := by
  have hb : ∀ total stats E st, block c env total stats first E st =
      block c { env with trainEvalStop := f } total stats first E st := fun _ _ _ _ => rfl
  have hil : ∀ total stats E fuel st, innerLoop c env total stats first E fuel st =
      innerLoop c { env with trainEvalStop := f } total stats first E fuel st := by
    intro total stats E fuel
    induction fuel with
    | zero => intro st; rfl
    | succ fuel ih =>
      intro st
      unfold innerLoop
      rw [hb]
      split_ifs
      · rfl
      · rfl
      · cases block c { env with trainEvalStop := f } total stats first E st with
        | error e => rfl
        | ok st1 => exact ih st1
      · rfl
  have hel : ∀ total stats spe ev left k st, epochLoop c env total stats spe ev first left k st =
      epochLoop c { env with trainEvalStop := f } total stats spe ev first left k st := by
    intro total stats spe ev left
    induction left with
    | zero => intro k st; rfl
    | succ left ih =>
      intro k st
      unfold epochLoop
      simp only [hil]
      split_ifs
      · rfl
      · cases innerLoop c { env with trainEvalStop := f } total stats first
          (min total (first + spe * (k + 1))) (min total (first + spe * (k + 1)) - st.host) st with
        | error e => rfl
        | ok st1 =>
          simp only
          rw [ih, runs_forget_trainEval c env ev first _ st1 hc hi f]
  have hs : startSt c env first = startSt c { env with trainEvalStop := f } first := by
    unfold startSt runTrainingEval runInferenceEval
    simp only [hc, hi, Bool.false_eq_true, if_false]
    split_ifs <;> simp_all
  rw [train_eq c env first m hm, train_eq c _ first m hm, hs, hel]

/-- Concrete consequence: TRAIN_EVAL asks to stop at every step, and the run
still goes to the end. -/
def ignoredCfg : Cfg := { totalSteps := 12, checkpointPeriod := 4, evalPeriod := 4,
                          hasTrainEval := true, hasInferEval := true }
example : Compatible ignoredCfg 4 := by decide
example : (match train ignoredCfg { trainEvalStop := fun _ => true } 0 with
    | .ok st => some (st.host, trainEvalSteps st.events) | .error _ => none) =
    some (12, [4, 8, 12]) := by decide

end Verif.TrainLoop
