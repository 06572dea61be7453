import Verif.Common
import Verif.Spec.TrainSaves
import Verif.Lemmas.TrainLoop
/-
What `train` guarantees in every environment, whether it returns, stops early,
is preempted or raises.
-/
namespace Verif.TrainLoop
open Spec

/-- The invariant of the whole run. -/
structure Faithful (first : Nat) (st : St) : Prop where
  host : st.host = st.trained
  le : first ≤ st.trained
  trained : trainedSteps st.events = List.range' first (st.trained - first)
  saves : FaithfulSaves first st.events

theorem saves_snoc {first : Nat} {evs : List Event} (h : FaithfulSaves first evs) (e : Event)
    (he : ∀ s, e = .save s → first ≤ s ∧ trainedSteps evs = List.range' first (s - first)) :
    FaithfulSaves first (evs ++ [e]) := by
  intro pre s post hp
  rcases List.eq_nil_or_concat post with rfl | ⟨post', x, rfl⟩
  · obtain ⟨h1, h2⟩ := List.append_inj' hp rfl
    subst h1
    exact he s (by simpa using h2)
  · have h3 : evs ++ [e] = (pre ++ .save s :: post') ++ [x] := by rw [hp]; simp
    obtain ⟨h1, -⟩ := List.append_inj' h3 rfl
    exact h pre s post' h1

theorem Faithful.save {first : Nat} {st : St} (h : Faithful first st) :
    Faithful first { st with events := st.events ++ [.save st.trained] } := by
  refine ⟨h.host, h.le, ?_, ?_⟩
  · rw [trainedSteps_append]; simpa [trainedSteps] using h.trained
  · refine saves_snoc h.saves _ ?_
    intro s hs
    cases hs
    exact ⟨h.le, h.trained⟩

theorem Faithful.eval {first : Nat} {st : St} (h : Faithful first st) (e : Event) (b : Bool)
    (he : (∃ s, e = .trainEval s) ∨ (∃ s, e = .inferEval s)) :
    Faithful first { st with events := st.events ++ [e], stop := b } := by
  refine ⟨h.host, h.le, ?_, ?_⟩
  · rw [trainedSteps_append]
    rcases he with ⟨s, rfl⟩ | ⟨s, rfl⟩ <;> simpa [trainedSteps] using h.trained
  · refine saves_snoc h.saves _ ?_
    intro s hs
    rcases he with ⟨s, rfl⟩ | ⟨s, rfl⟩ <;> cases hs

theorem Faithful.train {first : Nat} {st : St} (h : Faithful first st) (n idx : Nat) (b : Bool) :
    Faithful first { host := st.host + n, trained := st.trained + n, idx := idx, stop := b,
                     events := st.events ++ [.train st.host n] } := by
  have h1 := h.le
  have h2 : trainedSteps [Event.train st.host n] = List.range' st.trained n := by
    simp [trainedSteps, h.host]
  refine ⟨by simp [h.host], by simp only; omega, ?_, ?_⟩
  · rw [trainedSteps_append, h.trained, h2]
    have h3 : st.trained = first + 1 * (st.trained - first) := by omega
    have h4 : st.trained + n - first = (st.trained - first) + n := by omega
    simp only
    rw [h4, ← List.range'_append]
    congr 2
  · refine saves_snoc h.saves _ ?_
    intro s hs
    cases hs

theorem findNextGo_ne_preempted (inner host E P first : Nat) (l : List Nat) :
    findNextGo inner host E P first l ≠ .error .preempted := by
  induction l with
  | nil => intro h; cases h
  | cons a l ih =>
    unfold findNextGo
    split_ifs
    all_goals first | exact ih | (intro h; cases h)

theorem block_faithful (c : Cfg) (env : Env) (total stats first E : Nat) (st : St)
    (h : Faithful first st) :
    (∀ st', block c env total stats first E st = .ok st' → Faithful first st') ∧
    (∀ e st', block c env total stats first E st = .error (e, st') → Faithful first st' ∧
      (e = .preempted → c.checkpointPeriod ≠ 0 → c.manager = true →
        ∃ pre, st'.events = pre ++ [.save st'.trained])) := by
  unfold block
  simp only
  split
  · refine ⟨(by intro st' h1; cases h1), ?_⟩
    intro e st' h1
    rename_i e' hf
    cases h1
    refine ⟨⟨h.host, h.le, h.trained, h.saves⟩, ?_⟩
    intro he
    subst he
    exfalso
    unfold findNext at hf
    split_ifs at hf
    exact findNextGo_ne_preempted _ _ _ _ _ _ hf
  · rename_i i b hf
    generalize (if (st.host : Int) + i = total then false else b) = b'
    by_cases h1 : env.preempt st.host = true
    · rw [if_pos h1]
      refine ⟨(by intro st' h2; cases h2), ?_⟩
      intro e st' h2
      cases h2
      constructor
      · split_ifs with h3
        · exact ⟨h.save.host, h.save.le, h.save.trained, h.save.saves⟩
        · exact ⟨h.host, h.le, h.trained, h.saves⟩
      · intro _ h3 h4
        simp only
        rw [if_pos ⟨h3, h4⟩]
        exact ⟨_, rfl⟩
    rw [if_neg h1]
    by_cases h2 : i ≤ 0
    · rw [if_pos h2]
      refine ⟨(by intro st' h3; cases h3), ?_⟩
      intro e st' h3
      cases h3
      exact ⟨⟨h.host, h.le, h.trained, h.saves⟩, by intro h4; cases h4⟩
    rw [if_neg h2]
    refine ⟨?_, by intro e st' h3; cases h3⟩
    intro st' h3
    simp only [Except.ok.injEq] at h3
    subst h3
    have h4 := h.train i.toNat
    have h5 := h4 0 false
    have h6 := h5.save
    refine ⟨h5.host, h5.le, ?_, ?_⟩ <;> simp only <;> split_ifs
    all_goals first | exact h6.trained | exact h5.trained | exact h6.saves | exact h5.saves

/-- What is shown of each loop: the invariant at the end, and the emergency
checkpoint when the end is a preemption. -/
def GoodEnd (c : Cfg) (first : Nat) (r : Except (Err × St) St) : Prop :=
  Faithful first (atEnd r) ∧
    ∀ st, r = .error (.preempted, st) → c.checkpointPeriod ≠ 0 → c.manager = true →
      ∃ pre, st.events = pre ++ [.save st.trained]

theorem GoodEnd.ok {c : Cfg} {first : Nat} {st : St} (h : Faithful first st) :
    GoodEnd c first (.ok st) := ⟨h, by intro st' h1; cases h1⟩

theorem innerLoop_faithful (c : Cfg) (env : Env) (total stats first E : Nat) (fuel : Nat) :
    ∀ st, Faithful first st → GoodEnd c first (innerLoop c env total stats first E fuel st) := by
  induction fuel with
  | zero => intro st h; exact .ok h
  | succ fuel ih =>
    intro st h
    unfold innerLoop
    split_ifs
    · exact .ok h.save
    · exact .ok h
    · have hb := block_faithful c env total stats first E st h
      cases hs : block c env total stats first E st with
      | error e =>
        obtain ⟨g1, g2⟩ := hb.2 e.1 e.2 (by rw [hs])
        refine ⟨g1, ?_⟩
        intro st' h1
        cases h1
        exact g2 rfl
      | ok st1 => exact ih st1 (hb.1 st1 hs)
    · exact .ok h

theorem afterEpoch_faithful (c : Cfg) (env : Env) (ev first : Nat) (fin : Bool) (st : St)
    (h : Faithful first st) : Faithful first (afterEpoch c env ev first fin st) := by
  unfold afterEpoch
  simp only
  have e1 : ∀ (p : Prop) [Decidable p] (st : St), Faithful first st →
      Faithful first (if p then { st with events := st.events ++ [.save st.trained] } else st) := by
    intro p _ st h; split_ifs; exacts [h.save, h]
  have e2 : ∀ (p : Prop) [Decidable p] (st : St), Faithful first st →
      Faithful first (if p then runTrainingEval env st else st) := by
    intro p _ st h; split_ifs; exacts [h.eval _ _ (Or.inl ⟨_, rfl⟩), h]
  have e3 : ∀ (p : Prop) [Decidable p] (st : St), Faithful first st →
      Faithful first (if p then runInferenceEval c env st else st) := by
    intro p _ st h; split_ifs; exacts [h.eval _ _ (Or.inr ⟨_, rfl⟩), h]
  exact e3 _ _ (e2 _ _ (e1 _ _ h))

theorem epochLoop_faithful (c : Cfg) (env : Env) (total stats spe ev first : Nat) (left : Nat) :
    ∀ k st, Faithful first st →
      GoodEnd c first (epochLoop c env total stats spe ev first left k st) := by
  induction left with
  | zero => intro k st h; exact .ok h
  | succ left ih =>
    intro k st h
    unfold epochLoop
    split_ifs
    · exact .ok h
    · simp only
      have hi := innerLoop_faithful c env total stats first (min total (first + spe * (k + 1)))
        (min total (first + spe * (k + 1)) - st.host) st h
      split
      · rename_i e he
        rw [he] at hi
        exact ⟨hi.1, fun st' h1 => by cases h1; exact hi.2 _ rfl⟩
      · rename_i st' he
        rw [he] at hi
        exact ih _ _ (afterEpoch_faithful _ _ _ _ _ _ hi.1)

theorem train_faithful (c : Cfg) (env : Env) (first : Nat) : GoodEnd c first (train c env first) := by
  have h0 : Faithful first { host := first, trained := first } :=
    ⟨rfl, le_rfl, by simp [trainedSteps], by intro pre s post h; simp at h⟩
  have e2 : ∀ (p : Prop) [Decidable p] (st : St), Faithful first st →
      Faithful first (if p then runTrainingEval env st else st) := by
    intro p _ st h; split_ifs; exacts [h.eval _ _ (Or.inl ⟨_, rfl⟩), h]
  have e3 : ∀ (p : Prop) [Decidable p] (st : St), Faithful first st →
      Faithful first (if p then runInferenceEval c env st else st) := by
    intro p _ st h; split_ifs; exacts [h.eval _ _ (Or.inr ⟨_, rfl⟩), h]
  have e1 : ∀ (p : Prop) [Decidable p] (st : St), Faithful first st →
      Faithful first (if p then { st with events := st.events ++ [.save st.trained] } else st) := by
    intro p _ st h; split_ifs; exacts [h.save, h]
  unfold train
  simp only
  have hs := e1 (c.checkpointPeriod ≠ 0 ∧ c.manager ∧ ¬ c.alreadySaved) _
    (e3 (c.runEvalBeforeTraining ∧ c.hasInferEval) _
      (e2 (c.runEvalBeforeTraining ∧ c.hasTrainEval) _ h0))
  generalize (if c.checkpointPeriod ≠ 0 ∧ c.manager ∧ ¬ c.alreadySaved then _ else _ : St) = st1 at hs ⊢
  split_ifs
  all_goals first
    | exact .ok hs
    | exact ⟨h0, by intro st h; cases h⟩
    | exact ⟨hs, by intro st h; cases h⟩
    | exact epochLoop_faithful _ _ _ _ _ _ _ _ _ _ hs

/-- **C58.** In every run of `train` — whatever the configuration, the answers of
the actions and the preemptions, and whether `train` returns or raises — the
training steps executed are `first, first + 1, …`, each once and in order, and a
checkpoint of step `s` is written only at the moment when exactly the steps below
`s` have been executed. -/
theorem C58_faithful (c : Cfg) (env : Env) (first : Nat) :
    ∃ last, first ≤ last ∧
      trainedSteps (atEnd (train c env first)).events = List.range' first (last - first) ∧
      FaithfulSaves first (atEnd (train c env first)).events :=
  have h := (train_faithful c env first).1
  ⟨_, h.le, h.trained, h.saves⟩

/-- **C58.** When `trainer.train` is preempted and checkpointing is on, the last
thing `train` does before it raises is to save a checkpoint of everything trained
so far: its step is one past the last executed training step. -/
theorem C58_preempted (c : Cfg) (env : Env) (first : Nat) (st : St)
    (h : train c env first = .error (.preempted, st))
    (hp : c.checkpointPeriod ≠ 0) (hm : c.manager = true) :
    ∃ pre s, st.events = pre ++ [.save s] ∧ first ≤ s ∧
      trainedSteps st.events = List.range' first (s - first) := by
  have hg := train_faithful c env first
  rw [h] at hg
  obtain ⟨pre, hpre⟩ := hg.2 st rfl hp hm
  exact ⟨pre, st.trained, hpre, hg.1.le, hg.1.trained⟩

/-- A run of twelve steps with checkpoint period 4, preempted when the block
starting at step 8 begins. -/
example :
    let c : Cfg := { totalSteps := 12, checkpointPeriod := 4, statsPeriod := 2 }
    let env : Env := { preempt := fun s => decide (s = 6) }
    ∃ st, train c env 0 = .error (.preempted, st) ∧
      st.events = [.save 0, .train 0 2, .train 2 2, .save 4, .train 4 2, .save 6] := by
  exact ⟨_, rfl, rfl⟩

end Verif.TrainLoop
