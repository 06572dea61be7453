import Verif.Spec.Executor
/- Property C38. -/
namespace Verif.Executor

open Spec

variable {E : Type}

theorem firstFailure_append (a b : List (Option E)) : firstFailure (a ++ b) = (firstFailure a).or (firstFailure b) := by
  induction a with
  | nil => simp [firstFailure]
  | cons x a ih => cases x <;> simp [firstFailure, ih]

/-- The invariant: either no task failed and nothing is pending, or the first pending future is that of the first
failed task, and it has been seen finished. -/
def Inv (s : St E) : Prop :=
  match firstFailure s.outcome with
  | none => s.pending = [] ∧ ∀ i, i < s.outcome.length → s.finished i = true
  | some e => ∃ i rest, s.pending = i :: rest ∧ s.outcome[i]? = some (some e) ∧ s.finished i = true

theorem checkLoop_one (wait : Bool) (done : Nat → Bool) (outcome : List (Option E)) (i : Nat) (rest still : List Nat)
    (exc : Option (Option E)) (fin : Nat → Bool) (e : E) (h : outcome[i]? = some (some e)) (hf : wait = false ∨ fin i = true) :
    checkLoop wait done outcome (i :: rest) exc still fin = (.error (.task e), fun j => if j = i then true else fin j) := by
  have : ¬ (wait = true ∧ fin i = false ∧ done i = false) := by
    rintro ⟨h1, h2, _⟩; rcases hf with hf | hf <;> simp_all
  simp only [checkLoop, if_neg this, h, Option.getD_some]

theorem check_failed (wait : Bool) (done : Nat → Bool) (s : St E) (e : E) (he : firstFailure s.outcome = some e)
    (h : Inv s) : (check wait done s).1 = some (.task e) ∧ Inv (check wait done s).2 ∧ (check wait done s).2.outcome = s.outcome := by
  unfold Inv at h
  rw [he] at h
  obtain ⟨i, rest, h1, h2, h3⟩ := h
  unfold check
  rw [h1, checkLoop_one _ _ _ _ _ _ _ _ e h2 (Or.inr h3)]
  refine ⟨rfl, ?_, rfl⟩
  unfold Inv
  dsimp only
  rw [he]
  exact ⟨i, rest, rfl, h2, by simp⟩

theorem check_clear (wait : Bool) (done : Nat → Bool) (s : St E) (he : firstFailure s.outcome = none)
    (h : Inv s) : (check wait done s).1 = none ∧ Inv (check wait done s).2 ∧ (check wait done s).2.outcome = s.outcome := by
  have h' := h
  unfold Inv at h
  rw [he] at h
  unfold check
  rw [h.1]
  refine ⟨rfl, ?_, rfl⟩
  unfold Inv
  simp only [checkLoop, he]
  exact ⟨trivial, h.2⟩

theorem apply_spec (op : Op E) (done : Nat → Bool) (s : St E) (h : Inv s) :
    Inv (apply op done s).2 ∧ (apply op done s).2.outcome = s.outcome ++ submitted [(op, done)] ∧
    (apply op done s).1 = (firstFailure (s.outcome ++ submitted [(op, done)])).map Exc.task := by
  cases op with
  | shutdown wait =>
    simp only [apply, submitted, List.append_nil]
    cases he : firstFailure s.outcome with
    | none => obtain ⟨a, b, c⟩ := check_clear wait done s he h; exact ⟨b, c, a⟩
    | some e => obtain ⟨a, b, c⟩ := check_failed wait done s e he h; exact ⟨b, c, a⟩
  | submit o =>
    simp only [apply, submitted]
    have h' := h
    unfold Inv at h
    cases he : firstFailure s.outcome with
    | some e =>
      rw [he] at h
      obtain ⟨i, rest, h1, h2, h3⟩ := h
      have hlt : i < s.outcome.length := by
        by_contra hc; rw [List.getElem?_eq_none (by omega)] at h2; simp at h2
      have hff : firstFailure (s.outcome ++ [o]) = some e := by rw [firstFailure_append, he]; rfl
      have := check_failed false done { s with outcome := s.outcome ++ [o], pending := s.pending ++ [s.outcome.length] } e hff (by
        unfold Inv
        dsimp only
        rw [hff]
        exact ⟨i, rest ++ [s.outcome.length], by rw [h1]; rfl, by rw [List.getElem?_append_left hlt]; exact h2, h3⟩)
      exact ⟨this.2.1, this.2.2, by rw [hff]; exact this.1⟩
    | none =>
      rw [he] at h
      have hget : (s.outcome ++ [o])[s.outcome.length]? = some o := by simp
      unfold check
      dsimp only
      rw [h.1, List.nil_append]
      cases o with
      | some e =>
        have hff : firstFailure (s.outcome ++ [some e]) = some e := by rw [firstFailure_append, he]; rfl
        rw [checkLoop_one _ _ _ _ _ _ _ _ e hget (Or.inl rfl)]
        refine ⟨?_, rfl, by rw [hff]; rfl⟩
        unfold Inv
        dsimp only
        rw [hff]
        exact ⟨_, [], rfl, hget, by simp⟩
      | none =>
        have hff : firstFailure (s.outcome ++ [none]) = none := by rw [firstFailure_append, he]; rfl
        have : checkLoop false done (s.outcome ++ [none]) [s.outcome.length] none [] s.finished =
            (.ok [], fun j => if j = s.outcome.length then true else s.finished j) := by
          simp [checkLoop]
        rw [this]
        refine ⟨?_, rfl, by rw [hff]; rfl⟩
        unfold Inv
        dsimp only
        rw [hff]
        refine ⟨rfl, ?_⟩
        intro i hi
        simp only [List.length_append, List.length_singleton] at hi
        by_cases hc : i = s.outcome.length
        · simp [hc]
        · simp [hc, h.2 i (by omega)]

theorem final_spec (s : St E) (h : Inv s) (ops : List (Op E × (Nat → Bool))) :
    Inv (final s ops) ∧ (final s ops).outcome = s.outcome ++ submitted ops := by
  induction ops generalizing s with
  | nil => exact ⟨h, by simp [final, submitted]⟩
  | cons op ops ih =>
    obtain ⟨op, done⟩ := op
    obtain ⟨a, b, _⟩ := apply_spec op done s h
    obtain ⟨c, d⟩ := ih _ a
    refine ⟨c, ?_⟩
    rw [final, d, b, List.append_assoc]
    cases op <;> rfl

theorem submitted_append (a b : List (Op E × (Nat → Bool))) : submitted (a ++ b) = submitted a ++ submitted b := by
  induction a with
  | nil => rfl
  | cons x a ih => obtain ⟨x, d⟩ := x; cases x <;> simp [submitted, ih]

theorem inv_empty : Inv (St.empty : St E) := ⟨rfl, fun i hi => by simp [St.empty] at hi⟩

/-- **C38.**  For every sequence of calls, every outcome of the tasks and every schedule: a call of `submit` or
`shutdown` (with or without `wait`) raises exactly when some task submitted so far — the one being submitted included —
fails, and what it raises is the exception of the first task that failed.  So no failure is ever lost, and nothing else
(no timeout, no unassigned variable) is raised. -/
theorem C38_reported (ops : List (Op E × (Nat → Bool))) (op : Op E) (done : Nat → Bool) :
    (apply op done (final St.empty ops)).1 = (firstFailure (submitted (ops ++ [(op, done)]))).map Exc.task := by
  obtain ⟨h1, h2⟩ := final_spec (St.empty : St E) inv_empty ops
  obtain ⟨_, _, h3⟩ := apply_spec op done _ h1
  rw [h3, h2]
  congr 2
  exact (submitted_append ops _).symm

/-- **C38**, the price: the executor is not asynchronous.  A call of `submit` or `shutdown` that returns normally returns
only after every task submitted so far, the one just submitted included, has finished. -/
theorem C38_synchronous (ops : List (Op E × (Nat → Bool))) (op : Op E) (done : Nat → Bool)
    (h : (apply op done (final St.empty ops)).1 = none) (i : Nat) (hi : i < (submitted (ops ++ [(op, done)])).length) :
    (apply op done (final St.empty ops)).2.finished i = true := by
  have hs : ∀ l : List (Op E × (Nat → Bool)), (apply op done (final St.empty l)).2 = final St.empty (l ++ [(op, done)]) := by
    intro l
    generalize (St.empty : St E) = s
    induction l generalizing s with
    | nil => rfl
    | cons a l ih => obtain ⟨a, d⟩ := a; simp only [final, List.cons_append]; exact ih _
  rw [C38_reported, Option.map_eq_none_iff] at h
  rw [hs]
  obtain ⟨h1, h2⟩ := final_spec (St.empty : St E) inv_empty (ops ++ [(op, done)])
  simp only [St.empty, List.nil_append] at h2
  unfold Inv at h1
  rw [show firstFailure (final St.empty (ops ++ [(op, done)])).outcome = none by simpa only [St.empty, h2] using h] at h1
  exact h1.2 i (by simpa only [St.empty, h2] using hi)

/-- Witness: the second of three tasks fails; the failure is reported at its own submission and at every later call,
whatever the schedule. -/
example (d : Nat → Bool) : run (St.empty : St String)
    [(.submit none, d), (.submit (some "disk full"), d), (.submit none, d), (.shutdown true, d), (.shutdown false, d)] =
    [none, some (.task "disk full"), some (.task "disk full"), some (.task "disk full"), some (.task "disk full")] := by
  simp [run, apply, check, checkLoop, St.empty]

example (d : Nat → Bool) : run (St.empty : St String) [(.submit none, d), (.submit none, d), (.shutdown true, d)] = [none, none, none] := by
  simp [run, apply, check, checkLoop, St.empty]

end Verif.Executor
