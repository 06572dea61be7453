import Verif.Spec.EarlyStop
/- Property C33. -/
namespace Verif.EarlyStop
open Spec

variable {K : Type} [Field K] [LinearOrder K] [IsStrictOrderedRing K]

theorem compareFn_iff (c : Cfg K) (a b : K) : compareFn c a b = true ↔ NoImprovement c a b := by
  unfold compareFn NoImprovement
  cases c.mode <;> simp only [decide_eq_true_eq] <;> constructor <;> intro h <;> linarith

theorem stalled_iff (c : Cfg K) (h : List K) (hl : c.patience ≤ h.length) :
    stalled c h = true ↔ ∀ j, j + 1 < c.patience → ∀ a b, h[j + 1]? = some a → h[j]? = some b → NoImprovement c a b := by
  unfold stalled
  rw [List.all_eq_true]
  constructor
  · intro hh j hj a b ha hb
    have := hh j (List.mem_range.2 (by omega))
    rw [ha, hb] at this
    exact (compareFn_iff c a b).1 this
  · intro hh j hj
    have hj := List.mem_range.1 hj
    rw [List.getElem?_eq_getElem (show j + 1 < h.length by omega), List.getElem?_eq_getElem (show j < h.length by omega)]
    exact (compareFn_iff c _ _).2 (hh j (by omega) _ _ (List.getElem?_eq_getElem _) (List.getElem?_eq_getElem _))

/-- What the kept history knows about all recorded values. -/
def Inv (c : Cfg K) (vs h : List K) : Prop :=
  (¬ Stalled c vs ∧ h = vs.drop (vs.length - min vs.length (c.patience - 1))) ∨
  (Stalled c vs ∧ c.patience ≤ h.length ∧
    ∀ j, j + 1 < c.patience → ∀ a b, h[j + 1]? = some a → h[j]? = some b → NoImprovement c a b)

omit [IsStrictOrderedRing K] in
theorem stalled_append (c : Cfg K) (vs ws : List K) (h : Stalled c vs) : Stalled c (vs ++ ws) := by
  obtain ⟨i, hi, hh⟩ := h
  refine ⟨i, by simp; omega, ?_⟩
  intro j hj a b ha hb
  rw [List.getElem?_append_left (by omega)] at ha hb
  exact hh j hj a b ha hb

theorem run_inv (c : Cfg K) (vs h : List K) (v : K) (hi : Inv c vs h) :
    Inv c (vs ++ [v]) (run c h (some v)).1 ∧ ((run c h (some v)).2 = true ↔ Stalled c (vs ++ [v])) := by
  simp only [run]
  rcases hi with ⟨hn, hh⟩ | ⟨hs, hl, hh⟩
  · -- nothing found so far
    have hlen : h.length = min vs.length (c.patience - 1) := by rw [hh]; simp; omega
    by_cases h1 : (h ++ [v]).length < c.patience
    · rw [if_pos h1]
      simp only [List.length_append, List.length_cons, List.length_nil] at h1
      have hlt : vs.length + 1 < c.patience := by omega
      have hns : ¬ Stalled c (vs ++ [v]) := by
        rintro ⟨i, hi, _⟩; simp at hi; omega
      refine ⟨Or.inl ⟨hns, ?_⟩, by simp [hns]⟩
      rw [hh, Nat.min_eq_left (by omega), Nat.min_eq_left (by simp; omega)]
      simp
    · rw [if_neg h1]
      simp only [List.length_append, List.length_cons, List.length_nil] at h1
      -- the window is the last `patience` values
      have hp : c.patience ≤ vs.length + 1 := by omega
      have hwin : h ++ [v] = (vs ++ [v]).drop (vs.length + 1 - max c.patience 1) := by
        rw [hh, List.drop_append_of_le_length (by omega)]
        congr 2
        omega
      have hget : ∀ j, (h ++ [v])[j]? = (vs ++ [v])[(vs.length + 1 - max c.patience 1) + j]? := by
        intro j; rw [hwin, List.getElem?_drop]
      have hst : stalled c (h ++ [v]) = true ↔ Stalled c (vs ++ [v]) := by
        rw [stalled_iff c (h ++ [v]) (by simp; omega)]
        constructor
        · intro hh2
          refine ⟨vs.length + 1 - max c.patience 1, by simp; omega, ?_⟩
          intro j hj a b ha hb
          exact hh2 j hj a b (by rw [hget]; exact ha) (by rw [hget]; exact hb)
        · rintro ⟨i, hi, hh2⟩ j hj a b ha hb
          rw [hget] at ha hb
          simp only [List.length_append, List.length_cons, List.length_nil] at hi
          by_cases hlast : i + c.patience ≤ vs.length
          · exfalso
            apply hn
            refine ⟨i, hlast, ?_⟩
            intro j hj a b ha hb
            exact hh2 j hj a b (by rw [List.getElem?_append_left (by omega)]; exact ha) (by rw [List.getElem?_append_left (by omega)]; exact hb)
          · have : i = vs.length + 1 - max c.patience 1 := by omega
            rw [← this] at ha hb
            exact hh2 j hj a b ha hb
      by_cases h2 : stalled c (h ++ [v]) = true
      · rw [if_pos h2]
        refine ⟨Or.inr ⟨hst.1 h2, by simp; omega, (stalled_iff c _ (by simp; omega)).1 h2⟩, by simp [hst.1 h2]⟩
      · rw [if_neg h2]
        have hns : ¬ Stalled c (vs ++ [v]) := fun hc => h2 (hst.2 hc)
        refine ⟨Or.inl ⟨hns, ?_⟩, by simp [hns]⟩
        have hp1 : 1 < c.patience := by
          by_contra hc
          apply h2
          rw [stalled_iff c _ (by simp; omega)]
          intro j hj; omega
        show (h ++ [v]).drop 1 = _
        rw [hwin, List.drop_drop]
        congr 1
        simp; omega
  · have hS : Stalled c (vs ++ [v]) := stalled_append c vs [v] hs
    have hh2 : ∀ j, j + 1 < c.patience → ∀ a b, (h ++ [v])[j + 1]? = some a → (h ++ [v])[j]? = some b → NoImprovement c a b := by
      intro j hj a b ha hb
      rw [List.getElem?_append_left (by omega)] at ha hb
      exact hh j hj a b ha hb
    rw [if_neg (by simp; omega), if_pos ((stalled_iff c _ (by simp; omega)).2 hh2)]
    exact ⟨Or.inr ⟨hS, by simp; omega, hh2⟩, by simp [hS]⟩

theorem runs_append (c : Cfg K) (h : List K) (a b : List (Option K)) :
    runs c h (a ++ b) = ((runs c (runs c h a).1 b).1, (runs c h a).2 ++ (runs c (runs c h a).1 b).2) := by
  induction a generalizing h with
  | nil => simp [runs]
  | cons x a ih => simp [runs, ih]

theorem runs_inv (c : Cfg K) (es : List (Option K)) (vs h : List K) (hi : Inv c vs h) :
    Inv c (vs ++ es.filterMap id) (runs c h es).1 := by
  induction es generalizing vs h with
  | nil => simpa [runs] using hi
  | cons e es ih =>
    cases e with
    | none => simpa [runs, run] using ih vs h hi
    | some v =>
      have := ih (vs ++ [v]) _ (run_inv c vs h v hi).1
      simpa [runs] using this

theorem inv_nil (c : Cfg K) : Inv c [] [] := by
  by_cases hp : c.patience = 0
  · refine Or.inr ⟨⟨0, by simp [hp], by intro j hj; omega⟩, by simp [hp], by intro j hj; omega⟩
  · refine Or.inl ⟨?_, by simp⟩
    rintro ⟨i, hi, _⟩
    simp at hi; omega

/-- C33: after any history of runs, a run that records a value asks to stop exactly when somewhere in the recorded
values (including this one) `patience` consecutive values did not improve on each other by more than the tolerance. -/
theorem C33_stop_iff (c : Cfg K) (es : List (Option K)) (v : K) :
    (run c (runs c [] es).1 (some v)).2 = true ↔ Stalled c (es.filterMap id ++ [v]) := by
  have := runs_inv c es [] [] (inv_nil c)
  rw [List.nil_append] at this
  exact (run_inv c _ _ v this).2

/-- C33: once a stop has been asked for, every later run that records a value asks again. -/
theorem C33_latch (c : Cfg K) (es fs : List (Option K)) (v w : K)
    (h : (run c (runs c [] es).1 (some v)).2 = true) :
    (run c (runs c [] (es ++ some v :: fs)).1 (some w)).2 = true := by
  rw [C33_stop_iff] at h ⊢
  have := stalled_append c _ (fs.filterMap id ++ [w]) h
  simpa using this

/-- C33: a run that finds no value neither asks to stop nor changes anything. -/
theorem C33_missing (c : Cfg K) (h : List K) : run c h none = (h, false) := rfl

/-- C33, an edge: with patience 0 or 1 the first recorded value already asks to stop. -/
theorem C33_patience_one (c : Cfg K) (hp : c.patience ≤ 1) (v : K) : (run c [] (some v)).2 = true := by
  have := (C33_stop_iff c [] v).2
  simp only [runs] at this
  apply this
  exact ⟨0, by simp; omega, by intro j hj; omega⟩

/-- Loss 5, 4, 4, 4: two comparisons without improvement at patience 3. -/
example : (runs (⟨.min, 3, 0, 0⟩ : Cfg ℚ) [] [some 5, some 4, none, some 4, some 4, some 1]).2 = [false, false, false, false, true, true] := by
  decide +kernel

example : Stalled (⟨.min, 3, 0, 0⟩ : Cfg ℚ) [5, 4, 4, 4] := by
  have := (C33_stop_iff (⟨.min, 3, 0, 0⟩ : Cfg ℚ) [some 5, some 4, some 4] 4).1 (by decide +kernel)
  simpa using this

end Verif.EarlyStop
