import Verif.Lemmas.CkptName
/-
Property C23: names of checkpoint directories.
-/
namespace Verif.Ckpt
open Verif

/-- C23: for every prefix, parent directory, step and zero-fill width, the step
and the parent directory can be read back from the checkpoint path. -/
theorem C23_round_trip (pfx d : Name) (hp : '/' ∉ pfx) (hd : d ≠ []) (hs : d.getLast? ≠ some '/')
    (step : Nat) (width : Option Nat) :
    getStepFromCheckpointDir pfx (getCheckpointDir pfx d step width) = some (d, step) ∧
    getStepFromCheckpointDir pfx (getCheckpointDir pfx d step width ++ ['/']) = some (d, step) := by
  have hname : ∀ c ∈ pfx ++ '_' :: stepStr width step, c ≠ '/' := by
    intro c hc
    rcases List.mem_append.1 hc with h | h
    · rintro rfl; exact hp h
    · rcases List.mem_cons.1 h with rfl | h
      · decide
      · rintro rfl; exact not_digit_slash (stepStr_digits _ _ _ h)
  have hus : '_' ∉ stepStr width step := fun h => not_digit_us (stepStr_digits _ _ _ h)
  have hnorm : normDir d = d := by
    unfold normDir
    split_ifs
    · rfl
    · exact rstrip_of_not_slash d hs
  have hlast : (getCheckpointDir pfx d step width).getLast? ≠ some '/' := by
    rw [getCheckpointDir_eq]
    obtain ⟨t, x, ht⟩ := List.eq_nil_or_concat' (stepStr width step) |>.resolve_left (stepStr_ne_nil _ _)
    have hx : x ≠ '/' := by
      rintro rfl
      exact not_digit_slash (stepStr_digits width step _ (by simp [ht]))
    unfold pathJoin
    split_ifs <;> simp [ht, hx, List.getLast?_cons]
  have main : (let (parent, checkpoint) := pathSplit (getCheckpointDir pfx d step width)
      if contains checkpoint pfx then
        (parseInt (removeAll (pfx ++ ['_']) 0 checkpoint)).map fun n => (parent, n)
      else none) = some (d, step) := by
    rw [getCheckpointDir_eq, pathSplit_join d _ hname]
    simp only [contains_self_append, if_true, removeAll_name pfx _ hus, parseInt_stepStr, hnorm]
    rfl
  constructor
  · unfold getStepFromCheckpointDir
    rw [if_neg hlast]
    exact main
  · unfold getStepFromCheckpointDir
    rw [if_pos (by simp)]
    simp only [List.dropLast_concat]
    exact main

/-- C23: distinct steps have distinct directories. -/
theorem C23_distinct (pfx d : Name) (a b : Nat) (w : Option Nat)
    (h : getCheckpointDir pfx d a w = getCheckpointDir pfx d b w) : a = b := by
  rw [getCheckpointDir_eq, getCheckpointDir_eq] at h
  have h2 : stepStr w a = stepStr w b := by
    unfold pathJoin at h
    split_ifs at h
    · have := List.append_cancel_left h
      have := List.append_cancel_left this
      exact (List.cons.inj this).2
    · have := List.append_cancel_left h
      have := List.append_cancel_left (List.cons.inj this).2
      exact (List.cons.inj this).2
  have h3 := parseInt_stepStr w a
  rw [h2, parseInt_stepStr w b] at h3
  exact (Option.some.inj h3).symm

/-- C23: `all_steps` is in increasing order and lists a step as often as there are
entries called `checkpoint_<digits of that step>`, nothing else. -/
theorem C23_all_steps (entries : List Name) :
    (allStepsOf entries).Pairwise (· ≤ ·) ∧
    (∀ n, n ∈ allStepsOf entries ↔ ∃ ds, "checkpoint_".toList ++ ds ∈ entries ∧ ds ≠ [] ∧
      (∀ c ∈ ds, c.isDigit = true) ∧ Nat.ofDigitChars 10 ds 0 = n) ∧
    (∀ n, "checkpoint_".toList ++ dec n ∈ entries → n ∈ allStepsOf entries) ∧
    (∀ n, latestOf entries = some n ↔ n ∈ allStepsOf entries ∧ ∀ m ∈ allStepsOf entries, m ≤ n) ∧
    (latestOf entries = none ↔ allStepsOf entries = []) := by
  have hmem : ∀ n, n ∈ allStepsOf entries ↔ ∃ ds, "checkpoint_".toList ++ ds ∈ entries ∧ ds ≠ [] ∧
      (∀ c ∈ ds, c.isDigit = true) ∧ Nat.ofDigitChars 10 ds 0 = n := by
    intro n
    rw [mem_allStepsOf]
    constructor
    · rintro ⟨e, he, h⟩
      obtain ⟨ds, rfl, h1, h2, h3⟩ := (stepOfName_iff e n).1 h
      exact ⟨ds, he, h1, h2, h3⟩
    · rintro ⟨ds, he, h1, h2, h3⟩
      exact ⟨_, he, (stepOfName_iff _ n).2 ⟨ds, rfl, h1, h2, h3⟩⟩
  refine ⟨allStepsOf_sorted entries, hmem, ?_, ?_, ?_⟩
  · intro n hn
    exact (mem_allStepsOf entries n).2 ⟨_, hn, stepOfName_ckptName n⟩
  · intro n
    unfold latestOf
    have hs := allStepsOf_sorted entries
    generalize allStepsOf entries = l at hs
    rcases List.eq_nil_or_concat' l with rfl | ⟨t, x, rfl⟩
    · simp
    · simp only [List.getLast?_append, List.getLast?_singleton, Option.some_or, Option.some.injEq]
      rw [List.pairwise_append] at hs
      constructor
      · rintro rfl
        refine ⟨by simp, ?_⟩
        intro m hm
        rcases List.mem_append.1 hm with h | h
        · exact hs.2.2 m h x (by simp)
        · simp at h; omega
      · rintro ⟨h1, h2⟩
        have := h2 x (by simp)
        rcases List.mem_append.1 h1 with h | h
        · have := hs.2.2 n h x (by simp); omega
        · simp at h; omega
  · unfold latestOf; simp

/-- C23: temporary directories are never reported, whatever their time stamp,
and neither is any name with a non-digit after the prefix. -/
theorem C23_tmp_ignored (n stamp : Nat) : stepOfName (tmpName n stamp) = none := by
  cases h : stepOfName (tmpName n stamp) with
  | none => rfl
  | some m =>
    obtain ⟨ds, h1, _, h3, _⟩ := (stepOfName_iff _ m).1 h
    have : ds = dec n ++ ".tmp-".toList ++ dec stamp := by
      unfold tmpName ckptName at h1
      rw [List.append_assoc, List.append_assoc] at h1
      rw [List.append_assoc]
      exact (List.append_cancel_left h1).symm
    have := h3 '.' (by rw [this]; simp)
    exact absurd this (by decide)

/-- C23 does not extend to the configurable prefix: checkpoints written under any
other prefix are never listed by `all_steps`. -/
theorem C23_custom_prefix_not_listed (pfx : Name) (h : pfx ≠ "checkpoint".toList) (n : Nat) :
    stepOfName (pfx ++ '_' :: dec n) = none := by
  cases hs : stepOfName (pfx ++ '_' :: dec n) with
  | none => rfl
  | some m =>
    exfalso
    obtain ⟨ds, h1, _, h3, _⟩ := (stepOfName_iff _ m).1 hs
    have hu1 : '_' ∉ dec n := fun h => not_digit_us (dec_digits n _ h)
    have hu2 : '_' ∉ ds := fun h => not_digit_us (h3 _ h)
    have h1' : pfx ++ '_' :: dec n = "checkpoint".toList ++ '_' :: ds := h1
    have hr := congrArg List.reverse h1'
    simp only [List.reverse_append, List.reverse_cons, List.append_assoc, List.singleton_append] at hr
    have a1 : ∀ c ∈ (dec n).reverse, (c != '_') = true := by
      intro c hc; have := List.mem_reverse.1 hc
      simp only [bne_iff_ne, ne_eq]; rintro rfl; exact hu1 this
    have a2 : ∀ c ∈ ds.reverse, (c != '_') = true := by
      intro c hc; have := List.mem_reverse.1 hc
      simp only [bne_iff_ne, ne_eq]; rintro rfl; exact hu2 this
    have e := congrArg (List.dropWhile (· != '_')) hr
    rw [dropWhile_append_all _ _ _ a1, dropWhile_append_all _ _ _ a2] at e
    simp only [List.dropWhile_cons, bne_self_eq_false, Bool.false_eq_true, if_false,
      List.cons.injEq, true_and] at e
    exact h (List.reverse_injective e)

example : getCheckpointDir "checkpoint".toList "/m/run".toList 120 (some 5) = "/m/run/checkpoint_00120".toList ∧
    getStepFromCheckpointDir "checkpoint".toList "/m/run/checkpoint_00120/".toList =
      some ("/m/run".toList, 120) := by decide
example : allStepsOf ["checkpoint_20".toList, "checkpoint_7".toList, "checkpoint_30.tmp-55".toList,
    "config.gin".toList] = [7, 20] := by decide
/-- Zero-filled names are listed too, so a step can be listed twice. -/
example : allStepsOf ["checkpoint_7".toList, "checkpoint_007".toList] = [7, 7] := by decide
example : ("ckpt".toList ≠ "checkpoint".toList) ∧
    allStepsOf [getCheckpointDir "ckpt".toList [] 7] = [] := by decide

end Verif.Ckpt
