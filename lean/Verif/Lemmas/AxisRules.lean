import Verif.Spec.AxisRules
import Mathlib.Data.List.Induction
import Mathlib.Tactic.IntervalCases
/- Helper lemmas for the axis rules. -/
namespace Verif.AxisRules
open Verif.AxisRules.Spec

theorem noDuplicates_iff (names : List (Option Str)) : noDuplicates names = true ↔ Unique names := by
  induction names with
  | nil => exact ⟨fun _ i j n h => by simp at h, fun _ => rfl⟩
  | cons x l ih =>
    have key : Unique (x :: l) ↔ (∀ n, x = some n → some n ∉ l) ∧ Unique l := by
      constructor
      · intro h
        refine ⟨fun n hx hm => ?_, fun i j n hi hj => ?_⟩
        · obtain ⟨j, hj⟩ := List.mem_iff_getElem?.1 hm
          have := h 0 (j + 1) n (by simp [hx]) (by simpa using hj)
          omega
        · have := h (i + 1) (j + 1) n (by simpa using hi) (by simpa using hj)
          omega
      · rintro ⟨h1, h2⟩ i j n hi hj
        cases i with
        | zero =>
          cases j with
          | zero => rfl
          | succ j =>
            simp only [List.getElem?_cons_zero, Option.some.injEq] at hi
            simp only [List.getElem?_cons_succ] at hj
            exact absurd (List.mem_iff_getElem?.2 ⟨j, hj⟩) (h1 n hi)
        | succ i =>
          cases j with
          | zero =>
            simp only [List.getElem?_cons_zero, Option.some.injEq] at hj
            simp only [List.getElem?_cons_succ] at hi
            exact absurd (List.mem_iff_getElem?.2 ⟨i, hi⟩) (h1 n hj)
          | succ j =>
            simp only [List.getElem?_cons_succ] at hi hj
            rw [h2 i j n hi hj]
    rw [key]
    cases x with
    | none => simp [noDuplicates, ih]
    | some n => simp [noDuplicates, ih]

theorem findIdx_unique {names : List (Option Str)} (hu : Unique names) (n : Str) (pos : Nat) :
    names.findIdx? (· == some n) = some pos ↔ names[pos]? = some (some n) := by
  constructor
  · intro h
    rw [List.findIdx?_eq_some_iff_getElem] at h
    obtain ⟨h1, h2, -⟩ := h
    rw [List.getElem?_eq_getElem h1]
    simpa using h2
  · intro h
    obtain ⟨h1, h2⟩ := List.getElem?_eq_some_iff.1 h
    rw [List.findIdx?_eq_some_iff_getElem]
    refine ⟨h1, by simp [h2], fun j hj => ?_⟩
    intro hc
    have hc' : names[j] = some n := by simpa using hc
    have := hu j pos n (by rw [List.getElem?_eq_getElem (by omega), hc']) h
    omega

theorem free_iff (a : Axes) (res : List (Option Axes)) : free a res = true ↔ ∀ (i : Nat) (b : Axes), res[i]? = some (some b) → Disjoint a b := by
  unfold free
  rw [List.all_eq_true]
  constructor
  · intro h i b hi x hx
    have h1 := h _ (List.mem_iff_getElem?.2 ⟨i, hi⟩)
    cases b with
    | none => simp
    | some l =>
      simp only [List.all_eq_true] at h1
      have := h1 x hx
      simpa using this
  · intro h r hr
    obtain ⟨i, hi⟩ := List.mem_iff_getElem?.1 hr
    cases r with
    | none => rfl
    | some b =>
      cases b with
      | none => rfl
      | some l =>
        simp only [List.all_eq_true]
        intro x hx
        have := h i (some l) hi x hx
        simpa using this

/-- What holds after the rules `done`. -/
structure Inv (names : List (Option Str)) (done : List Rule) (res : List (Option Axes)) : Prop where
  len : res.length = names.length
  disj : ∀ (i j : Nat) (a b : Axes), i ≠ j → res[i]? = some (some a) → res[j]? = some (some b) → Disjoint a b
  src : ∀ (i : Nat) (a : Axes), res[i]? = some (some a) → ∃ n, names[i]? = some (some n) ∧ (n, a) ∈ done
  prio : ∀ (i k : Nat) (n : Str) (a : Axes), names[i]? = some (some n) → done[k]? = some (n, a) →
    (∃ k' b, k' ≤ k ∧ done[k']? = some (n, b) ∧ res[i]? = some (some b)) ∨
    (∃ i' k' n' b, i' ≠ i ∧ k' < k ∧ names[i']? = some (some n') ∧ done[k']? = some (n', b) ∧ res[i']? = some (some b) ∧ ¬ Disjoint a b)

theorem disjoint_symm {a b : Axes} (h : Disjoint a b) : Disjoint b a := fun x h1 h2 => h x h2 h1

theorem step_mono (names : List (Option Str)) (res : List (Option Axes)) (r : Rule) (i : Nat) (a : Axes) (h : res[i]? = some (some a)) :
    (step names res r)[i]? = some (some a) := by
  unfold step
  cases names.findIdx? (· == some r.1) with
  | none => exact h
  | some pos =>
    dsimp only
    split_ifs with hc
    · have hne : pos ≠ i := by
        rintro rfl
        rw [h] at hc
        simp at hc
      rw [List.getElem?_set_ne hne]
      exact h
    · exact h

theorem step_cases (names : List (Option Str)) (hu : Unique names) (res : List (Option Axes)) (r : Rule) (hl : res.length = names.length) :
    (step names res r = res ∧ ∀ i : Nat, names[i]? = some (some r.1) → (∃ b, res[i]? = some (some b)) ∨ free r.2 res = false) ∨
    (∃ pos, names[pos]? = some (some r.1) ∧ res[pos]? = some none ∧ free r.2 res = true ∧ step names res r = res.set pos (some r.2)) := by
  unfold step
  cases hp : names.findIdx? (· == some r.1) with
  | none =>
    refine Or.inl ⟨rfl, fun i hi => ?_⟩
    rw [(findIdx_unique hu r.1 i).2 hi] at hp
    cases hp
  | some pos =>
    have hpos := (findIdx_unique hu r.1 pos).1 hp
    dsimp only
    split_ifs with hc
    · simp only [Bool.and_eq_true, beq_iff_eq] at hc
      exact Or.inr ⟨pos, hpos, hc.2, hc.1, rfl⟩
    · refine Or.inl ⟨rfl, fun i hi => ?_⟩
      have : i = pos := hu i pos r.1 hi hpos
      subst this
      by_cases hf : free r.2 res = true
      · have hlt : i < res.length := by
          rw [hl]; exact (List.getElem?_eq_some_iff.1 hi).1
        left
        cases hr : res[i]? with
        | none => rw [List.getElem?_eq_none_iff] at hr; omega
        | some o =>
          cases o with
          | none => rw [hf, hr] at hc; simp at hc
          | some b => exact ⟨b, rfl⟩
      · exact Or.inr (by simpa using hf)

theorem inv_fold (names : List (Option Str)) (hu : Unique names) (rules : List Rule) :
    Inv names rules (rules.foldl (step names) (List.replicate names.length none)) := by
  induction rules using List.reverseRecOn with
  | nil =>
    refine ⟨by simp, ?_, ?_, ?_⟩
    · intro i j a b _ h; simp [List.getElem?_replicate] at h
    · intro i a h; simp [List.getElem?_replicate] at h
    · intro i k n a _ h; simp at h
  | append_singleton done r ih =>
    rw [List.foldl_append, List.foldl_cons, List.foldl_nil]
    generalize done.foldl (step names) (List.replicate names.length none) = res at ih
    have hdone : ∀ {k : Nat} {x : Rule}, done[k]? = some x → (done ++ [r])[k]? = some x := fun {k x} h => by
      rw [List.getElem?_append_left (List.getElem?_eq_some_iff.1 h).1]; exact h
    -- the old part of the priorities
    have hold : ∀ (i k : Nat) (n : Str) (a : Axes), names[i]? = some (some n) → done[k]? = some (n, a) →
        (∃ k' b, k' ≤ k ∧ (done ++ [r])[k']? = some (n, b) ∧ (step names res r)[i]? = some (some b)) ∨
        (∃ i' k' n' b, i' ≠ i ∧ k' < k ∧ names[i']? = some (some n') ∧ (done ++ [r])[k']? = some (n', b) ∧
          (step names res r)[i']? = some (some b) ∧ ¬ Disjoint a b) := by
      intro i k n a hi hk
      rcases ih.prio i k n a hi hk with ⟨k', b, h1, h2, h3⟩ | ⟨i', k', n', b, h1, h2, h3, h4, h5, h6⟩
      · exact Or.inl ⟨k', b, h1, hdone h2, step_mono _ _ _ _ _ h3⟩
      · exact Or.inr ⟨i', k', n', b, h1, h2, h3, hdone h4, step_mono _ _ _ _ _ h5, h6⟩
    have hk : ∀ {k : Nat} {x : Rule}, (done ++ [r])[k]? = some x → done[k]? = some x ∨ (k = done.length ∧ x = r) := fun {k x} h => by
      rcases Nat.lt_or_ge k done.length with hlt | hge
      · rw [List.getElem?_append_left hlt] at h; exact Or.inl h
      · rw [List.getElem?_append_right hge] at h
        obtain ⟨h1, h2⟩ := List.getElem?_eq_some_iff.1 h
        simp only [List.length_singleton] at h1
        exact Or.inr ⟨by omega, by simpa using h2.symm⟩
    -- where an assigned axis comes from
    have hsrc : ∀ (i : Nat) (a : Axes), res[i]? = some (some a) → ∃ n, names[i]? = some (some n) ∧ ∃ k, k < done.length ∧ done[k]? = some (n, a) := by
      intro i a h
      obtain ⟨n, h1, h2⟩ := ih.src i a h
      obtain ⟨k, hk⟩ := List.mem_iff_getElem?.1 h2
      exact ⟨n, h1, k, (List.getElem?_eq_some_iff.1 hk).1, hk⟩
    rcases step_cases names hu res r ih.len with ⟨hs, hn⟩ | ⟨pos, hpos, hnone, hfree, hs⟩
    · refine ⟨by rw [hs]; exact ih.len, by rw [hs]; exact ih.disj, ?_, ?_⟩
      · intro i a h
        rw [hs] at h
        obtain ⟨n, h1, h2⟩ := ih.src i a h
        exact ⟨n, h1, List.mem_append_left _ h2⟩
      · intro i k n a hi hka
        rcases hk hka with hd | ⟨rfl, rfl⟩
        · exact hold i k n a hi hd
        · rw [hs]
          rcases hn i hi with ⟨b, hb⟩ | hf
          · obtain ⟨n', h1, k', h2, h3⟩ := hsrc i b hb
            rw [hi] at h1
            cases h1
            exact Or.inl ⟨k', b, by omega, hdone h3, hb⟩
          · by_cases hb : ∃ b, res[i]? = some (some b)
            · obtain ⟨b, hb⟩ := hb
              obtain ⟨n', h1, k', h2, h3⟩ := hsrc i b hb
              rw [hi] at h1
              cases h1
              exact Or.inl ⟨k', b, by omega, hdone h3, hb⟩
            · have : ¬ ∀ (i : Nat) (b : Axes), res[i]? = some (some b) → Disjoint a b := by
                rw [← free_iff, hf]; simp
              push Not at this
              obtain ⟨i', b, h1, h2⟩ := this
              obtain ⟨n', h3, k', h4, h5⟩ := hsrc i' b h1
              refine Or.inr ⟨i', k', n', b, ?_, h4, h3, hdone h5, h1, h2⟩
              rintro rfl
              exact hb ⟨b, h1⟩
    · have hlt : pos < res.length := (List.getElem?_eq_some_iff.1 hnone).1
      rw [hs] at hold ⊢
      have hset : ∀ {i : Nat} {a : Axes}, (res.set pos (some r.2))[i]? = some (some a) → (i = pos ∧ a = r.2) ∨ (i ≠ pos ∧ res[i]? = some (some a)) := by
        intro i a h
        by_cases e : i = pos
        · subst e
          rw [List.getElem?_set_self hlt] at h
          exact Or.inl ⟨rfl, by simpa using h.symm⟩
        · rw [List.getElem?_set_ne (Ne.symm e)] at h
          exact Or.inr ⟨e, h⟩
      refine ⟨by rw [List.length_set]; exact ih.len, ?_, ?_, ?_⟩
      · intro i j a b hij ha hb
        rcases hset ha with ⟨rfl, rfl⟩ | ⟨_, ha'⟩
        · rcases hset hb with ⟨rfl, rfl⟩ | ⟨_, hb⟩
          · exact absurd rfl hij
          · exact (free_iff _ _).1 hfree j b hb
        · rcases hset hb with ⟨rfl, rfl⟩ | ⟨_, hb⟩
          · exact disjoint_symm ((free_iff _ _).1 hfree i a ha')
          · exact ih.disj i j a b hij ha' hb
      · intro i a ha
        rcases hset ha with ⟨rfl, rfl⟩ | ⟨_, ha⟩
        · exact ⟨r.1, hpos, by simp⟩
        · obtain ⟨n, h1, h2⟩ := ih.src i a ha
          exact ⟨n, h1, List.mem_append_left _ h2⟩
      · intro i k n a hi hka
        rcases hk hka with hd | ⟨rfl, rfl⟩
        · exact hold i k n a hi hd
        · have : i = pos := hu i pos n hi hpos
          subst this
          exact Or.inl ⟨done.length, a, le_refl _, hka, by rw [List.getElem?_set_self hlt]⟩

/-- What is known of a result. -/
structure Result (names : List (Option Str)) (rules : List Rule) (res : List Axes) : Prop where
  len : res.length = names.length
  disj : ∀ (i j : Nat) (a b : Axes), i ≠ j → res[i]? = some a → res[j]? = some b → Disjoint a b
  src : ∀ (i : Nat) (l : List Str), res[i]? = some (some l) → ∃ n, names[i]? = some (some n) ∧ (n, some l) ∈ rules
  prio : ∀ (i k : Nat) (n : Str) (a : Axes), names[i]? = some (some n) → rules[k]? = some (n, a) →
    (∃ k' b, k' ≤ k ∧ rules[k']? = some (n, b) ∧ res[i]? = some b) ∨
    (∃ i' k' n' b, i' ≠ i ∧ k' < k ∧ names[i']? = some (some n') ∧ rules[k']? = some (n', b) ∧ res[i']? = some b ∧ ¬ Disjoint a b)

theorem result_of {names : List (Option Str)} {rules : List Rule} {res : List Axes} (h : logicalToMesh names rules = .ok res) :
    Result names rules res := by
  unfold logicalToMesh at h
  by_cases hd : noDuplicates names = true
  · rw [if_pos hd] at h
    cases h
    have hi := inv_fold names ((noDuplicates_iff names).1 hd) rules
    generalize rules.foldl (step names) (List.replicate names.length none) = st at hi
    have hget : ∀ {i : Nat} {a : Axes}, (st.map (·.getD none))[i]? = some a → a = none ∨ st[i]? = some (some a) := by
      intro i a ha
      rw [List.getElem?_map] at ha
      cases hs : st[i]? with
      | none => rw [hs] at ha; cases ha
      | some o =>
        rw [hs] at ha
        cases o with
        | none => cases ha; exact Or.inl rfl
        | some b => cases ha; exact Or.inr rfl
    have hput : ∀ {i : Nat} {a : Axes}, st[i]? = some (some a) → (st.map (·.getD none))[i]? = some a := by
      intro i a ha
      rw [List.getElem?_map, ha]
      rfl
    refine ⟨by rw [List.length_map]; exact hi.len, ?_, ?_, ?_⟩
    · intro i j a b hij ha hb
      rcases hget ha with rfl | ha
      · intro x hx; cases hx
      · rcases hget hb with rfl | hb
        · intro x _ hx; cases hx
        · exact hi.disj i j a b hij ha hb
    · intro i l hl
      rcases hget hl with e | hl
      · cases e
      · exact hi.src i _ hl
    · intro i k n a hn hk
      rcases hi.prio i k n a hn hk with ⟨k', b, h1, h2, h3⟩ | ⟨i', k', n', b, h1, h2, h3, h4, h5, h6⟩
      · exact Or.inl ⟨k', b, h1, h2, hput h3⟩
      · exact Or.inr ⟨i', k', n', b, h1, h2, h3, h4, hput h5, h6⟩
  · rw [if_neg hd] at h
    cases h

theorem getElem_pre {pre post : List Rule} {r x : Rule} {k : Nat} (hk : k ≤ pre.length) (h : (pre ++ r :: post)[k]? = some x) : x ∈ pre ∨ x = r := by
  rcases Nat.lt_or_ge k pre.length with hlt | hge
  · rw [List.getElem?_append_left hlt] at h
    exact Or.inl (List.mem_iff_getElem?.2 ⟨k, h⟩)
  · have : k = pre.length := by omega
    subst this
    rw [List.getElem?_append_right (le_refl _)] at h
    simp only [Nat.sub_self, List.getElem?_cons_zero, Option.some.injEq] at h
    exact Or.inr h.symm

theorem getElem_pre_lt {pre post : List Rule} {r x : Rule} {k : Nat} (hk : k < pre.length) (h : (pre ++ r :: post)[k]? = some x) : x ∈ pre := by
  rw [List.getElem?_append_left hk] at h
  exact List.mem_iff_getElem?.2 ⟨k, h⟩

/-- A rule that nothing before prevents is applied. -/
theorem winner {names : List (Option Str)} {res : List Axes} (pre post : List Rule) (n : Str) (a : Axes) (h : Result names (pre ++ (n, a) :: post) res)
    (i : Nat) (hi : names[i]? = some (some n)) (h1 : ∀ r ∈ pre, r.1 ≠ n) (h2 : ∀ r ∈ pre, some r.1 ∈ names → Disjoint a r.2) : res[i]? = some a := by
  have hk : (pre ++ (n, a) :: post)[pre.length]? = some (n, a) := by
    rw [List.getElem?_append_right (le_refl _)]; simp
  rcases h.prio i pre.length n a hi hk with ⟨k', b, e1, e2, e3⟩ | ⟨i', k', n', b, e1, e2, e3, e4, e5, e6⟩
  · rcases getElem_pre e1 e2 with hm | hm
    · exact absurd rfl (h1 _ hm)
    · cases hm; exact e3
  · exact absurd (h2 _ (getElem_pre_lt e2 e4) (List.mem_iff_getElem?.2 ⟨i', e3⟩)) e6

/-- Whether or not a rule is applied, somebody has its axes afterwards. -/
theorem someone {names : List (Option Str)} {res : List Axes} (pre post : List Rule) (n : Str) (a : Axes) (h : Result names (pre ++ (n, a) :: post) res)
    (hn : some n ∈ names) (h1 : ∀ r ∈ pre, r.1 ≠ n) (ha : ¬ Disjoint a a) :
    ∃ (i : Nat) (n' : Str) (b : Axes), names[i]? = some (some n') ∧ ((n', b) ∈ pre ∨ (n', b) = (n, a)) ∧ res[i]? = some b ∧ ¬ Disjoint a b := by
  obtain ⟨i, hi⟩ := List.mem_iff_getElem?.1 hn
  have hk : (pre ++ (n, a) :: post)[pre.length]? = some (n, a) := by
    rw [List.getElem?_append_right (le_refl _)]; simp
  rcases h.prio i pre.length n a hi hk with ⟨k', b, e1, e2, e3⟩ | ⟨i', k', n', b, e1, e2, e3, e4, e5, e6⟩
  · rcases getElem_pre e1 e2 with hm | hm
    · exact absurd rfl (h1 _ hm)
    · cases hm; exact ⟨i, n, a, hi, Or.inr rfl, e3, ha⟩
  · exact ⟨i', n', b, e3, Or.inl (getElem_pre_lt e2 e4), e5, e6⟩

instance (a b : Axes) : Decidable (Disjoint a b) :=
  decidable_of_iff (∀ x ∈ a.getD [], x ∉ b.getD []) Iff.rfl

end Verif.AxisRules
