import Verif.Props.MultiOpt
import Verif.Spec.MultiAxes
namespace Verif.MultiAxes
open Verif Verif.StateDict Verif.MultiOpt Verif.MultiAxes.Spec
open Verif.MultiOpt.Spec (SamePaths Part Owns)
open Verif.OptaxState.Spec (arrayAt ProperDict)

variable {X S Y : Type}

/-- An optimizer with the same traversal, to use the lemmas about `MultiOptimizer`. -/
def twin (P : Type) (o : AxSub X S Y) : Sub P Unit Unit := ⟨o.focus, fun _ => (0, .nil), fun _ ps st _ => (ps, st)⟩

theorem piece_of_subtree {β : Type} (o : AxSub X S Y) (d : Dict β) (hd : ProperDict d) : ∃ s, subtree o.focus d = some s ∧ Piece o s d := by
  obtain ⟨s, h1, h2⟩ := part_of_subtree (twin Unit o) d hd
  exact ⟨s, h1, h2⟩

theorem deriveLoop_spec (axes : Dict X) (states : Dict (Option S)) (ha : ProperDict axes) (hs : ProperDict states) :
    ∀ (L : List (AxSub X S Y)), (∀ x ∈ L, Fits x) → ∀ acc : Dict (Option Y), ProperDict acc → SamePaths acc states →
      ∃ r, deriveLoop axes states L acc = some r ∧ SamePaths r states ∧
        (∀ p, (∀ x ∈ L, x.derive.isSome → ¬ Selects x p) → arrayAt r p = arrayAt acc p) ∧
        ∀ (i : Nat) (o : AxSub X S Y) f, L[i]? = some o → o.derive = some f → ∃ ps ss, Piece o ps axes ∧ Piece o ss states ∧
          ∀ p, Selects o p → arrayAt states p ≠ none → (∀ (j : Nat) (x : AxSub X S Y), i < j → L[j]? = some x → ¬ Selects x p) →
            arrayAt r p = arrayAt (f ps ss) p := by
  intro L
  induction L with
  | nil =>
    intro _ acc _ h
    exact ⟨acc, rfl, h, fun p _ => rfl, by intro i o f h; simp at h⟩
  | cons o L ih =>
    intro hl acc a1 a2
    cases hf : o.derive with
    | none =>
      obtain ⟨r, r1, r2, r3, r4⟩ := ih (fun x hx => hl x (List.mem_cons_of_mem _ hx)) acc a1 a2
      refine ⟨r, by simp only [deriveLoop, hf, r1], r2, fun p hp => r3 p (fun x hx => hp x (List.mem_cons_of_mem _ hx)), ?_⟩
      intro i o' f hi hf'
      cases i with
      | zero =>
        simp only [List.getElem?_cons_zero, Option.some.injEq] at hi
        subst hi
        rw [hf] at hf'
        cases hf'
      | succ i =>
        obtain ⟨ps, ss, q1, q2, q3⟩ := r4 i o' f (by simpa using hi) hf'
        exact ⟨ps, ss, q1, q2, fun p ho hn hlast => q3 p ho hn (fun j x hj hx => hlast (j + 1) x (Nat.succ_lt_succ hj) (by simpa using hx))⟩
    | some f =>
      obtain ⟨ps, e1, p1⟩ := piece_of_subtree o axes ha
      obtain ⟨ss, e2, p2⟩ := piece_of_subtree o states hs
      obtain ⟨k1, k2⟩ := hl o List.mem_cons_self f hf ps ss p1.1 p2.1
      obtain ⟨b, c1, c2, c3, c4, c5⟩ := write_back (twin (Option S) o) states ss p2 acc (f ps ss) a1 a2 k1 k2
      obtain ⟨r, r1, r2, r3, r4⟩ := ih (fun x hx => hl x (List.mem_cons_of_mem _ hx)) b c2 c3
      have c1' : updateSubtree o.focus acc (f ps ss) = some b := c1
      refine ⟨r, by simp only [deriveLoop, hf, e1, e2, c1', r1], r2, ?_, ?_⟩
      · intro p hp
        exact (r3 p (fun x hx => hp x (List.mem_cons_of_mem _ hx))).trans (c4 p (hp o List.mem_cons_self (by simp [hf])))
      · intro i o' f' hi hf'
        cases i with
        | zero =>
          simp only [List.getElem?_cons_zero, Option.some.injEq] at hi
          subst hi
          rw [hf] at hf'
          cases hf'
          refine ⟨ps, ss, p1, p2, fun p ho hn hlast => ?_⟩
          have hno : ∀ x ∈ L, x.derive.isSome → ¬ Selects x p := by
            intro x hx _
            obtain ⟨j, hj, e⟩ := List.getElem_of_mem hx
            exact hlast (j + 1) x (Nat.succ_pos _) (by simp [← e])
          rw [r3 p hno]
          exact c5 p ho hn
        | succ i =>
          obtain ⟨ps, ss, q1, q2, q3⟩ := r4 i o' f' (by simpa using hi) hf'
          exact ⟨ps, ss, q1, q2, fun p ho hn hlast => q3 p ho hn (fun j x hj hx => hlast (j + 1) x (Nat.succ_lt_succ hj) (by simpa using hx))⟩

/-- **C134** (axes of the state).  With non-overlapping traversals the logical axes of the state of a parameter are those that its own optimizer derives, from the
axes and states of its parameters; a state `None` (of a parameter without optimizer) has axes `None`; if its optimizer derives no axes, all arrays of the state
get `None`.  There are axes exactly where there are states. -/
theorem C134_axes (blank : S → Y) (os : List (AxSub X S Y)) (axes : Dict X) (states : Dict (Option S)) (ha : ProperDict axes) (hs : ProperDict states)
    (hl : ∀ o ∈ os, Fits o) (hd : Apart os states) :
    ∃ r, deriveAxes blank os axes states = some r ∧ SamePaths r states ∧
      (∀ p, (∀ o ∈ os, ¬ Selects o p) → arrayAt r p = (arrayAt states p).map (Option.map blank)) ∧
      ∀ (i : Nat) (o : AxSub X S Y), os[i]? = some o →
        (o.derive = none → ∀ p, Selects o p → arrayAt r p = (arrayAt states p).map (Option.map blank)) ∧
        ∀ f, o.derive = some f → ∃ ps ss, Piece o ps axes ∧ Piece o ss states ∧
          ∀ p, Selects o p → arrayAt states p ≠ none → arrayAt r p = arrayAt (f ps ss) p := by
  obtain ⟨r, r1, r2, r3, r4⟩ := deriveLoop_spec axes states ha hs os hl (treeMap (Option.map blank) states) (treeMap_proper _ _ hs) (samePaths_treeMap _ _)
  refine ⟨r, r1, r2, fun p hp => (r3 p fun x hx _ => hp x hx).trans (arrayAt_treeMap _ _ _), ?_⟩
  intro i o hi
  constructor
  · intro hn p hp
    by_cases he : arrayAt states p = none
    · have := r2 p
      rw [he] at this ⊢
      cases h : arrayAt r p with
      | none => rfl
      | some a => rw [h] at this; cases this
    · refine (r3 p fun x hx hsome hsel => ?_).trans (arrayAt_treeMap _ _ _)
      obtain ⟨j, hj, e⟩ := List.getElem_of_mem hx
      have hj' : os[j]? = some x := by rw [← e]; exact List.getElem?_eq_getElem hj
      have := hd p he i j o x hi hj' hp hsel
      subst this
      rw [hi] at hj'
      cases hj'
      rw [hn] at hsome
      cases hsome
  · intro f hf
    obtain ⟨ps, ss, q1, q2, q3⟩ := r4 i o f hi hf
    exact ⟨ps, ss, q1, q2, fun p hp he => q3 p hp he (fun j x hij hx hsel => absurd (hd p he i j o x hi hx hp hsel) (Nat.ne_of_lt hij))⟩

/-- **C134** (axes of the parameters).  `set_param_axes` gives each optimizer that has this method the axes of its own parameters, and only those. -/
theorem C134_set_axes (os : List (AxSub X S Y)) (axes : Dict X) (ha : ProperDict axes) :
    ∃ l, setAxes os axes = some l ∧ l.length = os.length ∧
      ∀ (i : Nat) (o : AxSub X S Y), os[i]? = some o →
        (o.setsAxes = false → l[i]? = some none) ∧ (o.setsAxes = true → ∃ t, l[i]? = some (some t) ∧ Piece o t axes) := by
  induction os with
  | nil => exact ⟨[], rfl, rfl, by intro i o h; simp at h⟩
  | cons o os ih =>
    obtain ⟨l, h1, h2, h3⟩ := ih
    obtain ⟨t, e1, p1⟩ := piece_of_subtree o axes ha
    refine ⟨(if o.setsAxes then some t else none) :: l, by simp only [setAxes, e1, h1, Option.map_some], by simp [h2], ?_⟩
    intro i o' hi
    cases i with
    | zero =>
      simp only [List.getElem?_cons_zero, Option.some.injEq] at hi
      subst hi
      constructor
      · intro h; simp [h]
      · intro h; exact ⟨t, by simp [h], p1⟩
    | succ i => simpa using h3 i o' (by simpa using hi)

/-! ### The hypotheses are met: one optimizer derives axes, one does not, a third parameter has no optimizer -/

section Examples

def exStates : Dict (Option Nat) :=
  .sub ['a'] (.leaf ['w'] (some 10) .nil) (.sub ['b'] (.leaf ['w'] (some 20) (.leaf ['c'] none .nil)) .nil)
def exAxes : Dict Nat :=
  .sub ['a'] (.leaf ['w'] 1 .nil) (.sub ['b'] (.leaf ['w'] 2 (.leaf ['c'] 3 .nil)) .nil)
def exOsA : List (AxSub Nat Nat Nat) :=
  [⟨fun p => p = "/a/w".toList, some fun _ ss => treeMap (Option.map (· + 1)) ss, true⟩, ⟨fun p => p = "/b/w".toList, none, false⟩]

theorem exStates_proper : ProperDict exStates := by simp [ProperDict, StateDict.Spec.Proper, exStates, Dict.keys]
theorem exAxes_proper : ProperDict exAxes := by simp [ProperDict, StateDict.Spec.Proper, exAxes, Dict.keys]

theorem exOsA_fits : ∀ o ∈ exOsA, Fits o := by
  intro o ho f hf ps ss hp hs
  simp only [exOsA, List.mem_cons, List.not_mem_nil, or_false] at ho
  rcases ho with rfl | rfl
  · cases hf
    exact ⟨treeMap_proper _ _ hs, samePaths_treeMap _ _⟩
  · cases hf

theorem exOsA_apart : Apart exOsA exStates := by
  intro p _ i j oi oj hi hj h1 h2
  rcases i with _ | _ | i <;> rcases j with _ | _ | j <;> simp [exOsA] at hi hj <;> first | rfl | skip
  all_goals
    subst hi hj
    simp only [Selects, decide_eq_true_eq] at h1 h2
    rw [h1] at h2
    exact absurd h2 (by decide)

example : ∃ r, deriveAxes (fun _ => 0) exOsA exAxes exStates = some r ∧ arrayAt r ["a".toList, "w".toList] = some (some 11) ∧
    arrayAt r ["b".toList, "w".toList] = some (some 0) ∧ arrayAt r ["b".toList, "c".toList] = some none := by
  obtain ⟨r, h1, -, h3, h4⟩ := C134_axes (fun _ => 0) exOsA exAxes exStates exAxes_proper exStates_proper exOsA_fits exOsA_apart
  refine ⟨r, h1, ?_, ?_, ?_⟩
  · obtain ⟨ps, ss, -, q2, q3⟩ := (h4 0 _ rfl).2 _ rfl
    rw [q3 _ (by unfold Selects; decide) (by decide), arrayAt_treeMap, q2.2.1 _ (by unfold Selects; decide)]
    rfl
  · rw [(h4 1 _ rfl).1 rfl _ (by unfold Selects; decide)]
    rfl
  · rw [h3 _ (by
      intro o ho
      simp only [exOsA, List.mem_cons, List.not_mem_nil, or_false] at ho
      rcases ho with rfl | rfl <;> (unfold Selects; decide))]
    rfl

example : ∃ l, setAxes exOsA exAxes = some l ∧ l.length = 2 ∧ l[1]? = some none := by
  obtain ⟨l, h1, h2, h3⟩ := C134_set_axes exOsA exAxes exAxes_proper
  exact ⟨l, h1, h2, (h3 1 _ rfl).1 rfl⟩

end Examples

end Verif.MultiAxes
