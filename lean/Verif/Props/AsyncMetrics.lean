import Verif.Spec.AsyncMetrics
/-
C80: durations and order of the summaries, under every schedule of the threads.
-/
namespace Verif.AsyncMetrics
open Verif.AsyncMetrics.Spec

variable {τ : Type}

/-! What a sequence of calls will submit -/

/-- The tasks submitted to the timer's pool by the remaining calls; the next task has number `i`. -/
def compileT : Nat → Option Nat → List (Call τ) → List (Task τ)
  | i, _, .start on :: cs => .completion on :: compileT (i + 1) (some i) cs
  | i, some a, .summary m _ _ :: cs => .completion m :: .difference a i :: compileT (i + 2) none cs
  | _, none, .summary _ _ _ :: _ => []
  | i, st, .scalars _ :: cs => compileT i st cs
  | i, st, .flush :: cs => compileT i st cs
  | _, _, [] => []

/-- The tasks submitted to the summary pool. -/
def compileS : Nat → Option Nat → List (Call τ) → List (SumTask τ)
  | i, _, .start _ :: cs => compileS (i + 1) (some i) cs
  | i, some _, .summary m k n :: cs => ⟨i + 1, m, k, n⟩ :: compileS (i + 2) none cs
  | _, none, .summary _ _ _ :: _ => []
  | i, st, .scalars _ :: cs => compileS i st cs
  | i, st, .flush :: cs => compileS i st cs
  | _, _, [] => []

/-- The summaries' tasks belong to the periods. -/
def Linked (T : List (Task τ)) : Nat → List (Period τ) → List (SumTask τ) → Prop
  | _, [], [] => True
  | lo, p :: ps, q :: qs => ∃ a b, lo ≤ a ∧ a < b ∧ T[a]? = some (Task.completion p.start) ∧ T[b]? = some (Task.completion p.metrics) ∧
      T[q.duration]? = some (Task.difference a b) ∧ q.metrics = p.metrics ∧ q.step = p.step ∧ q.n = p.n ∧ Linked T (b + 1) ps qs
  | _, _, _ => False

theorem linked : ∀ (cs : List (Call τ)) (P : List (Task τ)) (st : Option Nat) (on : Option τ) (lo : Nat), lo ≤ P.length →
    (∀ a, st = some a → lo ≤ a ∧ a < P.length ∧ ∃ t, on = some t ∧ P[a]? = some (Task.completion t)) → (st = none → on = none) →
    Linked (P ++ compileT P.length st cs) lo (periods on cs) (compileS P.length st cs)
  | [], P, st, on, lo, _, _, _ => by
    cases on <;> simp [periods, compileS, Linked]
  | .start t :: cs, P, st, on, lo, hlo, h, hn => by
    have ih := linked cs (P ++ [.completion t]) (some P.length) (some t) lo (by rw [List.length_append]; omega)
      (by
        rintro a ⟨⟩
        refine ⟨hlo, by simp, t, rfl, by simp⟩) (by intro e; cases e)
    rw [List.length_append, List.length_singleton, List.append_assoc] at ih
    have e : periods on (.start t :: cs) = periods (some t) cs := by cases on <;> rfl
    rw [e, compileT, compileS]
    exact ih
  | .summary m k n :: cs, P, none, on, lo, hlo, h, hn => by
    rw [hn rfl]
    simp [periods, compileS, Linked]
  | .summary m k n :: cs, P, some a, on, lo, hlo, h, hn => by
    obtain ⟨h1, h2, t, rfl, h3⟩ := h a rfl
    have ih := linked cs (P ++ [.completion m, .difference a P.length]) none none (P.length + 1) (by simp)
      (by intro a e; cases e) (fun _ => rfl)
    rw [List.length_append, show [Task.completion m, Task.difference a P.length].length = 2 from rfl, List.append_assoc] at ih
    rw [compileT, compileS, periods]
    refine ⟨a, P.length, h1, h2, ?_, ?_, ?_, rfl, rfl, rfl, ih⟩
    · rw [List.getElem?_append_left h2, h3]
    · rw [List.getElem?_append_right (le_refl _)]; simp
    · rw [List.getElem?_append_right (by simp)]; simp
  | .scalars k :: cs, P, st, on, lo, hlo, h, hn => by
    have e : periods on (.scalars k :: cs) = periods on cs := by cases on <;> rfl
    have e1 : compileT P.length st (.scalars k :: cs) = compileT P.length st cs := by cases st <;> rfl
    have e2 : compileS P.length st (.scalars k :: cs) = compileS P.length st cs := by cases st <;> rfl
    rw [e, e1, e2]
    exact linked cs P st on lo hlo h hn
  | .flush :: cs, P, st, on, lo, hlo, h, hn => by
    have e : periods on (.flush :: cs) = periods on cs := by cases on <;> rfl
    have e1 : compileT P.length st (.flush :: cs) = compileT P.length st cs := by cases st <;> rfl
    have e2 : compileS P.length st (.flush :: cs) = compileS P.length st cs := by cases st <;> rfl
    rw [e, e1, e2]
    exact linked cs P st on lo hlo h hn

theorem linked_length {T : List (Task τ)} : ∀ {ps : List (Period τ)} {qs : List (SumTask τ)} {lo : Nat}, Linked T lo ps qs →
    ps.length = qs.length
  | [], [], _, _ => rfl
  | _ :: ps, _ :: qs, _, h => by
    obtain ⟨a, b, _, _, _, _, _, _, _, _, h⟩ := h
    simp [linked_length h]
  | [], _ :: _, _, h => h.elim
  | _ :: _, [], _, h => h.elim

/-- What the main thread has still to submit. -/
def futT (s : State τ) : List (Task τ) :=
  match s.pc with
  | .idle => compileT s.tasks.length s.startFuture s.calls
  | .stopped a b _ _ _ => .difference a b :: compileT (s.tasks.length + 1) none s.calls
  | .timed _ _ _ _ => compileT s.tasks.length none s.calls
  | .raised => []

def futS (s : State τ) : List (SumTask τ) :=
  match s.pc with
  | .idle => compileS s.tasks.length s.startFuture s.calls
  | .stopped _ _ m k n => ⟨s.tasks.length, m, k, n⟩ :: compileS (s.tasks.length + 1) none s.calls
  | .timed d m k n => ⟨d, m, k, n⟩ :: compileS s.tasks.length none s.calls
  | .raised => []

/-- Where the futures of the main thread point. -/
structure Refs (s : State τ) : Prop where
  start : ∀ a, s.startFuture = some a → a < s.tasks.length
  stopped : ∀ a b m k n, s.pc = .stopped a b m k n → a < s.tasks.length ∧ b < s.tasks.length ∧ s.startFuture = none
  timed : ∀ d m k n, s.pc = .timed d m k n → d < s.tasks.length ∧ s.startFuture = none
  diffs : ∀ (i a b : Nat), s.tasks[i]? = some (Task.difference a b) → a < i ∧ b < i
  sums : ∀ q ∈ s.sums, q.duration < s.tasks.length

structure Inv (calls : List (Call τ)) (t0 : Int) (s : State τ) : Prop where
  tasks : s.tasks ++ futT s = compileT 0 none calls
  sums : s.sums ++ futS s = compileS 0 none calls
  refs : Refs s
  resultsLe : s.results.length ≤ s.tasks.length
  doneLe : s.done ≤ s.sums.length
  time : t0 ≤ s.now
  completion : ∀ (i : Nat) (t : τ) (x : Int), s.tasks[i]? = some (Task.completion t) → s.results[i]? = some x →
    t0 ≤ x ∧ x ≤ s.now ∧ ∃ r, s.readyAt t = some r ∧ r ≤ x
  readyLe : ∀ t r, s.readyAt t = some r → r ≤ s.now
  mono : ∀ (i j : Nat) (t u : τ) (x y : Int), i < j → s.tasks[i]? = some (Task.completion t) → s.tasks[j]? = some (Task.completion u) →
    s.results[i]? = some x → s.results[j]? = some y → x ≤ y
  difference : ∀ (i a b : Nat) (x : Int), s.tasks[i]? = some (Task.difference a b) → s.results[i]? = some x →
    ∃ y z, s.results[a]? = some y ∧ s.results[b]? = some z ∧ x = z - y
  written : List.Forall₂ (fun q e => ∃ x, s.results[q.duration]? = some x ∧ e = (q.step, q.n, x)) (s.sums.take s.done)
    (summaries s.written)

theorem getElem?_snoc_some {X : Type} {l : List X} {x y : X} {i : Nat} (h : (l ++ [x])[i]? = some y) :
    (l[i]? = some y ∧ i < l.length) ∨ (i = l.length ∧ y = x) := by
  rcases Nat.lt_trichotomy i l.length with hi | hi | hi
  · rw [List.getElem?_append_left hi] at h
    exact Or.inl ⟨h, hi⟩
  · subst hi
    simp at h
    exact Or.inr ⟨rfl, h.symm⟩
  · rw [List.getElem?_eq_none (by simp; omega)] at h
    cases h

theorem lt_of_get {X : Type} {l : List X} {x : X} {i : Nat} (h : l[i]? = some x) : i < l.length := by
  by_contra hc
  rw [List.getElem?_eq_none (by omega)] at h
  cases h

theorem get_snoc_left {X : Type} {l : List X} {x y : X} {i : Nat} (h : l[i]? = some y) : (l ++ [x])[i]? = some y := by
  rw [List.getElem?_append_left (lt_of_get h)]; exact h

theorem Refs.push {s : State τ} (h : Refs s) (t : Task τ) (ht : ∀ a b, t = Task.difference a b → a < s.tasks.length ∧ b < s.tasks.length) :
    (∀ i a b, (s.tasks ++ [t])[i]? = some (Task.difference a b) → a < i ∧ b < i) ∧ (∀ q ∈ s.sums, q.duration < (s.tasks ++ [t]).length) := by
  constructor
  · intro i a b hi
    rcases getElem?_snoc_some hi with ⟨hi, _⟩ | ⟨rfl, e⟩
    · exact h.diffs i a b hi
    · exact ht a b e.symm
  · intro q hq
    have := h.sums q hq
    rw [List.length_append]
    omega

/-- Submitting a task changes nothing about results. -/
theorem Inv.push {calls : List (Call τ)} {t0 : Int} {s : State τ} (h : Inv calls t0 s) (t : Task τ) (s' : State τ)
    (e1 : s'.tasks = s.tasks ++ [t]) (e2 : s'.results = s.results) (e3 : s'.sums = s.sums) (e4 : s'.done = s.done)
    (e5 : s'.written = s.written) (e6 : s'.now = s.now) (e7 : s'.readyAt = s.readyAt) (hr : Refs s')
    (ht : s'.tasks ++ futT s' = compileT 0 none calls) (hs : s'.sums ++ futS s' = compileS 0 none calls) : Inv calls t0 s' where
  tasks := ht
  sums := hs
  refs := hr
  resultsLe := by have := h.resultsLe; rw [e1, e2, List.length_append]; omega
  doneLe := by rw [e3, e4]; exact h.doneLe
  time := by rw [e6]; exact h.time
  completion := by
    intro i t' x h1 h2
    rw [e2] at h2
    rw [e1] at h1
    rw [e6, e7]
    have := h.resultsLe
    rcases getElem?_snoc_some h1 with ⟨h1, _⟩ | ⟨hi, _⟩
    · exact h.completion i t' x h1 h2
    · have := lt_of_get h2; omega
  readyLe := by rw [e6, e7]; exact h.readyLe
  mono := by
    intro i j t' u x y hij h1 h2 h3 h4
    rw [e2] at h3 h4
    rw [e1] at h1 h2
    have hle := h.resultsLe
    have hi := lt_of_get h3
    have hj := lt_of_get h4
    rw [List.getElem?_append_left (by omega)] at h1 h2
    exact h.mono i j t' u x y hij h1 h2 h3 h4
  difference := by
    intro i a b x h1 h2
    rw [e2] at h2 ⊢
    rw [e1] at h1
    have hle := h.resultsLe
    have hi := lt_of_get h2
    rw [List.getElem?_append_left (by omega)] at h1
    exact h.difference i a b x h1 h2
  written := by rw [e2, e3, e4, e5]; exact h.written

/-- A step of the main thread that submits no timer task. -/
theorem Inv.same {calls : List (Call τ)} {t0 : Int} {s : State τ} (h : Inv calls t0 s) (s' : State τ)
    (e1 : s'.tasks = s.tasks) (e2 : s'.results = s.results) (e3 : ∃ l, s'.sums = s.sums ++ l) (e4 : s'.done = s.done)
    (e5 : summaries s'.written = summaries s.written) (e6 : s'.now = s.now) (e7 : s'.readyAt = s.readyAt) (hr : Refs s')
    (ht : s'.tasks ++ futT s' = compileT 0 none calls) (hs : s'.sums ++ futS s' = compileS 0 none calls) : Inv calls t0 s' where
  tasks := ht
  sums := hs
  refs := hr
  resultsLe := by rw [e1, e2]; exact h.resultsLe
  doneLe := by
    obtain ⟨l, e3⟩ := e3
    have := h.doneLe
    rw [e3, e4, List.length_append]; omega
  time := by rw [e6]; exact h.time
  completion := by rw [e1, e2, e6, e7]; exact h.completion
  readyLe := by rw [e6, e7]; exact h.readyLe
  mono := by rw [e1, e2]; exact h.mono
  difference := by rw [e1, e2]; exact h.difference
  written := by
    obtain ⟨l, e3⟩ := e3
    rw [e2, e3, e4, e5, List.take_append_of_le_length h.doneLe]
    exact h.written

theorem inv_init (calls : List (Call τ)) (t0 : Int) : Inv calls t0 (init calls t0) where
  tasks := rfl
  sums := rfl
  refs := by
    refine ⟨?_, ?_, ?_, ?_, ?_⟩
    · intro a e; cases e
    · intro a b m k n e; cases e
    · intro d m k n e; cases e
    · intro i a b e; simp [init] at e
    · intro q e; cases e
  resultsLe := le_refl _
  doneLe := le_refl _
  time := le_refl _
  completion := fun i t x h => by simp [init] at h
  readyLe := fun t r h => by cases h
  mono := fun i j t u x y _ h => by simp [init] at h
  difference := fun i a b x h => by simp [init] at h
  written := .nil

theorem inv_main {calls : List (Call τ)} {t0 : Int} {s s' : State τ} (h : Inv calls t0 s) (hm : Main s s') : Inv calls t0 s' := by
  have hT := h.tasks
  have hS := h.sums
  cases hm with
  | @start on cs hc hp =>
    simp only [futT, futS, hp, hc, compileT, compileS] at hT hS
    obtain ⟨p1, p2⟩ := h.refs.push (.completion on) (fun a b e => by cases e)
    refine h.push (.completion on) _ rfl rfl rfl rfl rfl rfl rfl ⟨?_, ?_, ?_, p1, p2⟩ ?_ ?_
    · rintro a ⟨⟩; simp
    · intro a b m k n e
      have e' : s.pc = Pc.stopped a b m k n := e
      rw [hp] at e'; cases e'
    · intro d m k n e
      have e' : s.pc = Pc.timed d m k n := e
      rw [hp] at e'; cases e'
    · simp only [futT, hp, List.length_append, List.length_singleton, List.append_assoc]
      exact hT
    · simp only [futS, hp, List.length_append, List.length_singleton]
      exact hS
  | @raise m k n cs hc hp hs0 =>
    simp only [futT, futS, hp, hc, hs0, compileT, compileS] at hT hS
    refine h.same _ rfl rfl ⟨[], by simp⟩ rfl rfl rfl rfl ⟨h.refs.start, ?_, ?_, h.refs.diffs, h.refs.sums⟩ hT hS
    · intro a b m k n e; cases e
    · intro d m k n e; cases e
  | @stop m k n cs a hc hp hs0 =>
    simp only [futT, futS, hp, hc, hs0, compileT, compileS] at hT hS
    obtain ⟨p1, p2⟩ := h.refs.push (.completion m) (fun a b e => by cases e)
    refine h.push (.completion m) _ rfl rfl rfl rfl rfl rfl rfl ⟨?_, ?_, ?_, p1, p2⟩ ?_ ?_
    · rintro a ⟨⟩
    · rintro a b m k n ⟨⟩
      have := h.refs.start a hs0
      simp only [List.length_append, List.length_singleton]
      exact ⟨by omega, by omega, trivial⟩
    · intro d m k n e; cases e
    · simp only [futT, List.length_append, List.length_singleton, List.append_assoc]
      exact hT
    · simp only [futS, List.length_append, List.length_singleton]
      exact hS
  | @difference a b m k n hp =>
    simp only [futT, futS, hp] at hT hS
    obtain ⟨r1, r2, r3⟩ := h.refs.stopped a b m k n hp
    obtain ⟨p1, p2⟩ := h.refs.push (.difference a b) (by rintro a b ⟨⟩; exact ⟨r1, r2⟩)
    refine h.push (.difference a b) _ rfl rfl rfl rfl rfl rfl rfl ⟨?_, ?_, ?_, p1, p2⟩ ?_ ?_
    · intro a e
      have := h.refs.start a e
      simp only [List.length_append]; omega
    · intro a b m k n e; cases e
    · rintro d m k n ⟨⟩
      exact ⟨by simp, r3⟩
    · simp only [futT, List.length_append, List.length_singleton, List.append_assoc]
      exact hT
    · simp only [futS, List.length_append, List.length_singleton]
      exact hS
  | @submit d m k n hp =>
    simp only [futT, futS, hp] at hT hS
    obtain ⟨r1, r2⟩ := h.refs.timed d m k n hp
    refine h.same _ rfl rfl ⟨[⟨d, m, k, n⟩], rfl⟩ rfl rfl rfl rfl ⟨h.refs.start, ?_, ?_, h.refs.diffs, ?_⟩ ?_ ?_
    · intro a b m k n e; cases e
    · intro d m k n e; cases e
    · intro q hq
      rcases List.mem_append.1 hq with hq | hq
      · exact h.refs.sums q hq
      · rw [List.mem_singleton.1 hq]; exact r1
    · simp only [futT, r2]; exact hT
    · simp only [futS, r2, List.append_assoc]; exact hS
  | @scalars k cs hc hp =>
    have e1 : compileT s.tasks.length s.startFuture (.scalars k :: cs) = compileT s.tasks.length s.startFuture cs := by
      cases s.startFuture <;> rfl
    have e2 : compileS s.tasks.length s.startFuture (.scalars k :: cs) = compileS s.tasks.length s.startFuture cs := by
      cases s.startFuture <;> rfl
    simp only [futT, futS, hp, hc, e1, e2] at hT hS
    refine h.same _ rfl rfl ⟨[], by simp⟩ rfl ?_ rfl rfl ⟨h.refs.start, h.refs.stopped, h.refs.timed, h.refs.diffs, h.refs.sums⟩ ?_ ?_
    · simp [summaries]
    · simp only [futT, hp]; exact hT
    · simp only [futS, hp]; exact hS
  | @flush cs hc hp hd =>
    have e1 : compileT s.tasks.length s.startFuture (.flush :: cs) = compileT s.tasks.length s.startFuture cs := by
      cases s.startFuture <;> rfl
    have e2 : compileS s.tasks.length s.startFuture (.flush :: cs) = compileS s.tasks.length s.startFuture cs := by
      cases s.startFuture <;> rfl
    simp only [futT, futS, hp, hc, e1, e2] at hT hS
    refine h.same _ rfl rfl ⟨[], by simp⟩ rfl rfl rfl rfl ⟨h.refs.start, h.refs.stopped, h.refs.timed, h.refs.diffs, h.refs.sums⟩ ?_ ?_
    · simp only [futT, hp]; exact hT
    · simp only [futS, hp]; exact hS

theorem inv_worker {calls : List (Call τ)} {t0 : Int} {s s' : State τ} (h : Inv calls t0 s) (hw : Worker s s') : Inv calls t0 s' := by
  cases hw with
  | @completion on r ht hr =>
    have hlt := lt_of_get ht
    refine ⟨h.tasks, h.sums, ⟨h.refs.start, h.refs.stopped, h.refs.timed, h.refs.diffs, h.refs.sums⟩, ?_, h.doneLe, h.time, ?_, h.readyLe, ?_, ?_, ?_⟩
    · simp only [List.length_append, List.length_singleton]; omega
    · intro i t x h1 h2
      rcases getElem?_snoc_some h2 with ⟨h2, _⟩ | ⟨hi, rfl⟩
      · exact h.completion i t x h1 h2
      · subst hi
        rw [ht] at h1
        injection h1 with h1
        injection h1 with h1
        subst h1
        exact ⟨h.time, le_refl _, r, hr, h.readyLe _ _ hr⟩
    · intro i j t u x y hij h1 h2 h3 h4
      rcases getElem?_snoc_some h4 with ⟨h4, hj⟩ | ⟨hj, rfl⟩
      · rcases getElem?_snoc_some h3 with ⟨h3, _⟩ | ⟨hi, _⟩
        · exact h.mono i j t u x y hij h1 h2 h3 h4
        · omega
      · rcases getElem?_snoc_some h3 with ⟨h3, _⟩ | ⟨hi, rfl⟩
        · exact (h.completion i t x h1 h3).2.1
        · omega
    · intro i a b x h1 h2
      rcases getElem?_snoc_some h2 with ⟨h2, _⟩ | ⟨hi, rfl⟩
      · obtain ⟨y, z, q1, q2, q3⟩ := h.difference i a b x h1 h2
        exact ⟨y, z, get_snoc_left q1, get_snoc_left q2, q3⟩
      · subst hi
        rw [ht] at h1
        injection h1 with h1
        cases h1
    · refine h.written.imp ?_
      rintro q e ⟨x, hx, he⟩
      exact ⟨x, get_snoc_left hx, he⟩
  | @difference a b x y ht ha hb =>
    have hlt := lt_of_get ht
    refine ⟨h.tasks, h.sums, ⟨h.refs.start, h.refs.stopped, h.refs.timed, h.refs.diffs, h.refs.sums⟩, ?_, h.doneLe, h.time, ?_, h.readyLe, ?_, ?_, ?_⟩
    · simp only [List.length_append, List.length_singleton]; omega
    · intro i t x h1 h2
      rcases getElem?_snoc_some h2 with ⟨h2, _⟩ | ⟨hi, rfl⟩
      · exact h.completion i t x h1 h2
      · subst hi
        rw [ht] at h1
        injection h1 with h1
        cases h1
    · intro i j t u x y hij h1 h2 h3 h4
      rcases getElem?_snoc_some h4 with ⟨h4, hj⟩ | ⟨hj, rfl⟩
      · rcases getElem?_snoc_some h3 with ⟨h3, _⟩ | ⟨hi, _⟩
        · exact h.mono i j t u x y hij h1 h2 h3 h4
        · omega
      · subst hj
        rw [ht] at h2
        injection h2 with h2
        cases h2
    · intro i a' b' x' h1 h2
      rcases getElem?_snoc_some h2 with ⟨h2, _⟩ | ⟨hi, rfl⟩
      · obtain ⟨y, z, q1, q2, q3⟩ := h.difference i a' b' x' h1 h2
        exact ⟨y, z, get_snoc_left q1, get_snoc_left q2, q3⟩
      · subst hi
        rw [ht] at h1
        injection h1 with h1
        injection h1 with e1 e2
        subst e1; subst e2
        exact ⟨x, y, get_snoc_left ha, get_snoc_left hb, rfl⟩
    · refine h.written.imp ?_
      rintro q e ⟨x, hx, he⟩
      exact ⟨x, get_snoc_left hx, he⟩
  | @summary q r x hq hr hx =>
    have hlt := lt_of_get hq
    refine ⟨h.tasks, h.sums, ⟨h.refs.start, h.refs.stopped, h.refs.timed, h.refs.diffs, h.refs.sums⟩, h.resultsLe, ?_, h.time, h.completion,
      h.readyLe, h.mono, h.difference, ?_⟩
    · exact hlt
    · have e : summaries (s.written ++ [.summary q.step q.n x]) = summaries s.written ++ [(q.step, q.n, x)] := by
        simp [summaries, List.filterMap_append]
      dsimp only
      rw [e, List.take_add_one, hq]
      exact List.rel_append h.written (.cons ⟨x, hx, rfl⟩ .nil)

theorem inv_env {calls : List (Call τ)} {t0 : Int} {s s' : State τ} (h : Inv calls t0 s) (he : Env s s') : Inv calls t0 s' := by
  cases he with
  | tick d =>
    refine ⟨h.tasks, h.sums, ⟨h.refs.start, h.refs.stopped, h.refs.timed, h.refs.diffs, h.refs.sums⟩, h.resultsLe, h.doneLe, ?_, ?_, ?_,
      h.mono, h.difference, h.written⟩
    · have := h.time
      dsimp only; omega
    · intro i t x h1 h2
      obtain ⟨a, b, c⟩ := h.completion i t x h1 h2
      exact ⟨a, by dsimp only; omega, c⟩
    · intro t r hr
      have := h.readyLe t r hr
      dsimp only; omega
  | @ready f t hn hf ho =>
    have keep : ∀ u r, s.readyAt u = some r → f u = some r := by
      intro u r hr
      by_cases hu : u = t
      · subst hu; rw [hn] at hr; cases hr
      · rw [ho u hu]; exact hr
    refine ⟨h.tasks, h.sums, ⟨h.refs.start, h.refs.stopped, h.refs.timed, h.refs.diffs, h.refs.sums⟩, h.resultsLe, h.doneLe, h.time, ?_, ?_,
      h.mono, h.difference, h.written⟩
    · intro i u x h1 h2
      obtain ⟨a, b, r, c1, c2⟩ := h.completion i u x h1 h2
      exact ⟨a, b, r, keep u r c1, c2⟩
    · intro u r hr
      dsimp only at hr ⊢
      by_cases hu : u = t
      · subst hu
        rw [hf] at hr
        injection hr with hr
        omega
      · rw [ho u hu] at hr
        exact h.readyLe u r hr

theorem reachable_inv {calls : List (Call τ)} {t0 : Int} {s : State τ} (hr : Reachable calls t0 s) : Inv calls t0 s := by
  induction hr with
  | init => exact inv_init calls t0
  | step _ hs ih =>
    cases hs with
    | main h => exact inv_main ih h
    | worker h => exact inv_worker ih h
    | env h => exact inv_env ih h

theorem linked_all (calls : List (Call τ)) : Linked (compileT 0 none calls) 0 (periods none calls) (compileS 0 none calls) := by
  have := linked calls [] none none 0 (le_refl _) (by intro a e; cases e) (fun _ => rfl)
  simpa using this

theorem measured {calls : List (Call τ)} {t0 : Int} {s : State τ} (h : Inv calls t0 s) :
    ∀ (ps : List (Period τ)) (qs : List (SumTask τ)) (lo : Nat) (lt : Int), Linked (compileT 0 none calls) lo ps qs →
    (∀ i t x, lo ≤ i → s.tasks[i]? = some (Task.completion t) → s.results[i]? = some x → lt ≤ x) →
    ∀ (k : Nat) (es : List (Nat × Nat × Int)),
      List.Forall₂ (fun q e => ∃ x, s.results[q.duration]? = some x ∧ e = (q.step, q.n, x)) (qs.take k) es →
      Measured s.readyAt s.now lt ps es
  | _, _, _, _, _, _, _, [], _ => by simp [Measured]
  | ps, qs, lo, lt, hl, hlo, 0, e :: es, hf => by rw [List.take_zero] at hf; cases hf
  | [], [], _, _, _, _, k + 1, e :: es, hf => by simp at hf
  | [], _ :: _, _, _, hl, _, _, _ :: _, _ => hl.elim
  | _ :: _, [], _, _, hl, _, _, _ :: _, _ => hl.elim
  | p :: ps, q :: qs, lo, lt, hl, hlo, k + 1, e :: es, hf => by
    rw [List.take_succ_cons, List.forall₂_cons] at hf
    obtain ⟨⟨x, hx, he⟩, hf⟩ := hf
    obtain ⟨a, b, l1, l2, l3, l4, l5, _, l7, l8, l9⟩ := hl
    have pre : ∀ i t, i < s.results.length → (compileT 0 none calls)[i]? = some t → s.tasks[i]? = some t := by
      intro i t hi ht
      rw [← h.tasks, List.getElem?_append_left (lt_of_lt_of_le hi h.resultsLe)] at ht
      exact ht
    obtain ⟨y, z, r1, r2, r3⟩ := h.difference q.duration a b x (pre _ _ (lt_of_get hx) l5) hx
    have ta := pre a _ (lt_of_get r1) l3
    have tb := pre b _ (lt_of_get r2) l4
    obtain ⟨c1, c2, c3⟩ := h.completion a _ y ta r1
    obtain ⟨d1, d2, d3⟩ := h.completion b _ z tb r2
    refine ⟨y, z, hlo a _ y l1 ta r1, h.mono a b _ _ y z l2 ta tb r1 r2, d2, c3, d3, ?_, ?_⟩
    · rw [he, l7, l8, r3]
    · refine measured h ps qs (b + 1) z l9 ?_ k es hf
      intro i t x hi h1 h2
      exact h.mono b i _ _ z x (by omega) tb h1 r2 h2

/-- **C80** (durations and order).  Whatever the schedule of the threads and however fast the devices are, the summaries written so
far are those of the first periods, in the order of the calls, each once, with the step and the number of steps of the call; the duration
of each is the time from a moment when the value given to `start_duration_timer` was ready to a moment when the metrics were ready, and
the periods follow each other without overlap. -/
theorem C80_written {calls : List (Call τ)} {t0 : Int} {s : State τ} (hr : Reachable calls t0 s) :
    Measured s.readyAt s.now t0 (periods none calls) (summaries s.written) := by
  have h := reachable_inv hr
  refine measured h _ _ 0 t0 (linked_all calls) (fun i t x _ h1 h2 => (h.completion i t x h1 h2).1) s.done _ ?_
  have e : (compileS 0 none calls).take s.done = s.sums.take s.done := by
    rw [← h.sums, List.take_append_of_le_length h.doneLe]
  rw [e]
  exact h.written

theorem measured_total {readyAt : τ → Option Int} {now : Int} : ∀ (es : List (Nat × Nat × Int)) (ps : List (Period τ)) (lo : Int), lo ≤ now →
    Measured readyAt now lo ps es → (∀ e ∈ es, 0 ≤ e.2.2) ∧ (es.map (fun e => e.2.2)).sum ≤ now - lo
  | [], _, _, h, _ => by simp; exact h
  | e :: es, [], _, _, hm => hm.elim
  | e :: es, p :: ps, lo, h, hm => by
    obtain ⟨a, b, h1, h2, h3, _, _, h6, h7⟩ := hm
    obtain ⟨i1, i2⟩ := measured_total es ps b h3 h7
    subst h6
    refine ⟨?_, ?_⟩
    · intro e he
      rcases List.mem_cons.1 he with rfl | he
      · dsimp only; omega
      · exact i1 e he
    · rw [List.map_cons, List.sum_cons]
      dsimp only
      omega

/-- **C80** (no time is counted twice).  Durations are not negative, and together they are at most the time that has passed. -/
theorem C80_total {calls : List (Call τ)} {t0 : Int} {s : State τ} (hr : Reachable calls t0 s) :
    (∀ e ∈ summaries s.written, 0 ≤ e.2.2) ∧ ((summaries s.written).map (fun e => e.2.2)).sum ≤ s.now - t0 :=
  measured_total _ _ _ (reachable_inv hr).time (C80_written hr)

/-! Errors -/

structure SInv (calls : List (Call τ)) (s : State τ) : Prop where
  raised : s.pc = Pc.raised → ¬ Started false calls
  going : s.pc ≠ Pc.raised → (Started s.startFuture.isSome s.calls ↔ Started false calls)

theorem reachable_sinv {calls : List (Call τ)} {t0 : Int} {s : State τ} (hr : Reachable calls t0 s) : SInv calls s := by
  induction hr with
  | init => exact ⟨fun e => (by cases e), fun _ => Iff.rfl⟩
  | @step s s' hr hs ih =>
    have hi := reachable_inv hr
    cases hs with
    | main hm =>
      cases hm with
      | @start on cs hc hp =>
        refine ⟨fun e => absurd (hp.symm.trans e) (fun e => by cases e), fun _ => ?_⟩
        have := ih.going (by rw [hp]; intro e; cases e)
        rw [hc] at this
        exact this
      | @raise m k n cs hc hp h0 =>
        refine ⟨fun _ => ?_, fun e => absurd rfl e⟩
        have := ih.going (by rw [hp]; intro e; cases e)
        rw [hc, h0] at this
        intro hst
        exact absurd (this.2 hst).1 (by simp)
      | @stop m k n cs a hc hp h0 =>
        refine ⟨fun e => (by cases e), fun _ => ?_⟩
        have := ih.going (by rw [hp]; intro e; cases e)
        rw [hc, h0] at this
        exact ⟨fun h => this.1 ⟨rfl, h⟩, fun h => (this.2 h).2⟩
      | @difference a b m k n hp =>
        exact ⟨fun e => (by cases e), fun _ => ih.going (by rw [hp]; intro e; cases e)⟩
      | @submit d m k n hp =>
        exact ⟨fun e => (by cases e), fun _ => ih.going (by rw [hp]; intro e; cases e)⟩
      | @scalars k cs hc hp =>
        refine ⟨fun e => absurd (hp.symm.trans e) (fun e => by cases e), fun _ => ?_⟩
        have := ih.going (by rw [hp]; intro e; cases e)
        rw [hc] at this
        exact this
      | @flush cs hc hp hd =>
        refine ⟨fun e => absurd (hp.symm.trans e) (fun e => by cases e), fun _ => ?_⟩
        have := ih.going (by rw [hp]; intro e; cases e)
        rw [hc] at this
        exact this
    | worker hw => cases hw <;> exact ⟨ih.raised, ih.going⟩
    | env he => cases he <;> exact ⟨ih.raised, ih.going⟩

/-- **C80** (a summary needs a start).  If every `write_metrics_summary` has a `start_duration_timer` of its own before it, the
program never meets the ValueError. -/
theorem C80_no_error {calls : List (Call τ)} {t0 : Int} {s : State τ} (hs : Started false calls) (hr : Reachable calls t0 s) :
    s.pc ≠ Pc.raised := fun e => (reachable_sinv hr).raised e hs

/-! Progress -/

def callCost : Call τ → Nat
  | .start _ => 2
  | .summary _ _ _ => 6
  | .scalars _ => 1
  | .flush => 1

def pcCost : Pc τ → Nat
  | .idle => 0
  | .stopped _ _ _ _ _ => 4
  | .timed _ _ _ _ => 2
  | .raised => 0

def cost (s : State τ) : Nat :=
  (s.calls.map callCost).sum + pcCost s.pc + (s.tasks.length - s.results.length) + (s.sums.length - s.done)

theorem cost_main {s s' : State τ} (h1 : s.results.length ≤ s.tasks.length) (h2 : s.done ≤ s.sums.length) (hm : Main s s') :
    cost s' + 1 ≤ cost s := by
  cases hm with
  | @start on cs hc hp => simp only [cost, hc, hp, pcCost, callCost, List.map_cons, List.sum_cons, List.length_append, List.length_singleton]; omega
  | @raise m k n cs hc hp h0 => simp only [cost, hc, hp, pcCost, callCost, List.map_cons, List.sum_cons]; omega
  | @stop m k n cs a hc hp h0 => simp only [cost, hc, hp, pcCost, callCost, List.map_cons, List.sum_cons, List.length_append, List.length_singleton]; omega
  | @difference a b m k n hp => simp only [cost, hp, pcCost, List.length_append, List.length_singleton]; omega
  | @submit d m k n hp => simp only [cost, hp, pcCost, List.length_append, List.length_singleton]; omega
  | @scalars k cs hc hp => simp only [cost, hc, hp, pcCost, callCost, List.map_cons, List.sum_cons]; omega
  | @flush cs hc hp hd => simp only [cost, hc, hp, pcCost, callCost, List.map_cons, List.sum_cons]; omega

theorem cost_worker {s s' : State τ} (hw : Worker s s') : cost s' + 1 ≤ cost s := by
  cases hw with
  | @completion on r ht hr => have := lt_of_get ht; simp only [cost, List.length_append, List.length_singleton]; omega
  | @difference a b x y ht ha hb => have := lt_of_get ht; simp only [cost, List.length_append, List.length_singleton]; omega
  | @summary q r x hq hr hx => have := lt_of_get hq; simp only [cost]; omega

theorem runs_cost {calls : List (Call τ)} {t0 : Int} {k : Nat} {s s' : State τ} (h : Runs k s s') (hr : Reachable calls t0 s) :
    k + cost s' ≤ cost s ∧ Reachable calls t0 s' ∧ s'.readyAt = s.readyAt := by
  induction h with
  | zero s => exact ⟨by omega, hr, rfl⟩
  | @main k s s1 s2 hm _ ih =>
    obtain ⟨i1, i2, i3⟩ := ih (hr.step (.main hm))
    have hi := reachable_inv hr
    have := cost_main hi.resultsLe hi.doneLe hm
    refine ⟨by omega, i2, i3.trans ?_⟩
    cases hm <;> rfl
  | @worker k s s1 s2 hw _ ih =>
    obtain ⟨i1, i2, i3⟩ := ih (hr.step (.worker hw))
    have := cost_worker hw
    refine ⟨by omega, i2, i3.trans ?_⟩
    cases hw <;> rfl

/-- A state in which no thread can move although every value is ready. -/
theorem stuck {calls : List (Call τ)} {t0 : Int} {s : State τ} (hr : Reachable calls t0 s) (hready : ∀ t, ∃ r, s.readyAt t = some r)
    (hm : ∀ s', ¬ Main s s') (hw : ∀ s', ¬ Worker s s') :
    (summaries s.written).length = (periods none calls).length ∧ (s.pc = Pc.raised ∨ (s.pc = Pc.idle ∧ s.calls = [])) := by
  have h := reachable_inv hr
  have hres : s.results.length = s.tasks.length := by
    by_contra hne
    have hlt : s.results.length < s.tasks.length := by have := h.resultsLe; omega
    have hg : s.tasks[s.results.length]? = some s.tasks[s.results.length] := List.getElem?_eq_getElem hlt
    cases ht : s.tasks[s.results.length] with
    | completion on =>
      rw [ht] at hg
      obtain ⟨r, hr⟩ := hready on
      exact hw _ (.completion hg hr)
    | difference a b =>
      rw [ht] at hg
      obtain ⟨ha, hb⟩ := h.refs.diffs _ a b hg
      exact hw _ (.difference hg (List.getElem?_eq_getElem ha) (List.getElem?_eq_getElem hb))
  have hdone : s.done = s.sums.length := by
    by_contra hne
    have hlt : s.done < s.sums.length := by have := h.doneLe; omega
    have hg : s.sums[s.done]? = some s.sums[s.done] := List.getElem?_eq_getElem hlt
    have hd := h.refs.sums _ (List.getElem_mem hlt)
    rw [← hres] at hd
    obtain ⟨r, hr⟩ := hready s.sums[s.done].metrics
    exact hw _ (.summary hg hr (List.getElem?_eq_getElem hd))
  have hpc : s.pc = Pc.raised ∨ (s.pc = Pc.idle ∧ s.calls = []) := by
    cases hp : s.pc with
    | raised => exact Or.inl rfl
    | stopped a b m k n => exact (hm _ (.difference hp)).elim
    | timed d m k n => exact (hm _ (.submit hp)).elim
    | idle =>
      refine Or.inr ⟨rfl, ?_⟩
      cases hc : s.calls with
      | nil => rfl
      | cons c cs =>
        exfalso
        cases c with
        | start on => exact hm _ (.start hc hp)
        | scalars k => exact hm _ (.scalars hc hp)
        | flush => exact hm _ (.flush hc hp hdone)
        | summary m k n =>
          cases hf : s.startFuture with
          | none => exact hm _ (.raise hc hp hf)
          | some a => exact hm _ (.stop hc hp hf)
  refine ⟨?_, hpc⟩
  have e : futS s = [] := by
    rcases hpc with hp | ⟨hp, hc⟩
    · simp only [futS, hp]
    · simp only [futS, hp, hc]
      cases s.startFuture <;> rfl
  have hS := h.sums
  rw [e, List.append_nil] at hS
  rw [linked_length (linked_all calls), ← hS, ← h.written.length_eq, List.length_take, hdone, Nat.min_self]

/-- **C80** (no deadlock).  From every reachable state in which the values on the devices are ready: the threads can only make finitely many
steps, and when none of them can move any more, the summaries of all periods are written; the main thread has then made all its calls,
or has met a summary without a start. -/
theorem C80_progress {calls : List (Call τ)} {t0 : Int} {s : State τ} (hr : Reachable calls t0 s)
    (hready : ∀ t, ∃ r, s.readyAt t = some r) :
    (∃ N, ∀ k s', Runs k s s' → k ≤ N) ∧
    ∀ k s', Runs k s s' → (∀ s'', ¬ Main s' s'') → (∀ s'', ¬ Worker s' s'') →
      (summaries s'.written).length = (periods none calls).length ∧ (s'.pc = Pc.raised ↔ ¬ Started false calls) ∧
      (Started false calls → s'.calls = []) := by
  refine ⟨⟨cost s, fun k s' h => by have := (runs_cost h hr).1; omega⟩, ?_⟩
  intro k s' h hm hw
  obtain ⟨_, hr', he⟩ := runs_cost h hr
  obtain ⟨h1, h2⟩ := stuck hr' (by rw [he]; exact hready) hm hw
  have hsi := reachable_sinv hr'
  refine ⟨h1, ⟨hsi.raised, fun hns => ?_⟩, fun hst => ?_⟩
  · rcases h2 with h2 | ⟨h2, hc⟩
    · exact h2
    · exfalso
      refine hns ((hsi.going (by rw [h2]; intro e; cases e)).1 ?_)
      rw [hc]
      trivial
  · rcases h2 with h2 | ⟨_, hc⟩
    · exact absurd hst (hsi.raised h2)
    · exact hc

/-! Flush -/

/-- The start left over by a list of calls; `none` after a summary without a start. -/
def leftover : Option τ → List (Call τ) → Option (Option τ)
  | _, .start on :: cs => leftover (some on) cs
  | some _, .summary _ _ _ :: cs => leftover none cs
  | none, .summary _ _ _ :: _ => none
  | st, .scalars _ :: cs => leftover st cs
  | st, .flush :: cs => leftover st cs
  | st, [] => some st

theorem leftover_append : ∀ (cs ds : List (Call τ)) (st st' : Option τ), leftover st cs = some st' →
    leftover st (cs ++ ds) = leftover st' ds ∧ periods st (cs ++ ds) = periods st cs ++ periods st' ds
  | [], ds, st, st', h => by
    cases st <;> (simp only [leftover] at h; injection h with h; subst h; exact ⟨rfl, rfl⟩)
  | .start on :: cs, ds, st, st', h => by
    cases st <;> exact leftover_append cs ds (some on) st' h
  | .summary m k n :: cs, ds, none, st', h => by cases h
  | .summary m k n :: cs, ds, some on, st', h => by
    obtain ⟨h1, h2⟩ := leftover_append cs ds none st' h
    refine ⟨h1, ?_⟩
    rw [List.cons_append, periods, periods, h2, List.cons_append]
  | .scalars k :: cs, ds, st, st', h => by
    cases st with
    | none => exact leftover_append cs ds none st' h
    | some on => exact leftover_append cs ds (some on) st' h
  | .flush :: cs, ds, st, st', h => by
    cases st with
    | none => exact leftover_append cs ds none st' h
    | some on => exact leftover_append cs ds (some on) st' h

def busy : Pc τ → Nat
  | .idle => 0
  | .raised => 0
  | _ => 1

structure FInv (calls : List (Call τ)) (s : State τ) (pre : List (Call τ)) : Prop where
  split : calls = pre ++ s.calls
  going : s.pc ≠ Pc.raised → ∃ st, leftover none pre = some st ∧ st.isSome = s.startFuture.isSome ∧
    s.sums.length + busy s.pc = (periods none pre).length

theorem reachable_finv {calls : List (Call τ)} {t0 : Int} {s : State τ} (hr : Reachable calls t0 s) : ∃ pre, FInv calls s pre := by
  induction hr with
  | init => exact ⟨[], rfl, fun _ => ⟨none, rfl, rfl, rfl⟩⟩
  | @step s s' hr hs ih =>
    obtain ⟨pre, ih⟩ := ih
    have hi := reachable_inv hr
    cases hs with
    | main hm =>
      cases hm with
      | @start on cs hc hp =>
        refine ⟨pre ++ [.start on], by rw [ih.split, hc]; simp, fun _ => ?_⟩
        obtain ⟨st, h1, h2, h3⟩ := ih.going (by rw [hp]; intro e; cases e)
        obtain ⟨l1, l2⟩ := leftover_append pre [.start on] none st h1
        refine ⟨some on, l1.trans (by cases st <;> rfl), rfl, ?_⟩
        rw [l2, show periods st [.start on] = [] by cases st <;> rfl, List.append_nil]
        exact h3
      | @raise m k n cs hc hp h0 =>
        exact ⟨pre ++ [.summary m k n], by rw [ih.split, hc]; simp, fun e => absurd rfl e⟩
      | @stop m k n cs a hc hp h0 =>
        refine ⟨pre ++ [.summary m k n], by rw [ih.split, hc]; simp, fun _ => ?_⟩
        obtain ⟨st, h1, h2, h3⟩ := ih.going (by rw [hp]; intro e; cases e)
        rw [h0] at h2
        obtain ⟨l1, l2⟩ := leftover_append pre [.summary m k n] none st h1
        cases st with
        | none => cases h2
        | some on =>
          refine ⟨none, l1, rfl, ?_⟩
          rw [l2, List.length_append, ← h3, hp]
          rfl
      | @difference a b m k n hp =>
        refine ⟨pre, ih.split, fun _ => ?_⟩
        obtain ⟨st, h1, h2, h3⟩ := ih.going (by rw [hp]; intro e; cases e)
        rw [hp] at h3
        exact ⟨st, h1, h2, h3⟩
      | @submit d m k n hp =>
        refine ⟨pre, ih.split, fun _ => ?_⟩
        obtain ⟨st, h1, h2, h3⟩ := ih.going (by rw [hp]; intro e; cases e)
        rw [hp] at h3
        refine ⟨st, h1, h2, ?_⟩
        rw [← h3]
        simp [busy]
      | @scalars k cs hc hp =>
        refine ⟨pre ++ [.scalars k], by rw [ih.split, hc]; simp, fun _ => ?_⟩
        obtain ⟨st, h1, h2, h3⟩ := ih.going (by rw [hp]; intro e; cases e)
        obtain ⟨l1, l2⟩ := leftover_append pre [.scalars k] none st h1
        refine ⟨st, l1.trans (by cases st <;> rfl), h2, ?_⟩
        rw [l2, show periods st [.scalars k] = [] by cases st <;> rfl, List.append_nil]
        exact h3
      | @flush cs hc hp hd =>
        refine ⟨pre ++ [.flush], by rw [ih.split, hc]; simp, fun _ => ?_⟩
        obtain ⟨st, h1, h2, h3⟩ := ih.going (by rw [hp]; intro e; cases e)
        obtain ⟨l1, l2⟩ := leftover_append pre [.flush] none st h1
        refine ⟨st, l1.trans (by cases st <;> rfl), h2, ?_⟩
        rw [l2, show periods st [.flush] = [] by cases st <;> rfl, List.append_nil]
        exact h3
    | worker hw => cases hw <;> exact ⟨pre, ih.split, ih.going⟩
    | env he => cases he <;> exact ⟨pre, ih.split, ih.going⟩

theorem flush_done {before after : List (Call τ)} {t0 : Int} {s : State τ} (hr : Reachable (before ++ .flush :: after) t0 s) :
    s.calls.length ≤ after.length → (periods none before).length ≤ s.done := by
  generalize hcalls : before ++ .flush :: after = calls at hr
  induction hr with
  | init =>
    intro h
    rw [← hcalls] at h
    simp [AsyncMetrics.init] at h
    omega
  | @step s s' hr hs ih =>
    have key : ∀ c cs, s.calls = c :: cs → cs.length ≤ after.length →
        s.calls.length ≤ after.length ∨ c = .flush := by
      intro c cs hc hle
      by_cases h : s.calls.length ≤ after.length
      · exact Or.inl h
      · obtain ⟨pre, hf⟩ := reachable_finv hr
        have hsp := hf.split
        rw [← hcalls, hc] at hsp
        rw [hc, List.length_cons] at h
        have := (List.append_inj' hsp (by simp; omega)).2
        injection this with h1 h2
        exact Or.inr h1.symm
    cases hs with
    | main hm =>
      cases hm with
      | @start on cs hc hp =>
        intro hle
        rcases key _ _ hc hle with h | h
        · exact ih h
        · cases h
      | @raise m k n cs hc hp h0 =>
        intro hle
        rcases key _ _ hc hle with h | h
        · exact ih h
        · cases h
      | @stop m k n cs a hc hp h0 =>
        intro hle
        rcases key _ _ hc hle with h | h
        · exact ih h
        · cases h
      | @difference a b m k n hp => exact ih
      | @submit d m k n hp => exact ih
      | @scalars k cs hc hp =>
        intro hle
        rcases key _ _ hc hle with h | h
        · exact ih h
        · cases h
      | @flush cs hc hp hd =>
        intro hle
        by_cases h : s.calls.length ≤ after.length
        · exact ih h
        · obtain ⟨pre, hf⟩ := reachable_finv hr
          have hsp := hf.split
          rw [← hcalls, hc] at hsp
          rw [hc, List.length_cons] at h
          have hle' : cs.length ≤ after.length := hle
          have hpre := (List.append_inj' hsp (by simp; omega)).1
          obtain ⟨st, _, _, h3⟩ := hf.going (by rw [hp]; intro e; cases e)
          rw [hp, ← hpre] at h3
          dsimp only
          rw [← h3, hd]
          exact le_refl _
    | worker hw =>
      cases hw with
      | completion _ _ => exact ih
      | difference _ _ _ => exact ih
      | summary _ _ _ => intro h; exact le_trans (ih h) (Nat.le_succ _)
    | env he => cases he <;> exact ih

/-- **C80** (flush).  Once a `flush` has returned, the summaries of all periods finished before it have been written. -/
theorem C80_flush {before after : List (Call τ)} {t0 : Int} {s : State τ} (hr : Reachable (before ++ .flush :: after) t0 s)
    (h : s.calls.length ≤ after.length) : (periods none before).length ≤ (summaries s.written).length := by
  have hi := reachable_inv hr
  rw [← hi.written.length_eq, List.length_take, Nat.min_eq_left hi.doneLe]
  exact flush_done hr h

/-! A concrete run: value 0 is ready at time 103, the metrics (value 1) at time 110; the summary of step 5 is written with duration 7
before `flush` returns. -/

namespace Example

def calls : List (Call Nat) := [.start 0, .summary 1 5 10, .scalars 5, .flush]

def ready0 : Nat → Option Int := fun t => if t = 0 then some 103 else none
def ready1 : Nat → Option Int := fun t => if t = 0 then some 103 else if t = 1 then some 110 else none

def last : State Nat :=
  ⟨[], .idle, none, [.completion 0, .completion 1, .difference 0 1], [103, 110, 7], [⟨2, 1, 5, 10⟩], 1, [.scalars 5, .summary 5 10 7], 110, ready1⟩

theorem run : Reachable calls 100 last := by
  have h0 : Reachable calls 100 (init calls 100) := .init
  have h1 := h0.step (.main (.start (on := 0) rfl rfl))
  have h2 := h1.step (.env (.tick 3))
  have h3 := h2.step (.env (.ready (f := ready0) 0 rfl rfl (by intro u hu; simp [ready0, hu, init])))
  have h4 := h3.step (.worker (.completion (on := 0) rfl rfl))
  have h5 := h4.step (.main (.stop rfl rfl rfl))
  have h6 := h5.step (.env (.tick 7))
  have h7 := h6.step (.main (.difference rfl))
  have h8 := h7.step (.env (.ready (f := ready1) 1 rfl rfl (by intro u hu; simp [ready0, ready1, hu])))
  have h9 := h8.step (.main (.submit rfl))
  have h10 := h9.step (.worker (.completion (on := 1) rfl rfl))
  have h11 := h10.step (.worker (.difference rfl rfl rfl))
  have h12 := h11.step (.main (.scalars rfl rfl))
  have h13 := h12.step (.worker (.summary rfl rfl rfl))
  exact h13.step (.main (.flush rfl rfl rfl))

/-- C80_written, C80_total -/
example : periods none calls = [⟨0, 1, 5, 10⟩] ∧ summaries last.written = [(5, 10, 7)] ∧ Measured last.readyAt last.now 100 (periods none calls) (summaries last.written) :=
  ⟨rfl, rfl, C80_written run⟩

example : ((summaries last.written).map (fun e => e.2.2)).sum ≤ last.now - 100 := (C80_total run).2

/-- C80_no_error; and a list of calls that is not `Started` -/
example : Started false calls ∧ last.pc ≠ Pc.raised := ⟨⟨rfl, trivial⟩, C80_no_error (calls := calls) ⟨rfl, trivial⟩ run⟩

example : ¬ Started false [Call.start 0, .summary 1 5 10, .summary 1 6 10] := by simp [Started]

/-- C80_flush -/
example : (periods none [Call.start 0, .summary 1 5 10, .scalars 5]).length ≤ (summaries last.written).length :=
  C80_flush (before := [Call.start 0, .summary 1 5 10, .scalars 5]) (after := []) run (le_refl _)

/-- C80_progress: a reachable state in which every value (of a one-element type) is ready while the calls have not begun -/
example : ∃ s : State Unit, Reachable [Call.start (), .summary () 5 10, .flush] 0 s ∧ (∀ t, ∃ r, s.readyAt t = some r) ∧
    s.calls.length = 3 :=
  ⟨_, Reachable.init.step (.env (.ready (f := fun _ => some 0) () rfl rfl (fun _ h => absurd rfl h))), fun _ => ⟨0, rfl⟩, rfl⟩

end Example

end Verif.AsyncMetrics
