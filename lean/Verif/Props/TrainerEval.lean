import Verif.Model.TrainerEval
import Mathlib.Data.List.Induction
/-
C85: evaluation during training on many hosts.
-/
namespace Verif.TrainerEval

variable {B M S N C : Type} [DecidableEq N]

namespace Spec

/-- All updates merged in order; nothing for no update. -/
def total (merge : M → M → M) : List M → Option M
  | [] => none
  | u :: us => some (us.foldl merge u)

/-- The updates of the first `k` rounds. -/
def updates (hosts : Nat) (bs : Nat → List B) (step : List B → M) (k : Nat) : List M :=
  (List.range k).map fun r => step ((List.range hosts).filterMap fun h => (bs h)[r]?)

/-- All hosts have equally many batches. -/
def EvenHosts (hosts : Nat) (bs : Nat → List B) : Prop := ∀ h < hosts, (bs h).length = (bs 0).length

/-- The value that a dict built from a list gives to a key: the last one. -/
def lastOf {V : Type} (l : List (N × V)) (n : N) : Option V := PyDict.get l.reverse n

end Spec
open Spec

theorem vote_eq (bs bs' : List B) (r : Nat) : vote bs r = vote bs' r ↔ (r < bs.length ↔ r < bs'.length) := by
  unfold vote
  by_cases h1 : r < bs.length <;> by_cases h2 : r < bs'.length
  · rw [if_pos h1, if_pos h2]; simp [h1, h2]
  · rw [if_pos h1, if_neg h2]; simp only [h1, h2, iff_false, not_true]; omega
  · rw [if_neg h1, if_pos h2]; simp only [h1, h2]; constructor <;> intro h <;> [omega; exact absurd h (by simp)]
  · rw [if_neg h1, if_neg h2]; simp [h1, h2]

/-- Merging the updates one by one. -/
def feed (empty : M → Bool) (merge : M → M → M) (m : Option M) (us : List M) : Option M :=
  us.foldl (fun m u => some (add empty merge m u)) m

theorem feed_total (empty : M → Bool) (merge : M → M → M) (he : ∀ m u, empty m = true → merge m u = u) (us : List M) :
    feed empty merge none us = total merge us := by
  have hadd : ∀ m u, add empty merge (some m) u = merge m u := by
    intro m u
    unfold add
    dsimp only
    split_ifs with h
    · exact (he m u h).symm
    · rfl
  have hs : ∀ (us : List M) m, feed empty merge (some m) us = some (us.foldl merge m) := by
    intro us
    induction us with
    | nil => intro m; rfl
    | cons u us ih =>
      intro m
      have : feed empty merge (some m) (u :: us) = feed empty merge (some (add empty merge (some m) u)) us := rfl
      rw [this, hadd, ih]; rfl
  cases us with
  | nil => rfl
  | cons u us =>
    have : feed empty merge none (u :: us) = feed empty merge (some u) us := rfl
    rw [this, hs]; rfl

theorem rounds_long (hosts : Nat) (bs : Nat → List B) (empty : M → Bool) (merge : M → M → M) (step : List B → M) (k r : Nat)
    (m : Option M) (hk : r + k = (bs 0).length) (hall : ∀ h < hosts, r + k ≤ (bs h).length) (h : Nat) (hh : h < hosts) :
    rounds hosts bs empty merge step k r m h =
      if (bs h).length = r + k then
        .summary (feed empty merge m ((List.range' r k).map fun i => step (globalBatch hosts bs i))) (r + k)
      else .assertion := by
  induction k generalizing r m with
  | zero =>
    have := hall h hh
    simp only [rounds, vote_eq]
    by_cases e : (bs h).length = r + 0
    · rw [if_pos e, if_pos (by omega)]; rfl
    · rw [if_neg e, if_neg (by omega)]
  | succ k ih =>
    have hc : (List.range hosts).all (fun h' => vote (bs h') r = vote (bs 0) r) = true := by
      rw [List.all_eq_true]
      intro h' hm
      have := hall h' (by simpa using hm)
      simp only [decide_eq_true_eq, vote_eq]
      omega
    simp only [rounds]
    rw [if_pos hc, ih (r + 1) _ (by omega) (fun h' hm => by have := hall h' hm; omega)]
    have e : r + 1 + k = r + (k + 1) := by omega
    rw [e, List.range'_succ]
    rfl

theorem rounds_short (hosts : Nat) (bs : Nat → List B) (empty : M → Bool) (merge : M → M → M) (step : List B → M) (k r : Nat)
    (m : Option M) (hk : r + k = (bs 0).length) (hr : ∀ h < hosts, r ≤ (bs h).length) (hs : ∃ h < hosts, (bs h).length < r + k) :
    (∃ h < hosts, rounds hosts bs empty merge step k r m h = .assertion) ∧
    ∀ h < hosts, isSummary (rounds hosts bs empty merge step k r m h) = false := by
  induction k generalizing r m with
  | zero =>
    obtain ⟨h, h1, h2⟩ := hs
    have := hr h h1
    omega
  | succ k ih =>
    simp only [rounds]
    by_cases hc : (List.range hosts).all (fun h' => vote (bs h') r = vote (bs 0) r) = true
    · simp only [if_pos hc]
      rw [List.all_eq_true] at hc
      refine ih (r + 1) _ (by omega) ?_ ?_
      · intro h hh
        have := hc h (by simpa using hh)
        simp only [decide_eq_true_eq, vote_eq] at this
        omega
      · obtain ⟨h, h1, h2⟩ := hs
        exact ⟨h, h1, by omega⟩
    · simp only [if_neg hc]
      constructor
      · rw [List.all_eq_true] at hc
        push Not at hc
        obtain ⟨h, hm, hv⟩ := hc
        refine ⟨h, by simpa using hm, ?_⟩
        rw [if_neg (by simpa using hv)]
      · intro h _
        split_ifs <;> rfl

/-- **C85** One data set.  If all hosts have equally many batches, every host gets the summary of all batches, with their number.  If not, at least one
host raises the error; a host that still gets a summary has exactly as many batches as host 0, no host has fewer, and its summary is
that of these rounds. -/
theorem C85_lockstep (hosts : Nat) (bs : Nat → List B) (empty : M → Bool) (merge : M → M → M)
    (he : ∀ m u, empty m = true → merge m u = u) (step : List B → M) :
    (EvenHosts hosts bs → ∀ h < hosts, evalOne hosts bs empty merge step h =
      .summary (total merge (updates hosts bs step (bs 0).length)) (bs 0).length) ∧
    (¬ EvenHosts hosts bs → ∃ h < hosts, evalOne hosts bs empty merge step h = .assertion) ∧
    (∀ h < hosts, ∀ m k, evalOne hosts bs empty merge step h = .summary m k →
      k = (bs 0).length ∧ (bs h).length = k ∧ (∀ h' < hosts, k ≤ (bs h').length) ∧
      m = total merge (updates hosts bs step k)) := by
  have hfeed : ∀ k, feed empty merge none ((List.range' 0 k).map fun i => step (globalBatch hosts bs i)) =
      total merge (updates hosts bs step k) := by
    intro k
    rw [feed_total empty merge he, ← List.range_eq_range']
    rfl
  unfold evalOne
  by_cases hall : ∀ h < hosts, 0 + (bs 0).length ≤ (bs h).length
  · have hrun := fun h hh => rounds_long hosts bs empty merge step (bs 0).length 0 none (by omega) hall h hh
    simp only [Nat.zero_add, hfeed] at hrun hall
    refine ⟨?_, ?_, ?_⟩
    · intro hev h hh
      rw [hrun h hh, if_pos (hev h hh)]
    · intro hev
      unfold EvenHosts at hev
      push Not at hev
      obtain ⟨h, hh, hne⟩ := hev
      exact ⟨h, hh, by rw [hrun h hh, if_neg hne]⟩
    · intro h hh m k hs
      rw [hrun h hh] at hs
      split_ifs at hs with hl
      cases hs
      exact ⟨rfl, hl, hall, rfl⟩
  · push Not at hall
    obtain ⟨h', hh', hlt⟩ := hall
    obtain ⟨h1, h2⟩ := rounds_short hosts bs empty merge step (bs 0).length 0 none (by omega) (by intros; omega) ⟨h', hh', hlt⟩
    refine ⟨?_, fun _ => h1, ?_⟩
    · intro hev
      have := hev h' hh'
      omega
    · intro h hh m k hs
      have := h2 h hh
      rw [hs] at this
      cases this

/-- **C85** A limit: if host 0 has the fewest batches, it gets a summary of its rounds (and writes it) although other hosts fail. -/
theorem C85_host_zero (hosts : Nat) (hp : 0 < hosts) (bs : Nat → List B) (empty : M → Bool) (merge : M → M → M)
    (he : ∀ m u, empty m = true → merge m u = u) (step : List B → M) (hmin : ∀ h < hosts, (bs 0).length ≤ (bs h).length) :
    evalOne hosts bs empty merge step 0 = .summary (total merge (updates hosts bs step (bs 0).length)) (bs 0).length ∧
    ∀ h < hosts, (bs 0).length < (bs h).length → evalOne hosts bs empty merge step h = .assertion := by
  have hrun := fun h hh => rounds_long hosts bs empty merge step (bs 0).length 0 none (by omega) (by simpa using hmin) h hh
  have hfeed : feed empty merge none ((List.range' 0 (bs 0).length).map fun i => step (globalBatch hosts bs i)) =
      total merge (updates hosts bs step (bs 0).length) := by
    rw [feed_total empty merge he, ← List.range_eq_range']
    rfl
  simp only [Nat.zero_add, hfeed] at hrun
  refine ⟨?_, ?_⟩
  · unfold evalOne
    rw [hrun 0 hp, if_pos rfl]
  · intro h hh hlt
    unfold evalOne
    rw [hrun h hh, if_neg (by omega)]

/-! ### Several data sets -/

theorem setAll_get {V : Type} (l : List (N × V)) (d : List (N × V)) (n : N) :
    PyDict.get (l.foldl (fun d e => PyDict.set d e.1 e.2) d) n = match lastOf l n with
      | some v => some v
      | none => PyDict.get d n := by
  induction l using List.reverseRecOn generalizing d with
  | nil => rfl
  | append_singleton l e ih =>
    rw [List.foldl_append]
    have e1 : lastOf (l ++ [e]) n = if e.1 = n then some e.2 else lastOf l n := by
      unfold lastOf
      rw [List.reverse_append]
      rfl
    rw [e1]
    show PyDict.get (PyDict.set _ e.1 e.2) n = _
    rw [PyDict.get_set]
    split_ifs with h
    · rfl
    · exact ih d

/-- **C85** All data sets.  All hosts return exactly if every name is known and the hosts have equally many batches of every data set;
then every host returns the same: for each name the metrics of all its batches and their number. -/
theorem C85_eval (hosts : Nat) (hp : 0 < hosts) (managers : List N) (steps : List (N × (S → List B → M))) (default : S → List B → M)
    (empty : M → Bool) (merge : M → M → M) (he : ∀ m u, empty m = true → merge m u = u) (state : S)
    (sets : List (N × (Nat → List B))) :
    ((∀ h < hosts, ∃ r, eval hosts managers steps default empty merge state h false sets [] = .ok r) ↔
      ∀ e ∈ sets, e.1 ∈ managers ∧ EvenHosts hosts e.2) ∧
    ((∀ e ∈ sets, e.1 ∈ managers ∧ EvenHosts hosts e.2) → ∃ r, (∀ h < hosts, eval hosts managers steps default empty merge state h false sets [] = .ok r) ∧
      ∀ n, PyDict.get r n = (lastOf sets n).map fun bs =>
        (total merge (updates hosts bs (((PyDict.get steps n).getD default) state) (bs 0).length), (bs 0).length)) := by
  have good : ∀ (sets : List (N × (Nat → List B))) (d : List (N × Option M × Nat)), (∀ e ∈ sets, e.1 ∈ managers ∧ EvenHosts hosts e.2) →
      ∀ h < hosts, eval hosts managers steps default empty merge state h false sets d =
        .ok ((sets.map fun e => (e.1, total merge (updates hosts e.2 (((PyDict.get steps e.1).getD default) state) (e.2 0).length),
          (e.2 0).length)).foldl (fun d e => PyDict.set d e.1 e.2) d) := by
    intro sets
    induction sets with
    | nil => intro d _ h _; rfl
    | cons e sets ih =>
      obtain ⟨n, bs⟩ := e
      intro d hg h hh
      obtain ⟨hm, hev⟩ := hg (n, bs) (by simp)
      have hone := (C85_lockstep hosts bs empty merge he (((PyDict.get steps n).getD default) state)).1 hev
      have hall : (List.range hosts).all (fun h' => isSummary (evalOne hosts bs empty merge (((PyDict.get steps n).getD default) state) h'))
          = true := by
        rw [List.all_eq_true]
        intro h' hm'
        rw [hone h' (by simpa using hm')]; rfl
      simp only [eval]
      rw [if_neg (not_not.2 hm), if_neg (by simp), hone h hh]
      dsimp only
      rw [hall]
      exact ih _ (fun e he' => hg e (List.mem_cons_of_mem _ he')) h hh
  have bad : ∀ (sets : List (N × (Nat → List B))) (d : Nat → List (N × Option M × Nat)),
      (∀ h < hosts, ∃ r, eval hosts managers steps default empty merge state h false sets (d h) = .ok r) →
      ∀ e ∈ sets, e.1 ∈ managers ∧ EvenHosts hosts e.2 := by
    intro sets
    induction sets with
    | nil => intro d _ e he'; cases he'
    | cons e sets ih =>
      obtain ⟨n, bs⟩ := e
      intro d hok
      have hm : n ∈ managers := by
        by_contra hc
        obtain ⟨r, hr⟩ := hok 0 hp
        simp only [eval] at hr
        rw [if_pos hc] at hr
        cases hr
      have hl := C85_lockstep hosts bs empty merge he (((PyDict.get steps n).getD default) state)
      have hev : EvenHosts hosts bs := by
        by_contra hc
        obtain ⟨h, hh, ha⟩ := hl.2.1 hc
        obtain ⟨r, hr⟩ := hok h hh
        simp only [eval] at hr
        rw [if_neg (not_not.2 hm), if_neg (by simp), ha] at hr
        cases hr
      have hone := hl.1 hev
      have hall : (List.range hosts).all (fun h' => isSummary (evalOne hosts bs empty merge (((PyDict.get steps n).getD default) state) h'))
          = true := by
        rw [List.all_eq_true]
        intro h' hm'
        rw [hone h' (by simpa using hm')]; rfl
      have := ih (fun h => PyDict.set (d h) n (total merge (updates hosts bs (((PyDict.get steps n).getD default) state) (bs 0).length),
        (bs 0).length)) (by
          intro h hh
          obtain ⟨r, hr⟩ := hok h hh
          simp only [eval] at hr
          rw [if_neg (not_not.2 hm), if_neg (by simp), hone h hh] at hr
          dsimp only at hr
          rw [hall] at hr
          exact ⟨r, hr⟩)
      intro e he'
      rcases List.mem_cons.1 he' with rfl | he'
      · exact ⟨hm, hev⟩
      · exact this e he'
  refine ⟨⟨fun hok => bad sets (fun _ => []) hok, fun hg h hh => ⟨_, good sets [] hg h hh⟩⟩, ?_⟩
  intro hg
  refine ⟨_, good sets [] hg, ?_⟩
  intro n
  rw [setAll_get]
  have : lastOf (sets.map fun e => (e.1, total merge (updates hosts e.2 (((PyDict.get steps e.1).getD default) state) (e.2 0).length),
      (e.2 0).length)) n = (lastOf sets n).map fun bs =>
        (total merge (updates hosts bs (((PyDict.get steps n).getD default) state) (bs 0).length), (bs 0).length) := by
    unfold lastOf
    rw [← List.map_reverse]
    induction sets.reverse with
    | nil => rfl
    | cons e l ih =>
      simp only [List.map_cons, PyDict.get]
      split_ifs with h
      · rw [h]; rfl
      · exact ih
  rw [this]
  cases lastOf sets n <;> rfl

/-! ### Compilation -/

variable {Sp : Type} [DecidableEq Sp]

/-- Invariant of the cache: every entry was compiled for a batch of its key, and every compilation is in the cache. -/
structure CacheOk (spec : B → Sp) (compile : B → C) (s : Compiled N Sp C B) : Prop where
  entry : ∀ k c, PyDict.get s.cache k = some c → ∃ b, spec b = k ∧ c = compile b
  logged : ∀ k, (PyDict.get s.cache k).isSome ↔ ∃ b ∈ s.log, spec b = k
  nodup : (s.log.map spec).Nodup

theorem compileOne_ok (managers : List N) (spec : B → Sp) (compile : B → C) (s : Compiled N Sp C B) (n : N) (b : B)
    (hs : CacheOk spec compile s) :
    CacheOk spec compile (compileOne managers spec compile s n b).1 ∧
    (∃ b', spec b' = spec b ∧ (compileOne managers spec compile s n b).1.steps = PyDict.set s.steps n (compile b')) ∧
    (∀ k, (∃ x ∈ (compileOne managers spec compile s n b).1.log, spec x = k) ↔ (∃ x ∈ s.log, spec x = k) ∨ spec b = k) ∧
    (n ∈ managers → (compileOne managers spec compile s n b).2 = none) := by
  unfold compileOne
  cases hg : PyDict.get s.cache (spec b) with
  | some c =>
    dsimp only
    simp only [hg]
    obtain ⟨b', h1, h2⟩ := hs.entry _ _ hg
    refine ⟨⟨hs.entry, hs.logged, hs.nodup⟩, ⟨b', h1, by rw [h2]⟩, ?_, ?_⟩
    · intro k
      constructor
      · exact .inl
      · rintro (h | h)
        · exact h
        · rw [← h]; exact (hs.logged _).1 (by rw [hg]; rfl)
    · intro h; rw [if_pos h]
  | none =>
    have hgs : PyDict.get (PyDict.set s.cache (spec b) (compile b)) (spec b) = some (compile b) := by
      rw [PyDict.get_set, if_pos rfl]
    simp only [hg, hgs]
    refine ⟨⟨?_, ?_, ?_⟩, ⟨b, rfl, rfl⟩, ?_, ?_⟩
    · intro k c hk
      dsimp only at hk
      rw [PyDict.get_set] at hk
      split_ifs at hk with h
      · cases hk; exact ⟨b, h, rfl⟩
      · exact hs.entry k c hk
    · intro k
      dsimp only
      rw [PyDict.get_set]
      split_ifs with h
      · simp only [Option.isSome_some, true_iff]
        exact ⟨b, by simp, h⟩
      · rw [hs.logged k]
        constructor
        · rintro ⟨x, hx, e⟩; exact ⟨x, by simp [hx], e⟩
        · rintro ⟨x, hx, e⟩
          rcases List.mem_append.1 hx with hx | hx
          · exact ⟨x, hx, e⟩
          · rw [List.mem_singleton] at hx; subst hx; exact absurd e h
    · dsimp only
      rw [List.map_append, List.nodup_append]
      refine ⟨hs.nodup, by simp, ?_⟩
      intro a ha c hc
      simp only [List.map_cons, List.map_nil, List.mem_singleton] at hc
      rintro rfl
      obtain ⟨x, hx, e⟩ := List.mem_map.1 ha
      have := (hs.logged (spec b)).2 ⟨x, hx, by rw [e, hc]⟩
      rw [hg] at this; cases this
    · intro k
      constructor
      · rintro ⟨x, hx, e⟩
        rcases List.mem_append.1 hx with hx | hx
        · exact .inl ⟨x, hx, e⟩
        · rw [List.mem_singleton] at hx; subst hx; exact .inr e
      · rintro (⟨x, hx, e⟩ | e)
        · exact ⟨x, by simp [hx], e⟩
        · exact ⟨b, by simp, e⟩
    · intro h; rw [if_pos h]

theorem compileEval_ok (managers : List N) (spec : B → Sp) (compile : B → C) (call : List (N × B)) (s : Compiled N Sp C B)
    (hs : CacheOk spec compile s) (hm : ∀ e ∈ call, e.1 ∈ managers) :
    (compileEval managers spec compile call s).2 = none ∧
    CacheOk spec compile (compileEval managers spec compile call s).1 ∧
    (∃ f : List C, List.Forall₂ (fun e c => ∃ b', spec b' = spec e.2 ∧ c = compile b') call f ∧
      (compileEval managers spec compile call s).1.steps =
        (List.zip (call.map Prod.fst) f).foldl (fun d e => PyDict.set d e.1 e.2) s.steps) ∧
    (∀ k, (∃ x ∈ (compileEval managers spec compile call s).1.log, spec x = k) ↔
      (∃ x ∈ s.log, spec x = k) ∨ ∃ e ∈ call, spec e.2 = k) := by
  induction call generalizing s with
  | nil => exact ⟨rfl, hs, ⟨[], .nil, rfl⟩, fun k => by simp [compileEval]⟩
  | cons e call ih =>
    obtain ⟨n, b⟩ := e
    obtain ⟨h1, ⟨b', h2, h3⟩, h4, h5⟩ := compileOne_ok managers spec compile s n b hs
    have hn := h5 (hm (n, b) (by simp))
    have hrun : compileEval managers spec compile ((n, b) :: call) s =
        compileEval managers spec compile call (compileOne managers spec compile s n b).1 := by
      rw [compileEval]
      generalize compileOne managers spec compile s n b = p at hn
      obtain ⟨s', o⟩ := p
      dsimp only at hn
      subst hn
      rfl
    rw [hrun]
    obtain ⟨q1, q2, ⟨f, q3, q4⟩, q5⟩ := ih _ h1 (fun e he => hm e (List.mem_cons_of_mem _ he))
    refine ⟨q1, q2, ⟨compile b' :: f, .cons ⟨b', h2, rfl⟩ q3, ?_⟩, ?_⟩
    · rw [q4, h3]; rfl
    · intro k
      rw [q5, h4]
      simp only [List.mem_cons, exists_eq_or_imp, or_assoc]

theorem compileCalls_ok (managers : List N) (spec : B → Sp) (compile : B → C) (calls : List (List (N × B))) (s : Compiled N Sp C B)
    (hs : CacheOk spec compile s) (hm : ∀ call ∈ calls, ∀ e ∈ call, e.1 ∈ managers) :
    CacheOk spec compile (compileCalls managers spec compile calls s) ∧
    (∃ f : List C, List.Forall₂ (fun e c => ∃ b', spec b' = spec e.2 ∧ c = compile b') calls.flatten f ∧
      (compileCalls managers spec compile calls s).steps =
        (List.zip (calls.flatten.map Prod.fst) f).foldl (fun d e => PyDict.set d e.1 e.2) s.steps) ∧
    (∀ k, (∃ x ∈ (compileCalls managers spec compile calls s).log, spec x = k) ↔
      (∃ x ∈ s.log, spec x = k) ∨ ∃ e ∈ calls.flatten, spec e.2 = k) := by
  induction calls generalizing s with
  | nil => exact ⟨hs, ⟨[], .nil, rfl⟩, fun k => by simp [compileCalls]⟩
  | cons call calls ih =>
    obtain ⟨-, h1, ⟨f, h2, h3⟩, h4⟩ := compileEval_ok managers spec compile call s hs (hm call (by simp))
    obtain ⟨q1, ⟨f', q2, q3⟩, q4⟩ := ih (compileEval managers spec compile call s).1 h1 (fun c hc => hm c (List.mem_cons_of_mem _ hc))
    rw [compileCalls]
    refine ⟨q1, ⟨f ++ f', ?_, ?_⟩, ?_⟩
    · rw [List.flatten_cons]; exact List.rel_append h2 q2
    · rw [q3, h3, List.flatten_cons, List.map_append, List.zip_append (by rw [List.length_map]; exact h2.length_eq), List.foldl_append]
    · intro k
      rw [q4, h4, List.flatten_cons]
      simp only [List.mem_append, or_assoc]
      constructor
      · rintro (h | ⟨e, he, h⟩ | ⟨e, he, h⟩)
        · exact .inl h
        · exact .inr ⟨e, .inl he, h⟩
        · exact .inr ⟨e, .inr he, h⟩
      · rintro (h | ⟨e, he | he, h⟩)
        · exact .inl h
        · exact .inr (.inl ⟨e, he, h⟩)
        · exact .inr (.inr ⟨e, he, h⟩)

theorem lastOf_zip (spec : B → Sp) (compile : B → C) (l : List (N × B)) (f : List C)
    (h : List.Forall₂ (fun e c => ∃ b', spec b' = spec e.2 ∧ c = compile b') l f) (n : N) :
    (lastOf l n = none ∧ lastOf (List.zip (l.map Prod.fst) f) n = none) ∨
    ∃ b b', lastOf l n = some b ∧ spec b' = spec b ∧ lastOf (List.zip (l.map Prod.fst) f) n = some (compile b') := by
  have hr := List.rel_reverse h
  unfold lastOf
  have : (List.zip (l.map Prod.fst) f).reverse = List.zip (l.reverse.map Prod.fst) f.reverse := by
    clear hr
    induction h with
    | nil => rfl
    | @cons e c l f _ h' ih =>
      rw [List.map_cons, List.zip_cons_cons, List.reverse_cons, ih, List.reverse_cons, List.reverse_cons, List.map_append,
        List.zip_append (by simp [h'.length_eq])]
      rfl
  rw [this]
  generalize l.reverse = l at hr
  generalize f.reverse = f at hr
  clear this h
  induction hr with
  | nil => exact .inl ⟨rfl, rfl⟩
  | @cons e c l f h _ ih =>
    obtain ⟨b', h1, h2⟩ := h
    simp only [List.map_cons, List.zip_cons_cons, PyDict.get]
    by_cases hn : e.1 = n
    · right
      exact ⟨e.2, b', by rw [if_pos hn], h1, by rw [if_pos hn, h2]⟩
    · rw [if_neg hn, if_neg hn]; exact ih

/-- **C85** After any calls of `compile_eval` the step of a data set was compiled for a batch of the shapes and types last given for
that name; a name that was never given has no compiled step; and for every combination of shapes and types there was exactly one
compilation. -/
theorem C85_compile (managers : List N) (spec : B → Sp) (compile : B → C) (calls : List (List (N × B)))
    (hm : ∀ call ∈ calls, ∀ e ∈ call, e.1 ∈ managers) :
    let s := compileCalls managers spec compile calls ⟨[], [], []⟩
    (∀ n b, lastOf calls.flatten n = some b → ∃ b', spec b' = spec b ∧ PyDict.get s.steps n = some (compile b')) ∧
    (∀ n, lastOf calls.flatten n = none → PyDict.get s.steps n = none) ∧
    (s.log.map spec).Nodup ∧ ∀ k, k ∈ s.log.map spec ↔ ∃ e ∈ calls.flatten, spec e.2 = k := by
  intro s
  have hs0 : CacheOk spec compile (⟨[], [], []⟩ : Compiled N Sp C B) :=
    ⟨fun k c h => (by cases h), fun k => by simp [PyDict.get], by simp⟩
  obtain ⟨h1, ⟨f, h2, h3⟩, h4⟩ := compileCalls_ok managers spec compile calls ⟨[], [], []⟩ hs0 hm
  refine ⟨?_, ?_, h1.nodup, ?_⟩
  · intro n b hb
    rcases lastOf_zip spec compile calls.flatten f h2 n with ⟨h, -⟩ | ⟨b1, b', q1, q2, q3⟩
    · rw [h] at hb; cases hb
    · rw [q1] at hb; cases hb
      refine ⟨b', q2, ?_⟩
      show PyDict.get (compileCalls managers spec compile calls ⟨[], [], []⟩).steps n = _
      rw [h3, setAll_get, q3]
  · intro n hn
    rcases lastOf_zip spec compile calls.flatten f h2 n with ⟨-, h⟩ | ⟨b1, b', q1, -⟩
    · show PyDict.get (compileCalls managers spec compile calls ⟨[], [], []⟩).steps n = _
      rw [h3, setAll_get, h]; rfl
    · rw [q1] at hn; cases hn
  · intro k
    rw [List.mem_map]
    have := h4 k
    simp only [List.not_mem_nil, false_and, exists_false, false_or] at this
    exact this

/-- **C85** Compiling ahead changes no result: if a compiled step does on batches of its shapes and types what the step does, and the
batches of every data set have the shapes and types given to `compile_eval`, all hosts return what they return without compilation. -/
theorem C85_compiled_same (hosts : Nat) (managers : List N) (spec : B → Sp) (compile : B → S → List B → M) (default : S → List B → M)
    (hc : ∀ b st gb, (∀ x ∈ gb, spec x = spec b) → compile b st gb = default st gb)
    (calls : List (List (N × B))) (hm : ∀ call ∈ calls, ∀ e ∈ call, e.1 ∈ managers) (empty : M → Bool) (merge : M → M → M) (state : S)
    (sets : List (N × (Nat → List B)))
    (hspec : ∀ e ∈ sets, ∀ b, lastOf calls.flatten e.1 = some b → ∀ h < hosts, ∀ x ∈ e.2 h, spec x = spec b) (h : Nat) :
    eval hosts managers (compileCalls managers spec compile calls ⟨[], [], []⟩).steps default empty merge state h false sets [] =
      eval hosts managers [] default empty merge state h false sets [] := by
  obtain ⟨h1, h2, -, -⟩ := C85_compile managers spec compile calls hm
  generalize (compileCalls managers spec compile calls ⟨[], [], []⟩).steps = steps at h1 h2
  have hone : ∀ e ∈ sets, ∀ h, evalOne hosts e.2 empty merge (((PyDict.get steps e.1).getD default) state) h =
      evalOne hosts e.2 empty merge (default state) h := by
    intro e he h
    cases hl : lastOf calls.flatten e.1 with
    | none => rw [h2 e.1 hl]; rfl
    | some b =>
      obtain ⟨b', q1, q2⟩ := h1 e.1 b hl
      rw [q2]
      have hstep : ∀ r, compile b' state (globalBatch hosts e.2 r) = default state (globalBatch hosts e.2 r) := by
        intro r
        apply hc
        intro x hx
        unfold globalBatch at hx
        obtain ⟨h', hh', hx⟩ := List.mem_filterMap.1 hx
        rw [q1]
        exact hspec e he b hl h' (by simpa using hh') x (List.mem_of_getElem? hx)
      show evalOne hosts e.2 empty merge (compile b' state) h = _
      have hr : ∀ k r m, rounds hosts e.2 empty merge (compile b' state) k r m h = rounds hosts e.2 empty merge (default state) k r m h := by
        intro k
        induction k with
        | zero => intro r m; rfl
        | succ k ih =>
          intro r m
          simp only [rounds]
          rw [hstep, ih]
      exact hr _ _ _
  have hev : ∀ (sets' : List (N × (Nat → List B))) alone d, (∀ e ∈ sets', e ∈ sets) →
      eval hosts managers steps default empty merge state h alone sets' d = eval hosts managers [] default empty merge state h alone sets' d := by
    intro sets'
    induction sets' with
    | nil => intro alone d _; rfl
    | cons e sets' ih =>
      obtain ⟨n, bs⟩ := e
      intro alone d hsub
      have ho := hone (n, bs) (hsub _ (by simp))
      dsimp only at ho
      have ho' : evalOne hosts bs empty merge (((PyDict.get steps n).getD default) state) =
          evalOne hosts bs empty merge (((PyDict.get ([] : List (N × (S → List B → M))) n).getD default) state) := funext ho
      simp only [eval]
      rw [ho']
      congr 2
      cases evalOne hosts bs empty merge (((PyDict.get ([] : List (N × (S → List B → M))) n).getD default) state) h with
      | summary m k => dsimp only; rw [ih _ _ (fun e he => hsub e (List.mem_cons_of_mem _ he))]
      | assertion => rfl
      | stuck => rfl
  exact hev sets false [] (fun e he => he)

/-! ### Non-vacuity -/

def exBs (l : List (List Nat)) : Nat → List Nat := fun h => l.getD h []

example : EvenHosts 2 (exBs [[1, 2], [10, 20]]) := by
  intro h hh
  have : h = 0 ∨ h = 1 := by omega
  rcases this with rfl | rfl <;> rfl
example : evalOne 2 (exBs [[1, 2], [10, 20]]) (fun _ => false) (· + ·) List.sum 1 = .summary (some 33) 2 := by decide
/-- Host 1 has one batch more: host 0 gets a summary of one round, host 1 fails. -/
example : evalOne 2 (exBs [[1], [10, 20]]) (fun _ => false) (· + ·) List.sum 0 = .summary (some 11) 1 ∧
    evalOne 2 (exBs [[1], [10, 20]]) (fun _ => false) (· + ·) List.sum 1 = .assertion := by decide
/-- Host 1 has one batch less: host 1 fails, host 0 waits for ever. -/
example : evalOne 2 (exBs [[1, 2], [10]]) (fun _ => false) (· + ·) List.sum 0 = .stuck ∧
    evalOne 2 (exBs [[1, 2], [10]]) (fun _ => false) (· + ·) List.sum 1 = .assertion := by decide
example : (compileCalls ["a", "b", "c"] (fun b : Nat => b % 2) (fun b => b) [[("a", 2), ("b", 4)], [("c", 3), ("a", 5)]] ⟨[], [], []⟩).log =
    [2, 3] := by decide

end Verif.TrainerEval
