import Verif.Spec.TrainLoop
import Mathlib.Data.List.Basic
import Mathlib.Tactic.Linarith
/-
Helper lemmas for the training schedule.
-/
namespace Verif.TrainLoop
open Spec

/-! ### The index into `checkpoint_steps` as a pending list -/

/-- What `find_first_checkpoint_step` does to the pending suffix. -/
def skip (first host : Nat) : List Nat → List Nat
  | [] => []
  | [a] => [a]
  | a :: b :: l => if host > a ∨ a = first then skip first host (b :: l) else a :: b :: l

theorem findFirstGo_drop (steps : List Nat) (first host : Nat) (fuel idx : Nat)
    (hi : idx < steps.length) (hf : steps.length ≤ idx + fuel) :
    steps.drop (findFirstGo steps first host fuel idx) = skip first host (steps.drop idx) ∧
    findFirstGo steps first host fuel idx < steps.length := by
  induction fuel generalizing idx with
  | zero => omega
  | succ fuel ih =>
    unfold findFirstGo
    have hd : steps.drop idx = steps[idx] :: steps.drop (idx + 1) := (List.drop_eq_getElem_cons hi)
    have hg : steps.getD idx 0 = steps[idx] := by simp [List.getD, hi]
    rw [hg]
    by_cases hl : idx < steps.length - 1
    · have hi1 : idx + 1 < steps.length := by omega
      have hd1 : steps.drop (idx + 1) = steps[idx + 1] :: steps.drop (idx + 1 + 1) :=
        List.drop_eq_getElem_cons hi1
      by_cases hc : host > steps[idx] ∨ steps[idx] = first
      · rw [if_pos ⟨hl, hc⟩]
        obtain ⟨h1, h2⟩ := ih (idx + 1) hi1 (by omega)
        refine ⟨?_, h2⟩
        rw [h1, hd, hd1, skip, if_pos hc]
      · rw [if_neg (fun h => hc h.2)]
        refine ⟨?_, hi⟩
        rw [hd, hd1, skip, if_neg hc]
    · rw [if_neg (fun h => hl h.1)]
      refine ⟨?_, hi⟩
      have : steps.drop (idx + 1) = [] := by rw [List.drop_eq_nil_iff]; omega
      rw [hd, this, skip]

theorem findFirst_drop (steps : List Nat) (first host idx : Nat) (hi : idx < steps.length) :
    steps.drop (findFirst idx steps first host) = skip first host (steps.drop idx) ∧
    findFirst idx steps first host < steps.length :=
  findFirstGo_drop steps first host _ idx hi (by omega)

/-- Off-period and after the first step. -/
def Off (first period s : Nat) : Prop := first < s ∧ ¬ onPeriod first period s

instance (a b c : Nat) : Decidable (Off a b c) := by unfold Off; infer_instance

theorem off_cond (first period cur epochEnd : Nat) (h : cur ≤ epochEnd) :
    (((cur : Int) - first) % period ≠ 0 ∧ cur > first ∧ cur ≤ epochEnd) ↔ Off first period cur := by
  unfold Off onPeriod
  constructor
  · rintro ⟨h1, h2, _⟩
    refine ⟨h2, fun h3 => h1 ?_⟩
    have : ((cur : Int) - first) = ((cur - first : Nat) : Int) := by omega
    rw [this]
    exact_mod_cast h3
  · rintro ⟨h1, h2⟩
    refine ⟨fun h3 => h2 ?_, h1, h⟩
    have : ((cur : Int) - first) = ((cur - first : Nat) : Int) := by omega
    rw [this] at h3
    exact_mod_cast h3

theorem findNextGo_spec (inner host epochEnd period first : Nat) (hp : period ≠ 0)
    (hE : inner + host ≤ epochEnd) (l : List Nat) (hl : l ≠ []) (hs : l.Pairwise (· < ·)) :
    findNextGo inner host epochEnd period first l =
      match l.find? (fun s => decide (Off first period s)) with
      | some s => if s ≤ inner + host then .ok ((s : Int) - host, true) else .ok (inner, false)
      | none => .ok (inner, false) := by
  induction l with
  | nil => exact absurd rfl hl
  | cons cur rest ih =>
    unfold findNextGo
    rw [List.pairwise_cons] at hs
    by_cases hb : inner + host ≥ cur
    · rw [if_pos hb, if_neg hp]
      by_cases hc : Off first period cur
      · rw [if_pos ((off_cond first period cur epochEnd (by omega)).2 hc)]
        simp [hc, hb]
      · rw [if_neg (fun h => hc ((off_cond first period cur epochEnd (by omega)).1 h))]
        have hf : (cur :: rest).find? (fun s => decide (Off first period s))
            = rest.find? (fun s => decide (Off first period s)) := by simp [hc]
        rw [hf]
        by_cases hr : rest = []
        · rw [if_pos hr, hr]; rfl
        · rw [if_neg hr]; exact ih hr hs.2
    · rw [if_neg hb]
      have : ∀ s, (cur :: rest).find? (fun s => decide (Off first period s)) = some s → ¬ s ≤ inner + host := by
        intro s h
        have := List.mem_of_find?_eq_some h
        rcases List.mem_cons.1 this with rfl | h'
        · omega
        · have := hs.1 s h'; omega
      cases hfd : (cur :: rest).find? (fun s => decide (Off first period s)) with
      | none => rfl
      | some s => simp [this s hfd]

theorem skip_suffix (first host : Nat) (l : List Nat) :
    ∃ pre, l = pre ++ skip first host l ∧ ∀ a ∈ pre, host > a ∨ a = first := by
  fun_induction skip first host l with
  | case1 => exact ⟨[], by simp⟩
  | case2 a => exact ⟨[], by simp⟩
  | case3 a b l h ih =>
    obtain ⟨pre, h1, h2⟩ := ih
    refine ⟨a :: pre, ?_, ?_⟩
    · rw [List.cons_append, ← h1]
    · intro x hx
      rcases List.mem_cons.1 hx with rfl | hx
      · exact h
      · exact h2 x hx
  | case4 a b l h => exact ⟨[], by simp⟩

theorem skip_ne_nil (first host : Nat) (l : List Nat) (h : l ≠ []) : skip first host l ≠ [] := by
  fun_induction skip first host l with
  | case1 => exact h
  | case2 a => simp
  | case3 a b l h ih => exact ih (by simp)
  | case4 a b l h => simp

theorem skip_head (first host : Nat) (l : List Nat) (a b : Nat) (t : List Nat)
    (h : skip first host l = a :: b :: t) : host ≤ a ∧ a ≠ first := by
  fun_induction skip first host l with
  | case1 => cases h
  | case2 a => cases h
  | case3 a b l h' ih => exact ih h
  | case4 a' b' l h' =>
    simp only [List.cons.injEq] at h
    obtain ⟨rfl, rfl, rfl⟩ := h
    push_neg at h'
    omega

/-- The saved steps and trained steps of a list of events are additive. -/
theorem savedSteps_append (a b : List Event) : savedSteps (a ++ b) = savedSteps a ++ savedSteps b := by
  simp [savedSteps]
theorem trainedSteps_append (a b : List Event) :
    trainedSteps (a ++ b) = trainedSteps a ++ trainedSteps b := by
  simp [trainedSteps]
theorem trainEvalSteps_append (a b : List Event) :
    trainEvalSteps (a ++ b) = trainEvalSteps a ++ trainEvalSteps b := by
  simp [trainEvalSteps]
theorem inferEvalSteps_append (a b : List Event) :
    inferEvalSteps (a ++ b) = inferEvalSteps a ++ inferEvalSteps b := by
  simp [inferEvalSteps]

/-- Extra saves expected inside `(h, h+n]`. -/
def extraSaves (steps : List Nat) (first total period h n : Nat) : List Nat :=
  (List.range' (h + 1) n).filter (fun s => decide (s ∈ steps ∧ Off first period s ∧ s < total))

theorem extraSaves_append (steps : List Nat) (first total period h n m : Nat) :
    extraSaves steps first total period h n ++ extraSaves steps first total period (h + n) m =
      extraSaves steps first total period h (n + m) := by
  unfold extraSaves
  rw [← List.filter_append]
  congr 1
  rw [show h + n + 1 = h + 1 + n by omega, List.range'_append_1]

/-- Bookkeeping invariant of the index. -/
structure Pend (steps : List Nat) (first host : Nat) (period idx : Nat) : Prop where
  lt : steps ≠ [] → idx < steps.length
  pre : ∀ a ∈ steps.take idx, a ≤ first ∨ a < host ∨ (a = host ∧ Off first period host)

/-- No off-period entry equal to the current step is still pending. -/
def Fresh (steps : List Nat) (first host period idx : Nat) : Prop :=
  ∀ a ∈ steps.drop idx, a = host → ¬ Off first period host

theorem range'_filter_eq_nil {p : Nat → Bool} {a n : Nat} (h : ∀ s, a ≤ s → s < a + n → p s = false) :
    (List.range' a n).filter p = [] := by
  rw [List.filter_eq_nil_iff]
  intro s hs
  rw [List.mem_range'_1] at hs
  rw [h s hs.1 hs.2]
  simp

theorem range'_filter_last {p : Nat → Bool} {a n : Nat}
    (h : ∀ s, a ≤ s → s < a + n → p s = false) (hl : p (a + n) = true) :
    (List.range' a (n + 1)).filter p = [a + n] := by
  rw [List.range'_1_concat, List.filter_append, range'_filter_eq_nil h]
  simp [hl]

/-- Standing assumptions about one epoch `(S, E]`. -/
structure Epoch (c : Cfg) (total stats spe first S E : Nat) : Prop where
  hp : c.checkpointPeriod ≠ 0
  hstats : 0 < stats
  hman : c.manager = true
  hsort : c.checkpointSteps.Pairwise (· < ·)
  hgood : GoodSteps c.checkpointSteps first total c.checkpointPeriod (min stats spe)
  hfS : first ≤ S
  hEt : E ≤ total
  hES : E ≤ S + spe
  hno : ∀ e, onPeriod first c.checkpointPeriod e → S < e → e < E → False

/-- Result of a successful stretch of `n` training steps starting from `st`. -/
structure Stretch (c : Cfg) (total first : Nat) (st st' : St) (n : Nat) : Prop where
  host : st'.host = st.host + n
  trained : st'.trained = st.trained + n
  evs : ∃ evs, st'.events = st.events ++ evs ∧
    savedSteps evs = extraSaves c.checkpointSteps first total c.checkpointPeriod st.host n ∧
    trainedSteps evs = List.range' st.host n ∧ trainEvalSteps evs = [] ∧ inferEvalSteps evs = []

/-- Invariant between blocks. -/
structure Ready (c : Cfg) (total first : Nat) (st : St) : Prop where
  same : st.trained = st.host
  pend : Pend c.checkpointSteps first st.host c.checkpointPeriod st.idx
  fresh : st.host < total → Fresh c.checkpointSteps first st.host c.checkpointPeriod st.idx

theorem block_spec (c : Cfg) (env : Env) (total stats spe first S E : Nat)
    (ep : Epoch c total stats spe first S E) (st : St) (hS : S ≤ st.host) (hE : st.host < E)
    (hr : Ready c total first st) (hpre : env.preempt st.host = false) :
    ∃ st' n, block c env total stats first E st = .ok st' ∧ 0 < n ∧ n ≤ stats ∧ st.host + n ≤ E ∧
      Stretch c total first st st' n ∧ Ready c total first st' ∧
      st'.stop = (if c.concurrentMetrics then st.stop else env.trainStop (st.host + n)) := by
  obtain ⟨hp, hstats, hman, hsort, hgood, hfS, hEt, hES, hno⟩ := ep
  obtain ⟨hsame, ⟨hlt, hpre'⟩, hfresh⟩ := hr
  have hfresh := hfresh (by omega)
  set steps := c.checkpointSteps with hsteps
  set P := c.checkpointPeriod with hP
  set h := st.host with hh
  set inner := min (E - h) stats with hinner
  have hinner0 : 0 < inner := by omega
  have hinnerE : inner + h ≤ E := by omega
  by_cases hnil : steps = []
  · -- no listed steps
    have hf : findNext (findFirst st.idx steps first h) inner h steps E P first = .ok ((inner : Int), false) := by
      unfold findNext; rw [if_pos hnil]
    refine ⟨{ host := h + inner, trained := st.trained + inner, idx := findFirst st.idx steps first h,
              stop := (if c.concurrentMetrics then st.stop else env.trainStop (h + inner)),
              events := st.events ++ [.train h inner] },
      inner, ?_, hinner0, by omega, by omega, ?_, ?_, ?_⟩
    · unfold block
      simp only [← hsteps, ← hP, ← hh, ← hinner, hf]
      rw [hpre]
      simp only [Bool.false_eq_true, if_false, ite_self, false_and]
      rw [if_neg (by omega)]
      simp
    · refine ⟨rfl, rfl, ⟨[.train h inner], rfl, ?_, by simp [trainedSteps, ← hh], rfl, rfl⟩⟩
      unfold extraSaves
      rw [range'_filter_eq_nil]
      · rfl
      · intro s _ _; simp [← hsteps, hnil]
    · refine ⟨by simp [hsame, ← hh], ⟨fun hne => absurd hnil hne, ?_⟩, ?_⟩
      · rw [← hsteps, hnil]; simp
      · intro _; unfold Fresh; rw [← hsteps, hnil]; simp
    · simp
  · -- listed steps
    have hi := hlt hnil
    obtain ⟨hdrop, hidx⟩ := findFirst_drop steps first h st.idx hi
    set idx := findFirst st.idx steps first h with hidxdef
    set p := steps.drop st.idx with hpdef
    set p' := skip first h p with hp'def
    have hpne : p ≠ [] := by rw [hpdef, ne_eq, List.drop_eq_nil_iff]; omega
    have hp'ne : p' ≠ [] := skip_ne_nil first h p hpne
    obtain ⟨dr, hdr, hdrh⟩ := skip_suffix first h p
    rw [← hp'def] at hdr
    -- `steps = take idx ++ p'`
    have htd : steps = steps.take idx ++ p' := by rw [← hdrop, List.take_append_drop]
    have htd0 : steps = steps.take st.idx ++ p := by rw [hpdef, List.take_append_drop]
    have htake : steps.take idx = steps.take st.idx ++ dr := by
      have : steps.take idx ++ p' = (steps.take st.idx ++ dr) ++ p' := by
        rw [← htd, List.append_assoc, ← hdr, ← htd0]
      exact List.append_cancel_right this
    have hsp' : p'.Pairwise (· < ·) := by
      rw [htd] at hsort; exact (List.pairwise_append.1 hsort).2.1
    have hpre2 : ∀ a ∈ steps.take idx, a ≤ first ∨ a < h ∨ (a = h ∧ Off first P h) := by
      intro a ha
      rw [htake, List.mem_append] at ha
      rcases ha with ha | ha
      · exact hpre' a ha
      · rcases hdrh a ha with h1 | h1 <;> omega
    have hmem : ∀ a ∈ steps, h < a → a ∈ p' := by
      intro a ha hlt'
      rw [htd, List.mem_append] at ha
      rcases ha with ha | ha
      · rcases hpre2 a ha with h1 | h1 | ⟨h1, _⟩ <;> omega
      · exact ha
    have hmemp : ∀ a ∈ p', a ∈ p := fun a ha => by rw [hdr]; exact List.mem_append_right _ ha
    have hmems : ∀ a ∈ p', a ∈ steps := fun a ha => by rw [htd]; exact List.mem_append_right _ ha
    have hlast : ∀ s, p' = [s] → Off first P s → s < total → False := by
      intro s hs ho hst
      have : steps.getLast? = some s := by rw [htd, hs]; simp
      exact ho.2 (hgood.last s this ho.1 hst)
    have hfind : findNext idx inner h steps E P first =
        match p'.find? (fun s => decide (Off first P s)) with
        | some s => if s ≤ inner + h then .ok ((s : Int) - h, true) else .ok ((inner : Int), false)
        | none => .ok ((inner : Int), false) := by
      unfold findNext
      rw [if_neg hnil, hdrop]
      exact findNextGo_spec inner h E P first hp hinnerE p' hp'ne hsp'
    -- the case distinction on the outcome
    have hcase : (∃ s, p'.find? (fun s => decide (Off first P s)) = some s ∧ s ≤ inner + h) ∨
        (findNext idx inner h steps E P first = .ok ((inner : Int), false) ∧
          ∀ a ∈ p', Off first P a → ¬ a ≤ inner + h) := by
      rw [hfind]
      cases hfd : p'.find? (fun s => decide (Off first P s)) with
      | none =>
        right
        refine ⟨rfl, ?_⟩
        intro a ha ho
        rw [List.find?_eq_none] at hfd
        exact absurd (by simpa using ho) (hfd a ha)
      | some s =>
        by_cases hs : s ≤ inner + h
        · left; exact ⟨s, rfl, hs⟩
        · right
          refine ⟨by simp [hs], ?_⟩
          intro a ha ho hle
          -- s is the first off-period entry, so s ≤ a
          obtain ⟨_, as, bs, hab, hno'⟩ := List.find?_eq_some_iff_append.1 hfd
          rw [hab] at ha hsp'
          rcases List.mem_append.1 ha with ha | ha
          · have := hno' a ha; simp [ho] at this
          · rcases List.mem_cons.1 ha with rfl | ha
            · omega
            · have := (List.pairwise_cons.1 (List.pairwise_append.1 hsp').2.1).1 a ha
              omega
    rcases hcase with ⟨s, hfd, hsB⟩ | ⟨hfn, hnone⟩
    · -- an extra checkpoint step inside the block
      have hso : Off first P s := by simpa using List.find?_some hfd
      have hsp : s ∈ p' := List.mem_of_find?_eq_some hfd
      have hsne : s ≠ h := by
        intro he
        exact hfresh s (hmemp s hsp) he (he ▸ hso)
      have hst : s ≤ total := by omega
      have hsh : h < s := by
        by_contra hc
        have hslt : s < h := by omega
        match hq : p', hp'ne with
        | [a], _ =>
          rw [List.mem_singleton] at hsp
          subst hsp
          exact hlast s rfl hso (by omega)
        | a :: b :: t, _ =>
          have := (skip_head first h p a b t hq).1
          rcases List.mem_cons.1 hsp with rfl | hsp
          · omega
          · have := (List.pairwise_cons.1 hsp').1 s hsp
            omega
      have hmin : ∀ a ∈ p', Off first P a → s ≤ a := by
        intro a ha ho
        obtain ⟨_, as, bs, hab, hno'⟩ := List.find?_eq_some_iff_append.1 hfd
        rw [hab] at ha hsp'
        rcases List.mem_append.1 ha with ha | ha
        · have := hno' a ha; simp [ho] at this
        · rcases List.mem_cons.1 ha with rfl | ha
          · exact le_refl _
          · exact le_of_lt ((List.pairwise_cons.1 (List.pairwise_append.1 hsp').2.1).1 a ha)
      have hfn : findNext idx inner h steps E P first = .ok ((s : Int) - h, true) := by
        rw [hfind, hfd]; simp [hsB]
      obtain ⟨n, rfl⟩ : ∃ n, s = h + n := ⟨s - h, by omega⟩
      have hn0 : 0 < n := by omega
      have hno_between : ∀ x, h + 1 ≤ x → x < h + n →
          decide (x ∈ steps ∧ Off first P x ∧ x < total) = false := by
        intro x hx1 hx2
        simp only [decide_eq_false_iff_not]
        rintro ⟨h1, h2, h3⟩
        have := hmin x (hmem x h1 (by omega)) h2
        omega
      by_cases htot : h + n = total
      · -- the last step is handled after the loop
        refine ⟨{ host := h + n, trained := st.trained + n, idx := idx,
                  stop := (if c.concurrentMetrics then st.stop else env.trainStop (h + n)),
                  events := st.events ++ [.train h n] },
          n, ?_, hn0, by omega, by omega, ?_, ?_, ?_⟩
        · unfold block
          simp only [← hsteps, ← hP, ← hh, ← hinner, ← hidxdef, hfn]
          rw [hpre]
          simp only [Bool.false_eq_true, if_false]
          rw [if_neg (show ¬ (((h + n : Nat) : Int) - h ≤ 0) by omega),
            if_pos (show (h : Int) + (((h + n : Nat) : Int) - h) = total by omega)]
          have : ((((h + n : Nat) : Int)) - h).toNat = n := by omega
          simp [this]
        · refine ⟨rfl, rfl, ⟨[.train h n], rfl, ?_, by simp [trainedSteps, ← hh], rfl, rfl⟩⟩
          unfold extraSaves
          rw [range'_filter_eq_nil]
          · rfl
          · intro x hx1 hx2
            by_cases hx : x = h + n
            · simp only [decide_eq_false_iff_not]; rintro ⟨_, _, h3⟩; omega
            · exact hno_between x (by omega) (by omega)
        · refine ⟨by simp [hsame], ⟨fun _ => hidx, ?_⟩, fun hc => by simp at hc; omega⟩
          intro a ha
          have hlt' := hpre2 a ha
          simp only
          rcases hlt' with h1 | h1 | ⟨h1, _⟩
          · exact Or.inl h1
          · right; left; omega
          · right; left; omega
        · rfl
      · -- the extra checkpoint is saved
        have hstl : h + n < total := by omega
        -- the head of the pending list is the saved step
        obtain ⟨b, t, hpt⟩ : ∃ b t, p' = (h + n) :: b :: t := by
          match hq : p', hp'ne with
          | [a], _ =>
            rw [List.mem_singleton] at hsp
            exact (hlast (h + n) (by rw [hsp]) hso hstl).elim
          | a :: b :: t, _ =>
            obtain ⟨ha1, ha2⟩ := skip_head first h p a b t hq
            by_cases ha : a = h + n
            · exact ⟨b, t, by rw [ha]⟩
            · exfalso
              have hsr : h + n ∈ b :: t := by
                rcases List.mem_cons.1 hsp with h1 | h1
                · omega
                · exact h1
              have hcons := List.pairwise_cons.1 hsp'
              have has : a < h + n := hcons.1 _ hsr
              have hafirst : first < a := by omega
              have haon : onPeriod first P a := by
                by_contra hc
                have := hmin a (by simp) ⟨hafirst, hc⟩
                omega
              have haS : ¬ S < a := fun hc => hno a haon hc (by omega)
              have hah : a = h := by omega
              by_cases hb : b = h + n
              · have := hgood.gap (steps.take idx) a b t (by rw [← htd]) hafirst (by omega) haon
                  (by rw [hb]; exact hso.2)
                omega
              · have hbs : b < h + n := by
                  rcases List.mem_cons.1 hsr with h1 | h1
                  · omega
                  · exact (List.pairwise_cons.1 hcons.2).1 _ h1
                have hab : a < b := hcons.1 b (by simp)
                have hbon : onPeriod first P b := by
                  by_contra hc
                  have := hmin b (by simp) ⟨by omega, hc⟩
                  omega
                exact hno b hbon (by omega) (by omega)
        have hidxlt : idx < steps.length - 1 := by
          have := congrArg List.length hdrop
          rw [List.length_drop, hpt] at this
          simp at this
          omega
        refine ⟨{ host := h + n, trained := st.trained + n, idx := idx + 1,
                  stop := (if c.concurrentMetrics then st.stop else env.trainStop (h + n)),
                  events := st.events ++ [.train h n] ++ [.save (st.trained + n)] },
          n, ?_, hn0, by omega, by omega, ?_, ?_, ?_⟩
        · unfold block
          simp only [← hsteps, ← hP, ← hh, ← hinner, ← hidxdef, hfn]
          rw [hpre]
          simp only [Bool.false_eq_true, if_false]
          rw [if_neg (show ¬ (((h + n : Nat) : Int) - h ≤ 0) by omega),
            if_neg (show ¬ ((h : Int) + (((h + n : Nat) : Int) - h) = total) by omega)]
          have : ((((h + n : Nat) : Int)) - h).toNat = n := by omega
          rw [this]
          simp [hman, hidxlt]
        · refine ⟨rfl, rfl, ⟨[.train h n, .save (st.trained + n)], by simp, ?_,
            by simp [trainedSteps, ← hh], rfl, rfl⟩⟩
          unfold extraSaves
          obtain ⟨m, rfl⟩ : ∃ m, n = m + 1 := ⟨n - 1, by omega⟩
          rw [range'_filter_last]
          · simp [savedSteps, hsame]; omega
          · intro x hx1 hx2
            exact hno_between x (by omega) (by omega)
          · simp only [decide_eq_true_eq]
            have e : st.host + 1 + m = h + (m + 1) := by omega
            rw [e]
            exact ⟨hmems _ hsp, hso, hstl⟩
        · refine ⟨by simp [hsame], ⟨fun _ => by show idx + 1 < steps.length; omega, ?_⟩, ?_⟩
          · intro a ha
            simp only at ha ⊢
            have : steps.take (idx + 1) = steps.take idx ++ [h + n] := by
              rw [List.take_succ]
              congr 1
              have : steps[idx]? = some (h + n) := by
                have := congrArg (fun l => l[0]?) hdrop
                simp only [List.getElem?_drop] at this
                rw [hpt] at this
                simpa using this
              rw [this]; rfl
            rw [← hsteps, this, List.mem_append, List.mem_singleton] at ha
            rcases ha with ha | ha
            · rcases hpre2 a ha with h1 | h1 | ⟨h1, _⟩
              · exact Or.inl h1
              · right; left; omega
              · right; left; omega
            · right; right; exact ⟨ha, hso⟩
          · intro _ a ha hah
            simp only at ha hah
            exfalso
            have : steps.drop (idx + 1) = b :: t := by
              rw [← List.drop_drop, hdrop, hpt]; rfl
            rw [← hsteps, this] at ha
            have := (List.pairwise_cons.1 (hpt ▸ hsp')).1 a ha
            omega
        · rfl
    · -- no extra checkpoint step inside the block
      refine ⟨{ host := h + inner, trained := st.trained + inner, idx := idx,
                stop := (if c.concurrentMetrics then st.stop else env.trainStop (h + inner)),
                events := st.events ++ [.train h inner] },
        inner, ?_, hinner0, by omega, by omega, ?_, ?_, ?_⟩
      · unfold block
        simp only [← hsteps, ← hP, ← hh, ← hinner, ← hidxdef, hfn]
        rw [hpre]
        simp only [Bool.false_eq_true, if_false, ite_self, false_and]
        rw [if_neg (by omega)]
        simp
      · refine ⟨rfl, rfl, ⟨[.train h inner], rfl, ?_, by simp [trainedSteps, ← hh], rfl, rfl⟩⟩
        unfold extraSaves
        rw [range'_filter_eq_nil]
        · rfl
        · intro x hx1 hx2
          simp only [decide_eq_false_iff_not]
          rintro ⟨h1, h2, h3⟩
          exact hnone x (hmem x h1 (by omega)) h2 (by omega)
      · refine ⟨by simp [hsame], ⟨fun _ => hidx, ?_⟩, ?_⟩
        · intro a ha
          simp only
          rcases hpre2 a ha with h1 | h1 | ⟨h1, _⟩
          · exact Or.inl h1
          · right; left; omega
          · right; left; omega
        · intro _ a ha hah
          simp only at ha hah
          rw [← hsteps, hdrop] at ha
          intro ho
          exact hnone a ha (hah ▸ ho) (by omega)
      · rfl

theorem Stretch.refl (c : Cfg) (total first : Nat) (st : St) : Stretch c total first st st 0 :=
  ⟨by simp, by simp, ⟨[], by simp, by simp [savedSteps, extraSaves], by simp [trainedSteps], rfl, rfl⟩⟩

theorem Stretch.trans {c : Cfg} {total first : Nat} {a b d : St} {n m : Nat}
    (h1 : Stretch c total first a b n) (h2 : Stretch c total first b d m) :
    Stretch c total first a d (n + m) := by
  obtain ⟨h1a, h1b, e1, x1, x2, x3, x4, x5⟩ := h1
  obtain ⟨h2a, h2b, e2, y1, y2, y3, y4, y5⟩ := h2
  refine ⟨by omega, by omega, ⟨e1 ++ e2, ?_, ?_, ?_, ?_, ?_⟩⟩
  · rw [y1, x1, List.append_assoc]
  · rw [savedSteps_append, x2, y2, h1a, extraSaves_append]
  · rw [trainedSteps_append, x3, y3, h1a, List.range'_append_1]
  · rw [trainEvalSteps_append, x4, y4]; rfl
  · rw [inferEvalSteps_append, x5, y5]; rfl

theorem innerLoop_quiet (c : Cfg) (env : Env) (hq : Quiet env) (total stats spe first S E : Nat)
    (ep : Epoch c total stats spe first S E) (fuel : Nat) :
    ∀ st : St, S ≤ st.host → st.host ≤ E → E - st.host ≤ fuel → Ready c total first st →
      st.stop = false →
      ∃ st', innerLoop c env total stats first E fuel st = .ok st' ∧
        Stretch c total first st st' (E - st.host) ∧ Ready c total first st' ∧ st'.stop = false := by
  induction fuel with
  | zero =>
    intro st _ _ hf hr hs
    have : E - st.host = 0 := by omega
    exact ⟨st, rfl, by rw [this]; exact Stretch.refl .., hr, hs⟩
  | succ fuel ih =>
    intro st hS hE hf hr hs
    by_cases hlt : st.host < E
    · obtain ⟨st1, n, hb, hn0, _, hnE, hst, hr1, hs1⟩ :=
        block_spec c env total stats spe first S E ep st hS hlt hr (hq.p _)
      rw [hq.t, hs] at hs1
      simp only [ite_self] at hs1
      obtain ⟨st2, hi, hst2, hr2, hs2⟩ := ih st1 (by rw [hst.host]; omega) (by rw [hst.host]; omega)
        (by rw [hst.host]; omega) hr1 hs1
      refine ⟨st2, ?_, ?_, hr2, hs2⟩
      · unfold innerLoop
        rw [if_pos hlt, hs]
        simp only [Bool.false_eq_true, if_false]
        rw [hb]
        exact hi
      · have := hst.trans hst2
        rw [hst.host] at this
        rwa [show E - st.host = n + (E - (st.host + n)) by omega]
    · have : E - st.host = 0 := by omega
      refine ⟨st, ?_, by rw [this]; exact Stretch.refl .., hr, hs⟩
      unfold innerLoop
      rw [if_neg hlt]

/-- Evaluation steps expected inside `(h, h+n]`. -/
def evalSteps (on : Bool) (first total period h n : Nat) : List Nat :=
  (List.range' (h + 1) n).filter
    (fun s => decide (on = true ∧ period ≠ 0 ∧ (onPeriod first period s ∨ s = total)))

/-- Checkpoints expected inside `(h, h+n]`. -/
def allSaves (steps : List Nat) (first total period h n : Nat) : List Nat :=
  (List.range' (h + 1) n).filter (fun s => decide (ShouldSave first total period steps s))

theorem filter_range'_append (p : Nat → Bool) (h n m : Nat) :
    (List.range' (h + 1) n).filter p ++ (List.range' (h + n + 1) m).filter p =
      (List.range' (h + 1) (n + m)).filter p := by
  rw [← List.filter_append]
  congr 1
  rw [show h + n + 1 = h + 1 + n by omega, List.range'_append_1]

/-- Result of a number of complete epochs. -/
structure Run (c : Cfg) (ev total first : Nat) (st st' : St) (n : Nat) : Prop where
  host : st'.host = st.host + n
  stop : st'.stop = false
  evs : ∃ evs, st'.events = st.events ++ evs ∧
    savedSteps evs = allSaves c.checkpointSteps first total c.checkpointPeriod st.host n ∧
    trainedSteps evs = List.range' st.host n ∧
    trainEvalSteps evs = evalSteps c.hasTrainEval first total ev st.host n ∧
    inferEvalSteps evs = evalSteps c.hasInferEval first total ev st.host n

theorem Run.trans {c : Cfg} {ev total first : Nat} {a b d : St} {n m : Nat}
    (h1 : Run c ev total first a b n) (h2 : Run c ev total first b d m) :
    Run c ev total first a d (n + m) := by
  obtain ⟨h1a, _, e1, x1, x2, x3, x4, x5⟩ := h1
  obtain ⟨h2a, h2b, e2, y1, y2, y3, y4, y5⟩ := h2
  refine ⟨by omega, h2b, ⟨e1 ++ e2, ?_, ?_, ?_, ?_, ?_⟩⟩
  · rw [y1, x1, List.append_assoc]
  · rw [savedSteps_append, x2, y2, h1a]; exact filter_range'_append ..
  · rw [trainedSteps_append, x3, y3, h1a, List.range'_append_1]
  · rw [trainEvalSteps_append, x4, y4, h1a]; exact filter_range'_append ..
  · rw [inferEvalSteps_append, x5, y5, h1a]; exact filter_range'_append ..

theorem epoch_saves (steps : List Nat) (first total P S n : Nat) (hf : first ≤ S) (hn : 0 < n)
    (hE : S + n ≤ total) (hno : ∀ e, onPeriod first P e → S < e → e < S + n → False) :
    extraSaves steps first total P S n ++
      (if S + n = total ∨ onPeriod first P (S + n) then [S + n] else []) =
    allSaves steps first total P S n := by
  unfold extraSaves allSaves
  obtain ⟨m, rfl⟩ : ∃ m, n = m + 1 := ⟨n - 1, by omega⟩
  have e : S + (m + 1) = S + 1 + m := by omega
  rw [List.range'_1_concat, List.filter_append, List.filter_append]
  have h1 : (List.range' (S + 1) m).filter
      (fun s => decide (s ∈ steps ∧ Off first P s ∧ s < total)) =
      (List.range' (S + 1) m).filter (fun s => decide (ShouldSave first total P steps s)) := by
    apply List.filter_congr
    intro x hx
    rw [List.mem_range'_1] at hx
    have hnx := fun h => hno x h (by omega) (by omega)
    simp only [decide_eq_decide]
    unfold ShouldSave Off
    constructor
    · rintro ⟨a, b, d⟩
      exact Or.inr ⟨by omega, by omega, Or.inr (Or.inl a)⟩
    · rintro (h | ⟨_, _, h | h | h⟩)
      · omega
      · exact (hnx h).elim
      · exact ⟨h, ⟨by omega, hnx⟩, by omega⟩
      · omega
  rw [h1, List.append_assoc]
  congr 1
  rw [e]
  by_cases ht : S + 1 + m = total
  · have a1 : ShouldSave first total P steps (S + 1 + m) :=
      Or.inr ⟨by omega, by omega, Or.inr (Or.inr ht)⟩
    have a2 : ¬ (S + 1 + m < total) := by omega
    rw [if_pos (Or.inl ht)]
    simp [a1, a2]
  · by_cases ho : onPeriod first P (S + 1 + m)
    · have a1 : ShouldSave first total P steps (S + 1 + m) :=
        Or.inr ⟨by omega, by omega, Or.inl ho⟩
      simp [a1, ho, Off]
    · by_cases hm : S + 1 + m ∈ steps
      · have a1 : ShouldSave first total P steps (S + 1 + m) :=
          Or.inr ⟨by omega, by omega, Or.inr (Or.inl hm)⟩
        have a2 : Off first P (S + 1 + m) := ⟨by omega, ho⟩
        simp [a1, ho, a2, hm, ht]; omega
      · have a1 : ¬ ShouldSave first total P steps (S + 1 + m) := by
          rintro (h | ⟨_, _, h | h | h⟩)
          · omega
          · exact ho h
          · exact hm h
          · exact ht h
        simp [a1, ho, hm, ht]

theorem epoch_evals (on : Bool) (first total P S n : Nat) (hn : 0 < n)
    (hE : S + n ≤ total) (hno : ∀ e, P ≠ 0 → onPeriod first P e → S < e → e < S + n → False) :
    (if (P ≠ 0 ∧ (S + n = total ∨ onPeriod first P (S + n))) ∧ on = true then [S + n] else []) =
    evalSteps on first total P S n := by
  unfold evalSteps
  obtain ⟨m, rfl⟩ : ∃ m, n = m + 1 := ⟨n - 1, by omega⟩
  have e : S + (m + 1) = S + 1 + m := by omega
  rw [List.range'_1_concat, List.filter_append, range'_filter_eq_nil, e]
  · by_cases h1 : P = 0
    · simp [h1]
    · by_cases h2 : S + 1 + m = total
      · by_cases h4 : on = true <;> simp [h1, h2, h4]
      · by_cases h3 : onPeriod first P (S + 1 + m)
        · by_cases h4 : on = true <;> simp [h1, h2, h3, h4]
        · simp [h1, h2, h3]
  · intro s h1 h2
    simp only [decide_eq_false_iff_not]
    rintro ⟨_, hP, h | h⟩
    · exact hno s hP h (by omega) (by omega)
    · omega

/-- Periods that only hit epoch boundaries. -/
def Aligned (spe total P : Nat) : Prop := spe ∣ P ∨ total ≤ P

theorem aligned_no (spe total P first k : Nat) (ha : Aligned spe total P) (hP : P ≠ 0)
    (e : Nat) (ho : onPeriod first P e) (h1 : first + spe * k < e)
    (h2 : e < min total (first + spe * (k + 1))) : False := by
  unfold onPeriod at ho
  rcases ha with hd | hd
  · have : spe ∣ e - first := dvd_trans hd (Nat.dvd_of_mod_eq_zero ho)
    obtain ⟨q, hq⟩ := this
    have h3 : spe * k < spe * q := by omega
    have h4 : spe * q < spe * (k + 1) := by omega
    have := Nat.lt_of_mul_lt_mul_left h3
    have := Nat.lt_of_mul_lt_mul_left h4
    omega
  · obtain ⟨q, hq⟩ := Nat.dvd_of_mod_eq_zero ho
    rcases q with _ | q
    · omega
    · have : P * (q + 1) = P * q + P := Nat.mul_succ ..
      omega

theorem afterEpoch_quiet (c : Cfg) (env : Env) (hq : Quiet env) (ev total first : Nat) (fin : Bool)
    (hP : c.checkpointPeriod ≠ 0) (hman : c.manager = true) (st : St)
    (hsame : st.trained = st.host) (hfin : fin = true ↔ st.host = total) (hs : st.stop = false) :
    ∃ evs, (afterEpoch c env ev first fin st) = { st with events := st.events ++ evs } ∧
      savedSteps evs = (if st.host = total ∨ onPeriod first c.checkpointPeriod st.host
        then [st.host] else []) ∧ trainedSteps evs = [] ∧
      trainEvalSteps evs = (if (ev ≠ 0 ∧ (st.host = total ∨ onPeriod first ev st.host)) ∧
        c.hasTrainEval = true then [st.host] else []) ∧
      inferEvalSteps evs = (if (ev ≠ 0 ∧ (st.host = total ∨ onPeriod first ev st.host)) ∧
        c.hasInferEval = true then [st.host] else []) := by
  refine ⟨(if st.host = total ∨ onPeriod first c.checkpointPeriod st.host then [.save st.host] else []) ++
    (if (ev ≠ 0 ∧ (st.host = total ∨ onPeriod first ev st.host)) ∧
        c.hasTrainEval = true then [.trainEval st.host] else []) ++
    (if (ev ≠ 0 ∧ (st.host = total ∨ onPeriod first ev st.host)) ∧
        c.hasInferEval = true then [.inferEval st.host] else []), ?_, ?_, ?_, ?_, ?_⟩
  · obtain ⟨host, trained, idx, stop, events⟩ := st
    simp only at hsame hfin hs ⊢
    subst hsame hs
    have hfin' : (fin = true ∨ (trained - first) % c.checkpointPeriod = 0) ↔
        (trained = total ∨ onPeriod first c.checkpointPeriod trained) := by rw [hfin]; rfl
    have hfin'' : (fin = true ∨ (trained - first) % ev = 0) ↔
        (trained = total ∨ onPeriod first ev trained) := by rw [hfin]; rfl
    unfold afterEpoch
    simp only [hP, hman, ne_eq, not_false_eq_true, true_and, and_true, hfin']
    have key : ∀ st : St, st.host = trained →
        ((ev ≠ 0 ∧ (fin = true ∨ (trained - first) % ev = 0)) =
          (ev ≠ 0 ∧ (trained = total ∨ onPeriod first ev trained))) := by
      intro st _; rw [hfin'']
    simp only [runTrainingEval, runInferenceEval, hq.te, hq.ie, ite_self]
    split_ifs <;> simp_all
  all_goals
    split_ifs <;> simp [savedSteps, trainedSteps, trainEvalSteps, inferEvalSteps]

theorem epochLoop_quiet (c : Cfg) (env : Env) (hq : Quiet env) (total stats spe ev first : Nat)
    (hP : c.checkpointPeriod ≠ 0) (hstats : 0 < stats) (hspe : 0 < spe) (hman : c.manager = true)
    (hsort : c.checkpointSteps.Pairwise (· < ·))
    (hgood : GoodSteps c.checkpointSteps first total c.checkpointPeriod (min stats spe))
    (hac : Aligned spe total c.checkpointPeriod) (hae : Aligned spe total ev)
    (left : Nat) : ∀ (k : Nat) (st : St),
      st.host = min total (first + spe * k) → first ≤ total →
      (left = 0 → st.host = total) →
      (0 < left → first + spe * (k + left - 1) < total) → total ≤ first + spe * (k + left) →
      Ready c total first st → st.stop = false →
      ∃ st', epochLoop c env total stats spe ev first left k st = .ok st' ∧
        Run c ev total first st st' (total - st.host) := by
  induction left with
  | zero =>
    intro k st hh hft h0 _ _ _ hs
    refine ⟨st, rfl, ?_⟩
    rw [h0 rfl, Nat.sub_self]
    refine ⟨by rw [h0 rfl]; rfl, hs, [], by simp, ?_, ?_, ?_, ?_⟩ <;>
      simp [savedSteps, allSaves, trainedSteps, trainEvalSteps, inferEvalSteps, evalSteps]
  | succ left ih =>
    intro k st hh hft _ hlt hge hr hs
    have hlt := hlt (by omega)
    have hexp : spe * (k + 1) = spe * k + spe := Nat.mul_succ ..
    have hexp1 : spe * k ≤ spe * (k + (left + 1) - 1) := Nat.mul_le_mul_left _ (by omega)
    have hh' : st.host = first + spe * k := by omega
    set E := min total (first + spe * (k + 1)) with hE
    have ep : Epoch c total stats spe first (first + spe * k) E :=
      ⟨hP, hstats, hman, hsort, hgood, by omega, by omega, by omega,
        fun e h1 h2 h3 => aligned_no spe total _ first k hac hP e h1 h2 h3⟩
    obtain ⟨st1, hi, hst, hr1, hs1⟩ := innerLoop_quiet c env hq total stats spe first _ E ep
      (E - st.host) st (by omega) (by omega) (le_refl _) hr hs
    have hh1 : st1.host = E := by rw [hst.host]; omega
    have hfin : (decide (left = 0)) = true ↔ st1.host = total := by
      rw [hh1, decide_eq_true_eq]
      constructor
      · intro h; rw [h, Nat.zero_add] at hge; omega
      · intro h
        by_contra hc
        have : spe * (k + 1) ≤ spe * (k + (left + 1) - 1) := Nat.mul_le_mul_left _ (by omega)
        omega
    obtain ⟨evs, ha, a1, a2, a3, a4⟩ := afterEpoch_quiet c env hq ev total first (decide (left = 0))
      hP hman st1 hr1.same hfin hs1
    obtain ⟨st2, hl, hrun⟩ := ih (k + 1) (afterEpoch c env ev first (decide (left = 0)) st1)
      (by rw [ha]; exact hh1.trans hE) hft
      (by intro h; rw [ha]; exact hfin.1 (by simp [h]))
      (by intro _; rwa [show k + 1 + left - 1 = k + (left + 1) - 1 by omega])
      (by rwa [show k + 1 + left = k + (left + 1) by omega])
      (by rw [ha]; exact ⟨hr1.same, hr1.pend, hr1.fresh⟩) (by rw [ha]; exact hs1)
    refine ⟨st2, ?_, ?_⟩
    · unfold epochLoop
      rw [hs]
      simp only [Bool.false_eq_true, if_false]
      rw [← hE, hi]
      exact hl
    · have hrun1 : Run c ev total first st (afterEpoch c env ev first (decide (left = 0)) st1)
          (E - st.host) := by
        obtain ⟨b0, _, e1, b1, b2, b3, b4, b5⟩ := hst
        rw [ha]
        have hSE : st.host + (E - st.host) = E := by omega
        refine ⟨by simpa using b0, hs1, e1 ++ evs, by simp [b1], ?_, ?_, ?_, ?_⟩
        · rw [savedSteps_append, b2, a1, b0]
          refine epoch_saves _ _ _ _ _ _ (by omega) (by omega) (by omega) ?_
          intro e h1 h2 h3
          exact aligned_no spe total _ first k hac hP e h1 (by omega) (by omega)
        · rw [trainedSteps_append, b3, a2, List.append_nil]
        · rw [trainEvalSteps_append, b4, a3, b0, List.nil_append]
          refine epoch_evals _ _ _ _ _ _ (by omega) (by omega) ?_
          intro e h0 h1 h2 h3
          exact aligned_no spe total _ first k hae h0 e h1 (by omega) (by omega)
        · rw [inferEvalSteps_append, b5, a4, b0, List.nil_append]
          refine epoch_evals _ _ _ _ _ _ (by omega) (by omega) ?_
          intro e h0 h1 h2 h3
          exact aligned_no spe total _ first k hae h0 e h1 (by omega) (by omega)
      have := hrun1.trans hrun
      have hhost : (afterEpoch c env ev first (decide (left = 0)) st1).host = E := by rw [ha]; exact hh1
      rw [hhost] at this
      rwa [show total - st.host = E - st.host + (total - E) by omega]

/-! ### Facts that hold for every configuration and every environment -/

theorem findNextGo_bounds (inner host E P first : Nat) (l : List Nat) (i : Int) (b : Bool)
    (h : findNextGo inner host E P first l = .ok (i, b)) :
    i = inner ∨ ∃ s ∈ l, Off first P s ∧ s ≤ E ∧ s ≤ inner + host ∧ i = (s : Int) - host ∧ b = true := by
  induction l with
  | nil => simp [findNextGo] at h
  | cons a l ih =>
    unfold findNextGo at h
    split_ifs at h with h1 h2 h3 h4
    · simp only [Except.ok.injEq, Prod.mk.injEq] at h
      refine Or.inr ⟨a, by simp, ?_, h3.2.2, h1, h.1.symm, h.2.symm⟩
      refine ⟨h3.2.1, ?_⟩
      unfold onPeriod
      intro hc
      apply h3.1
      have : ((a : Int) - first) = ((a - first : Nat) : Int) := by omega
      rw [this]
      exact_mod_cast hc
    · simp only [Except.ok.injEq, Prod.mk.injEq] at h
      exact Or.inl h.1.symm
    · rcases ih h with h5 | ⟨s, h5, h6⟩
      · exact Or.inl h5
      · exact Or.inr ⟨s, by simp [h5], h6⟩
    · simp only [Except.ok.injEq, Prod.mk.injEq] at h
      exact Or.inl h.1.symm

theorem block_ok (c : Cfg) (env : Env) (total stats first E : Nat) (st st' : St)
    (hE : st.host < E) (h : block c env total stats first E st = .ok st') :
    ∃ n sv, 0 < n ∧ st'.host = st.host + n ∧ st.host + n ≤ E ∧ st'.trained = st.trained + n ∧
      st'.stop = (if c.concurrentMetrics then st.stop else env.trainStop (st.host + n)) ∧
      st'.events = st.events ++ .train st.host n :: sv ∧ (sv = [] ∨ sv = [.save (st.trained + n)]) := by
  unfold block at h
  simp only at h
  split at h
  · cases h
  · rename_i i b hf
    have hi : i ≤ (E : Int) - st.host := by
      unfold findNext at hf
      split_ifs at hf
      · simp only [Except.ok.injEq, Prod.mk.injEq] at hf
        omega
      · rcases findNextGo_bounds _ _ _ _ _ _ _ _ hf with h1 | ⟨s, _, _, h2, _, h3, _⟩ <;> omega
    generalize hb : (if (st.host : Int) + i = total then false else b) = b' at h
    by_cases h1 : env.preempt st.host = true
    · rw [if_pos h1] at h; cases h
    rw [if_neg h1] at h
    by_cases h2 : i ≤ 0
    · rw [if_pos h2] at h; cases h
    rw [if_neg h2] at h
    simp only [Except.ok.injEq] at h
    subst h
    refine ⟨i.toNat, if b' = true ∧ c.manager = true then [.save (st.trained + i.toNat)] else [],
      by omega, rfl, by omega, rfl, rfl, ?_, ?_⟩
    · by_cases h3 : b' = true ∧ c.manager = true
      · simp [h3]
      · simp [h3]
    · split_ifs <;> simp

theorem block_error (c : Cfg) (env : Env) (total stats first E : Nat) (st st' : St) (e : Err)
    (h : block c env total stats first E st = .error (e, st')) :
    st'.stop = st.stop ∧ (st'.events = st.events ∨ st'.events = st.events ++ [.save st.trained]) := by
  unfold block at h
  simp only at h
  split at h
  · cases h; exact ⟨rfl, Or.inl rfl⟩
  · split_ifs at h <;> cases h
    all_goals
      refine ⟨rfl, ?_⟩
      simp

/-- Invariant for the stop flag. -/
structure StopInv (c : Cfg) (env : Env) (st : St) : Prop where
  flag : st.stop = lastAnswer c env st.events
  once : StopsAtOnce c env st.events

theorem lastAnswer_append (c : Cfg) (env : Env) (a : List Event) (e : Event) :
    lastAnswer c env (a ++ [e]) = match e with
    | .train s n => if c.concurrentMetrics then lastAnswer c env a else env.trainStop (s + n)
    | .trainEval s => env.trainEvalStop s
    | .inferEval s => if c.concurrentMetrics then lastAnswer c env a else env.inferEvalStop s
    | .save _ => lastAnswer c env a := by
  unfold lastAnswer
  rw [List.foldl_append]
  cases e <;> rfl

theorem once_snoc (c : Cfg) (env : Env) (evs : List Event) (e : Event)
    (h : StopsAtOnce c env evs)
    (he : ∀ s n, e = .train s n → lastAnswer c env evs = false) : StopsAtOnce c env (evs ++ [e]) := by
  intro pre s n post heq
  rcases List.eq_nil_or_concat post with rfl | ⟨post', x, rfl⟩
  · obtain ⟨h1, h2⟩ := List.append_inj' heq rfl
    simp only [List.cons.injEq, and_true] at h2
    rw [← h1]
    exact he s n h2
  · rw [List.concat_eq_append, ← List.cons_append, ← List.append_assoc] at heq
    obtain ⟨h1, _⟩ := List.append_inj' heq rfl
    exact h pre s n post' h1

theorem StopInv.save {c : Cfg} {env : Env} {st : St} (h : StopInv c env st) (s : Nat) :
    StopInv c env { st with events := st.events ++ [.save s] } :=
  ⟨by simp only [lastAnswer_append]; exact h.flag, once_snoc _ _ _ _ h.once (by simp)⟩

theorem StopInv.of_eq {c : Cfg} {env : Env} {st st' : St} (h : StopInv c env st)
    (h1 : st'.stop = st.stop) (h2 : st'.events = st.events) : StopInv c env st' :=
  ⟨by rw [h1, h2]; exact h.flag, by rw [h2]; exact h.once⟩

theorem StopInv.block {c : Cfg} {env : Env} {total stats first E : Nat} {st st' : St}
    (h : StopInv c env st) (hs : st.stop = false) (hE : st.host < E)
    (hb : block c env total stats first E st = .ok st') : StopInv c env st' := by
  obtain ⟨n, sv, _, _, _, _, h1, h2, h3⟩ := block_ok c env total stats first E st st' hE hb
  have hl : lastAnswer c env st.events = false := by rw [← h.flag, hs]
  have key : StopInv c env { st with stop := st'.stop, events := st.events ++ [.train st.host n] } :=
    ⟨by simp only [lastAnswer_append, h1, ← h.flag], once_snoc _ _ _ _ h.once (fun _ _ _ => hl)⟩
  rcases h3 with rfl | rfl
  · exact key.of_eq rfl h2
  · exact (key.save (st.trained + n)).of_eq rfl (by rw [h2]; simp)

theorem StopInv.blockError {c : Cfg} {env : Env} {total stats first E : Nat} {st st' : St} {e : Err}
    (h : StopInv c env st)
    (hb : Verif.TrainLoop.block c env total stats first E st = .error (e, st')) : StopInv c env st' := by
  obtain ⟨h1, h2 | h2⟩ := block_error c env total stats first E st st' e hb
  · exact h.of_eq h1 h2
  · exact (h.save st.trained).of_eq h1 h2

/-- The state in which a run of the loop ended, whether or not it raised. -/
def finalSt : Except (Err × St) St → St
  | .ok st => st
  | .error (_, st) => st

/-- Somebody asked to stop at some point of the history. -/
def Asked (c : Cfg) (env : Env) (st : St) : Prop :=
  ∃ pre, pre <+: st.events ∧ lastAnswer c env pre = true

/-- The current state has been saved (if checkpoints are enabled at all). -/
def SavedAt (c : Cfg) (first : Nat) (st : St) : Prop :=
  c.checkpointPeriod ≠ 0 → c.manager = true →
    (.save st.host ∈ st.events ∨ (c.alreadySaved = true ∧ st.host = first))

theorem Asked.mono {c : Cfg} {env : Env} {a b : St} (h : Asked c env a) (hp : a.events <+: b.events) :
    Asked c env b := by
  obtain ⟨pre, h1, h2⟩ := h
  exact ⟨pre, h1.trans hp, h2⟩

theorem StopInv.asked {c : Cfg} {env : Env} {st : St} (h : StopInv c env st) (hs : st.stop = true) :
    Asked c env st := ⟨st.events, List.prefix_rfl, by rw [← h.flag, hs]⟩

theorem innerLoop_inv (c : Cfg) (env : Env) (total stats first E fuel : Nat) :
    ∀ st : St, StopInv c env st → st.trained = st.host →
      StopInv c env (finalSt (innerLoop c env total stats first E fuel st)) ∧
      ∀ st', innerLoop c env total stats first E fuel st = .ok st' → st.host ≤ E →
        E - st.host ≤ fuel → st'.trained = st'.host ∧ st'.host ≤ E ∧
          (st'.host = E ∨ st'.stop = true ∧ SavedAt c first st') := by
  induction fuel with
  | zero =>
    intro st h hsame
    refine ⟨h, ?_⟩
    intro st' h1 h2 h3
    simp only [innerLoop, Except.ok.injEq] at h1
    subst h1
    exact ⟨hsame, h2, Or.inl (by omega)⟩
  | succ fuel ih =>
    intro st h hsame
    unfold innerLoop
    split_ifs with h1 h2 h3
    · refine ⟨h.save _, ?_⟩
      intro st' h4 h5 _
      simp only [Except.ok.injEq] at h4
      subst h4
      exact ⟨hsame, h5, Or.inr ⟨h2, fun _ _ => Or.inl (by simp [hsame])⟩⟩
    · refine ⟨h, ?_⟩
      intro st' h4 h5 _
      simp only [Except.ok.injEq] at h4
      subst h4
      exact ⟨hsame, h5, Or.inr ⟨h2, fun g1 g2 => absurd ⟨g1, g2⟩ h3⟩⟩
    · cases hb : block c env total stats first E st with
      | error e =>
        obtain ⟨e, s⟩ := e
        exact ⟨h.blockError hb, fun st' h4 => by simp at h4⟩
      | ok st1 =>
        obtain ⟨n, _, hn, hh, hle, ht, _⟩ := block_ok c env total stats first E st st1 h1 hb
        obtain ⟨i1, i2⟩ := ih st1 (h.block (by simpa using h2) h1 hb) (by omega)
        refine ⟨i1, ?_⟩
        intro st' h4 h5 h6
        exact i2 st' h4 (by omega) (by omega)
    · refine ⟨h, ?_⟩
      intro st' h4 h5 h6
      simp only [Except.ok.injEq] at h4
      subst h4
      exact ⟨hsame, h5, Or.inl (by omega)⟩

theorem StopInv.trainEval {c : Cfg} {env : Env} {st : St} (h : StopInv c env st) :
    StopInv c env (runTrainingEval env st) :=
  ⟨by simp only [runTrainingEval, lastAnswer_append], once_snoc _ _ _ _ h.once (by simp)⟩

theorem StopInv.inferEval {c : Cfg} {env : Env} {st : St} (h : StopInv c env st) :
    StopInv c env (runInferenceEval c env st) :=
  ⟨by simp only [runInferenceEval, lastAnswer_append, ← h.flag], once_snoc _ _ _ _ h.once (by simp)⟩

theorem afterEpoch_host (c : Cfg) (env : Env) (ev first : Nat) (fin : Bool) (st : St) :
    (afterEpoch c env ev first fin st).host = st.host := by
  unfold afterEpoch runTrainingEval runInferenceEval
  simp only
  split_ifs <;> rfl

theorem StopInv.afterEpoch {c : Cfg} {env : Env} {st : St} (h : StopInv c env st) (ev first : Nat)
    (fin : Bool) : StopInv c env (Verif.TrainLoop.afterEpoch c env ev first fin st) := by
  unfold Verif.TrainLoop.afterEpoch
  simp only
  split_ifs
  any_goals exact ((h.save _).trainEval).inferEval
  any_goals exact (h.save _).trainEval
  any_goals exact (h.save _).inferEval
  any_goals exact h.save _
  any_goals exact h.trainEval.inferEval
  any_goals exact h.trainEval
  any_goals exact h.inferEval
  any_goals exact h

theorem afterEpoch_trained (c : Cfg) (env : Env) (ev first : Nat) (fin : Bool) (st : St) :
    (afterEpoch c env ev first fin st).trained = st.trained := by
  unfold afterEpoch runTrainingEval runInferenceEval
  simp only
  split_ifs <;> rfl

theorem afterEpoch_prefix (c : Cfg) (env : Env) (ev first : Nat) (fin : Bool) (st : St) :
    st.events <+: (afterEpoch c env ev first fin st).events := by
  unfold afterEpoch runTrainingEval runInferenceEval
  simp only
  split_ifs <;> simp

theorem afterEpoch_saves (c : Cfg) (env : Env) (ev first : Nat) (fin : Bool) (st : St)
    (h1 : onPeriod first c.checkpointPeriod st.host) (hsame : st.trained = st.host) :
    SavedAt c first (afterEpoch c env ev first fin st) := by
  intro h2 h3
  rw [afterEpoch_host]
  left
  unfold onPeriod at h1
  unfold afterEpoch runTrainingEval runInferenceEval
  simp only [h2, h1, h3, hsame, ne_eq, not_false_eq_true, or_true, and_self, if_true]
  split_ifs <;> simp

/-- Where a run may legitimately end. -/
def Ended (c : Cfg) (env : Env) (total spe first : Nat) (st : St) : Prop :=
  st.host = total ∨ Asked c env st ∧
    (SavedAt c first st ∨ ((∃ k, st.host = first + spe * k) ∧ ¬ onPeriod first c.checkpointPeriod st.host))

theorem epochLoop_inv (c : Cfg) (env : Env) (total stats spe ev first : Nat) (left : Nat) :
    ∀ (k : Nat) (st : St), StopInv c env st → st.trained = st.host →
      st.host ≤ min total (first + spe * k) →
      StopInv c env (finalSt (epochLoop c env total stats spe ev first left k st)) ∧
      ∀ st', epochLoop c env total stats spe ev first left k st = .ok st' →
        (st.host = min total (first + spe * k) ∧
            (onPeriod first c.checkpointPeriod st.host → SavedAt c first st) ∨
          Asked c env st ∧ SavedAt c first st) →
        total ≤ first + spe * (k + left) → Ended c env total spe first st' := by
  induction left with
  | zero =>
    intro k st h _ hle
    refine ⟨h, ?_⟩
    intro st' h1 h2 h3
    simp only [epochLoop, Except.ok.injEq] at h1
    subst h1
    rcases h2 with ⟨h2, _⟩ | h2
    · left; rw [Nat.add_zero] at h3; omega
    · exact Or.inr ⟨h2.1, Or.inl h2.2⟩
  | succ left ih =>
    intro k st h hsame hle
    unfold epochLoop
    split_ifs with h1
    · refine ⟨h, ?_⟩
      intro st' h2 h3 _
      simp only [Except.ok.injEq] at h2
      subst h2
      rcases h3 with ⟨h3, h4⟩ | h3
      · by_cases ht : st.host = total
        · exact Or.inl ht
        · refine Or.inr ⟨h.asked h1, ?_⟩
          by_cases ho : onPeriod first c.checkpointPeriod st.host
          · exact Or.inl (h4 ho)
          · exact Or.inr ⟨⟨k, by omega⟩, ho⟩
      · exact Or.inr ⟨h3.1, Or.inl h3.2⟩
    · simp only
      obtain ⟨i1, i2⟩ := innerLoop_inv c env total stats first (min total (first + spe * (k + 1)))
        (min total (first + spe * (k + 1)) - st.host) st h hsame
      cases hi : innerLoop c env total stats first (min total (first + spe * (k + 1)))
        (min total (first + spe * (k + 1)) - st.host) st with
      | error e =>
        obtain ⟨e, s⟩ := e
        rw [hi] at i1
        exact ⟨i1, fun st' h4 => by simp at h4⟩
      | ok st1 =>
        rw [hi] at i1
        have i1 : StopInv c env st1 := i1
        have hexp : spe * (k + 1) = spe * k + spe := Nat.mul_succ ..
        obtain ⟨g0, g1, g2⟩ := i2 st1 hi (by omega) (le_refl _)
        obtain ⟨j1, j2⟩ := ih (k + 1) _ (i1.afterEpoch ev first (left = 0))
          (by rw [afterEpoch_host, afterEpoch_trained]; exact g0)
          (by rw [afterEpoch_host]; exact g1)
        refine ⟨j1, ?_⟩
        intro st' h4 h5 h6
        rw [show k + (left + 1) = k + 1 + left by omega] at h6
        refine j2 st' h4 ?_ h6
        rcases g2 with g2 | ⟨g2, g3⟩
        · left
          rw [afterEpoch_host]
          exact ⟨g2, fun ho => afterEpoch_saves _ _ _ _ _ _ ho g0⟩
        · right
          refine ⟨(i1.asked g2).mono (afterEpoch_prefix ..), ?_⟩
          intro x1 x2
          rw [afterEpoch_host]
          exact (g3 x1 x2).imp (fun h => (afterEpoch_prefix c env ev first (left = 0) st1).subset h) id

/-- The state when the loop over epochs is entered. -/
def startSt (c : Cfg) (env : Env) (first : Nat) : St :=
  let st0 : St := { host := first, trained := first }
  let st1 := if c.runEvalBeforeTraining ∧ c.hasTrainEval then runTrainingEval env st0 else st0
  let st1 := if c.runEvalBeforeTraining ∧ c.hasInferEval then runInferenceEval c env st1 else st1
  if c.checkpointPeriod ≠ 0 ∧ c.manager ∧ ¬ c.alreadySaved then
    { st1 with events := st1.events ++ [.save st1.trained] } else st1

theorem startSt_facts (c : Cfg) (env : Env) (first : Nat) :
    (startSt c env first).host = first ∧ (startSt c env first).trained = first ∧
      (startSt c env first).idx = 0 ∧ StopInv c env (startSt c env first) ∧
      SavedAt c first (startSt c env first) := by
  have e0 : StopInv c env { host := first, trained := first } :=
    ⟨rfl, by intro pre s n post h; simp at h⟩
  have e1 : ∀ (p : Prop) [Decidable p] (st : St), StopInv c env st →
      StopInv c env (if p then runTrainingEval env st else st) := by
    intro p _ st h; split_ifs; exacts [h.trainEval, h]
  have e2 : ∀ (p : Prop) [Decidable p] (st : St), StopInv c env st →
      StopInv c env (if p then runInferenceEval c env st else st) := by
    intro p _ st h; split_ifs; exacts [h.inferEval, h]
  have e3 : ∀ (p : Prop) [Decidable p] (st : St), StopInv c env st →
      StopInv c env (if p then { st with events := st.events ++ [.save st.trained] } else st) := by
    intro p _ st h; split_ifs; exacts [h.save _, h]
  have e4 : (startSt c env first).host = first ∧ (startSt c env first).trained = first ∧
      (startSt c env first).idx = 0 := by
    unfold startSt runTrainingEval runInferenceEval
    simp only
    split_ifs <;> exact ⟨rfl, rfl, rfl⟩
  refine ⟨e4.1, e4.2.1, e4.2.2, e3 _ _ (e2 _ _ (e1 _ _ e0)), ?_⟩
  intro h1 h2
  rw [e4.1]
  by_cases h3 : c.alreadySaved = true
  · exact Or.inr ⟨h3, rfl⟩
  · left
    unfold startSt runTrainingEval runInferenceEval
    rw [if_pos ⟨h1, h2, h3⟩]
    split_ifs <;> simp

/-! ### Never past a last listed step that is off the period -/

theorem findNextGo_last (inner host E P first s : Nat) (hs : Off first P s) (hsE : s ≤ E)
    (l : List Nat) (hl : l.getLast? = some s) (hsort : l.Pairwise (· < ·)) (hh : s ≤ inner + host)
    (i : Int) (b : Bool) (h : findNextGo inner host E P first l = .ok (i, b)) :
    (host : Int) + i ≤ s := by
  induction l with
  | nil => simp at hl
  | cons a l ih =>
    have ha : a ≤ s := by
      rcases List.eq_nil_or_concat l with rfl | ⟨l', x, rfl⟩
      · simp at hl; omega
      · have : x = s := by
          have h1 : a :: l'.concat x = (a :: l') ++ [x] := by simp
          rw [h1, List.getLast?_concat] at hl
          simpa using hl
        subst this
        exact le_of_lt ((List.pairwise_cons.1 hsort).1 x (by simp))
    unfold findNextGo at h
    rw [if_pos (by omega)] at h
    split_ifs at h with h1 h2 h3
    · simp only [Except.ok.injEq, Prod.mk.injEq] at h
      omega
    · subst h3
      simp only [List.getLast?_singleton, Option.some.injEq] at hl
      subst hl
      exfalso
      apply h2
      refine ⟨?_, hs.1, hsE⟩
      intro hc
      apply hs.2
      unfold onPeriod
      have : ((a : Int) - first) = ((a - first : Nat) : Int) := by have := hs.1; omega
      rw [this] at hc
      exact_mod_cast hc
    · refine ih ?_ (List.pairwise_cons.1 hsort).2 h
      rwa [List.getLast?_cons_of_ne_nil h3] at hl

theorem block_last (c : Cfg) (env : Env) (total stats first E s : Nat) (st st' : St)
    (hs : Off first c.checkpointPeriod s) (hl : c.checkpointSteps.getLast? = some s)
    (hsort : c.checkpointSteps.Pairwise (· < ·)) (hidx : st.idx < c.checkpointSteps.length)
    (hE : st.host < E) (hle : st.host ≤ s)
    (h : block c env total stats first E st = .ok st') :
    st'.host ≤ s ∧ st'.idx < c.checkpointSteps.length := by
  have hne : c.checkpointSteps ≠ [] := by rintro h; rw [h] at hl; simp at hl
  obtain ⟨hd, hi⟩ := findFirst_drop c.checkpointSteps first st.host st.idx hidx
  unfold block at h
  simp only at h
  split at h
  · cases h
  · rename_i i b hf
    have hi2 : (st.host : Int) + i ≤ s := by
      unfold findNext at hf
      rw [if_neg hne] at hf
      by_cases hin : s ≤ min (E - st.host) stats + st.host
      · refine findNextGo_last _ _ _ _ _ _ hs (by omega) _ ?_ ?_ hin _ _ hf
        · rw [List.getLast?_drop, if_neg (by omega)]; exact hl
        · exact hsort.sublist (List.drop_sublist _ _)
      · rcases findNextGo_bounds _ _ _ _ _ _ _ _ hf with h1 | ⟨s, _, _, h2, h3, h4, _⟩ <;> omega
    generalize hb : (if (st.host : Int) + i = total then false else b) = b' at h
    by_cases h1 : env.preempt st.host = true
    · rw [if_pos h1] at h; cases h
    rw [if_neg h1] at h
    by_cases h2 : i ≤ 0
    · rw [if_pos h2] at h; cases h
    rw [if_neg h2] at h
    simp only [Except.ok.injEq] at h
    subst h
    refine ⟨by simp only; omega, ?_⟩
    simp only
    split_ifs <;> simp only <;> omega

theorem innerLoop_last (c : Cfg) (env : Env) (total stats first E s : Nat)
    (hs : Off first c.checkpointPeriod s) (hl : c.checkpointSteps.getLast? = some s)
    (hsort : c.checkpointSteps.Pairwise (· < ·)) (fuel : Nat) : ∀ (st st' : St),
    st.idx < c.checkpointSteps.length → st.host ≤ s →
    innerLoop c env total stats first E fuel st = .ok st' →
    st'.host ≤ s ∧ st'.idx < c.checkpointSteps.length := by
  induction fuel with
  | zero =>
    intro st st' h1 h2 h
    simp only [innerLoop, Except.ok.injEq] at h
    subst h
    exact ⟨h2, h1⟩
  | succ fuel ih =>
    intro st st' h1 h2 h
    unfold innerLoop at h
    split_ifs at h with h3 h4
    · simp only [Except.ok.injEq] at h
      subst h
      exact ⟨h2, h1⟩
    · simp only [Except.ok.injEq] at h
      subst h
      exact ⟨h2, h1⟩
    · cases hb : block c env total stats first E st with
      | error e => rw [hb] at h; cases h
      | ok st1 =>
        rw [hb] at h
        obtain ⟨g1, g2⟩ := block_last c env total stats first E s st st1 hs hl hsort h1 h3 h2 hb
        exact ih st1 st' g2 g1 h
    · simp only [Except.ok.injEq] at h
      subst h
      exact ⟨h2, h1⟩

theorem afterEpoch_idx (c : Cfg) (env : Env) (ev first : Nat) (fin : Bool) (st : St) :
    (afterEpoch c env ev first fin st).idx = st.idx := by
  unfold afterEpoch runTrainingEval runInferenceEval
  simp only
  split_ifs <;> rfl

theorem epochLoop_last (c : Cfg) (env : Env) (total stats spe ev first s : Nat)
    (hs : Off first c.checkpointPeriod s) (hl : c.checkpointSteps.getLast? = some s)
    (hsort : c.checkpointSteps.Pairwise (· < ·)) (left : Nat) : ∀ (k : Nat) (st st' : St),
    st.idx < c.checkpointSteps.length → st.host ≤ s →
    epochLoop c env total stats spe ev first left k st = .ok st' → st'.host ≤ s := by
  induction left with
  | zero =>
    intro k st st' h1 h2 h
    simp only [epochLoop, Except.ok.injEq] at h
    subst h
    exact h2
  | succ left ih =>
    intro k st st' h1 h2 h
    unfold epochLoop at h
    split_ifs at h
    · simp only [Except.ok.injEq] at h
      subst h
      exact h2
    · simp only at h
      split at h
      · cases h
      · rename_i st1 hi
        obtain ⟨g1, g2⟩ := innerLoop_last c env total stats first _ s hs hl hsort _ st st1 h1 h2 hi
        exact ih (k + 1) _ st' (by rw [afterEpoch_idx]; exact g2) (by rw [afterEpoch_host]; exact g1) h

end Verif.TrainLoop
