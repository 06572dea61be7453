import Verif.Model.StepMetrics
import Verif.Props.CkptDir
/-
C131: the metrics by which `SaveBestCheckpointer` keeps checkpoints.
-/
namespace Verif.StepMetrics
open Verif Verif.StateDict

variable {V : Type}

namespace Spec

/-- The directory is a run of the metric: the metric's name is the path, a slash and a tag. -/
def IsRun (name path : Key) : Prop := ∃ tag, name = path ++ '/' :: tag

/-- The values that the events give for a tag at a step; only the first value of an event counts. -/
def logged (events : List (Event V)) (tag : Key) (s : Nat) : List V :=
  events.filterMap fun e => match e.values with
    | (t, v) :: _ => if e.step = s ∧ t = tag then some v else none
    | [] => none

/-- The value logged last. -/
def lastLogged (events : List (Event V)) (tag : Key) (s : Nat) : Option V := (logged events tag s).getLast?

end Spec
open Spec

/-! ### Splitting the name -/

theorem split_ne (n : Key) : split n ≠ [] := by
  unfold split
  rw [List.splitOn_eq_splitOnP]
  exact List.splitOnP_ne_nil _ _

theorem join_split (n : Key) : join (split n) = n := List.intercalate_splitOn '/'

theorem join_append (a b : List Key) (ha : a ≠ []) (hb : b ≠ []) : join (a ++ b) = join a ++ '/' :: join b := by
  induction a with
  | nil => exact absurd rfl ha
  | cons x a ih =>
    cases a with
    | nil =>
      cases b with
      | nil => exact absurd rfl hb
      | cons y b => simp [join, List.intercalate]
    | cons z a =>
      have := ih (by simp)
      simp only [join, List.intercalate, List.cons_append, List.intersperse_cons₂, List.flatten_cons] at this ⊢
      rw [this]
      simp

theorem mem_possibleRuns (name key : Key) : key ∈ possibleRuns name ↔ IsRun name key := by
  unfold possibleRuns
  constructor
  · intro h
    obtain ⟨i, hi, rfl⟩ := List.mem_map.1 h
    have hi := List.mem_range.1 hi
    refine ⟨join ((split name).drop (i + 1)), ?_⟩
    rw [← join_append, List.take_append_drop, join_split]
    · intro h
      have := congrArg List.length h
      rw [List.length_take, List.length_nil] at this
      omega
    · intro h
      have := congrArg List.length h
      rw [List.length_drop, List.length_nil] at this
      omega
  · rintro ⟨tag, rfl⟩
    have hs : split (key ++ '/' :: tag) = split key ++ split tag := List.splitOn_append_cons_self key tag
    have h1 : 0 < (split key).length := List.length_pos_iff.2 (split_ne key)
    have h2 : 0 < (split tag).length := List.length_pos_iff.2 (split_ne tag)
    refine List.mem_map.2 ⟨(split key).length - 1, List.mem_range.2 (by rw [hs, List.length_append]; omega), ?_⟩
    rw [hs, Nat.sub_add_cancel h1, List.take_left', join_split]
    rfl

/-! ### The loops -/

theorem collect_get (steps : List Nat) (tag : Key) (s : Nat) (events : List (Event V)) : ∀ acc,
    PyDict.get (collect steps (some tag) events acc) s =
      if s ∈ steps then (lastLogged events tag s).or (PyDict.get acc s) else PyDict.get acc s := by
  induction events with
  | nil => intro acc; simp [collect, lastLogged, logged]
  | cons e es ih =>
    intro acc
    unfold collect
    rcases e with ⟨n, _ | ⟨⟨t, v⟩, vs⟩⟩
    · rw [ih]
      simp [lastLogged, logged]
    · dsimp only
      split_ifs with h h2 h3
      · rw [ih, if_pos h2]
        have : ¬ (n = s ∧ t = tag) := by
          rintro ⟨rfl, rfl⟩
          rcases h with h | h
          · exact h h2
          · exact h rfl
        simp [lastLogged, logged, this]
      · rw [ih, if_neg h2]
      · push Not at h
        have ht : t = tag := Option.some.inj h.2
        rw [ih, if_pos h3, PyDict.get_set]
        by_cases hn : n = s
        · simp only [lastLogged, logged, List.filterMap_cons, hn, ht, and_self, if_true]
          rw [List.getLast?_cons]
          cases (List.getLast? (List.filterMap _ es)) <;> rfl
        · have hn' : ¬ (n = s ∧ t = tag) := fun h => hn h.1
          simp [lastLogged, logged, hn]
      · push Not at h
        rw [ih, if_neg h3, PyDict.get_set, if_neg]
        rintro rfl
        exact h3 h.1

theorem loop_skip (name : Key) (steps : List Nat) (ds : List (RunDir V)) (h : ∀ d ∈ ds, ¬ IsRun name d.path) (rest : List (RunDir V)) (acc : List (Nat × V)) :
    loop name steps ⟨none, none⟩ (ds ++ rest) acc = loop name steps ⟨none, none⟩ rest acc := by
  induction ds with
  | nil => rfl
  | cons d ds ih =>
    have hd : d.path ∉ possibleRuns name := fun hm => h d List.mem_cons_self ((mem_possibleRuns _ _).1 hm)
    rw [List.cons_append, loop]
    simp only [truthy, tryFill, if_neg hd, Bool.false_eq_true, if_false, Bool.and_self, true_or, if_true]
    exact ih fun d hd => h d (List.mem_cons_of_mem _ hd)

theorem loop_rest (name : Key) (steps : List Nat) (sel : Sel) (run : Key) (hr : sel.run = some run) (hne : run ≠ []) (ds : List (RunDir V))
    (h : ∀ d ∈ ds, d.path ≠ run) (acc : List (Nat × V)) : loop name steps sel ds acc = acc := by
  induction ds with
  | nil => rfl
  | cons d ds ih =>
    have ht : truthy sel.run = true := by
      rw [hr]
      cases run with
      | nil => exact absurd rfl hne
      | cons => rfl
    have hd : sel.run ≠ some d.path := by
      rw [hr]
      intro he
      exact h d List.mem_cons_self (Option.some.inj he).symm
    rw [loop]
    simp only [ht, if_true]
    rw [if_pos (Or.inr hd)]
    exact ih fun d hd => h d (List.mem_cons_of_mem _ hd)

theorem populate_eq (run tag : Key) (hr : run ≠ []) (ht : tag ≠ []) (steps : List Nat) (pre post : List (RunDir V)) (events : List (Event V))
    (h1 : ∀ d ∈ pre, ¬ IsRun (run ++ '/' :: tag) d.path) (h2 : ∀ d ∈ post, d.path ≠ run) :
    populate (run ++ '/' :: tag) steps (pre ++ ⟨run, events⟩ :: post) = collect steps (some tag) events [] := by
  unfold populate
  rw [loop_skip _ _ _ h1, loop]
  have hm : run ∈ possibleRuns (run ++ '/' :: tag) := (mem_possibleRuns _ _).2 ⟨tag, rfl⟩
  have hd : (run ++ '/' :: tag).drop (run.length + 1) = tag := by simp [List.drop_append]
  have ht1 : truthy (some run) = true := by
    cases run with
    | nil => exact absurd rfl hr
    | cons => rfl
  have ht2 : truthy (some tag) = true := by
    cases tag with
    | nil => exact absurd rfl ht
    | cons => rfl
  have hf : tryFill (run ++ '/' :: tag) run ⟨none, none⟩ = (⟨some run, some tag⟩, true) := by
    simp only [tryFill, if_pos hm, hd, ht1, ht2, Bool.and_self]
  have h0 : truthy none = false := rfl
  simp only [h0, Bool.false_eq_true, if_false, hf]
  rw [if_neg (by simp)]
  exact loop_rest _ _ _ run rfl hr post h2 _

/-! ### Theorems -/

/-- C131: if the metric is called `run/tag`, and no directory that is visited before that of `run` is a run of the metric, then the value for a step is the one
logged last with the tag in this directory. -/
theorem C131_values (run tag : Key) (hr : run ≠ []) (ht : tag ≠ []) (steps : List Nat) (pre post : List (RunDir V)) (events : List (Event V))
    (h1 : ∀ d ∈ pre, ¬ IsRun (run ++ '/' :: tag) d.path) (h2 : ∀ d ∈ post, d.path ≠ run) (s : Nat) :
    PyDict.get (populate (run ++ '/' :: tag) steps (pre ++ ⟨run, events⟩ :: post)) s = if s ∈ steps then lastLogged events tag s else none := by
  rw [populate_eq run tag hr ht steps pre post events h1 h2, collect_get]
  simp [PyDict.get]

/-- C131: if no directory is a run of the metric, then no step has a value. -/
theorem C131_not_found (name : Key) (steps : List Nat) (dirs : List (RunDir V)) (h : ∀ d ∈ dirs, ¬ IsRun name d.path) : populate name steps dirs = [] := by
  have := loop_skip name steps dirs h [] []
  rw [List.append_nil] at this
  exact this

/-- C131: events in a directory above that of the run hide the run, if they are visited first: whatever has been logged for the metric, no step has a value. -/
theorem C131_hidden (a b tag : Key) (ha : a ≠ []) (steps : List Nat) (other events : List (Event V)) (post : List (RunDir V))
    (ho : ∀ e ∈ other, ∀ x ∈ e.values, x.1 ≠ b ++ '/' :: tag) (hp : ∀ d ∈ post, d.path ≠ a) (hb : b ≠ []) (s : Nat) :
    PyDict.get (populate (a ++ '/' :: b ++ '/' :: tag) steps (⟨a, other⟩ :: ⟨a ++ '/' :: b, events⟩ :: post)) s = none := by
  have e : a ++ '/' :: b ++ '/' :: tag = a ++ '/' :: (b ++ '/' :: tag) := by simp
  have h := C131_values a (b ++ '/' :: tag) ha (by simp) steps [] (⟨a ++ '/' :: b, events⟩ :: post) other (by simp) (by
    intro d hd
    rcases List.mem_cons.1 hd with rfl | hd
    · intro h
      have := congrArg List.length h
      simp at this
    · exact hp d hd) s
  rw [e]
  rw [List.nil_append] at h
  rw [h]
  split_ifs
  · have : logged other (b ++ '/' :: tag) s = [] := by
      unfold logged
      rw [List.filterMap_eq_nil_iff]
      intro x hx
      rcases hv : x.values with _ | ⟨⟨t, v⟩, vs⟩
      · rfl
      · have := ho x hx (t, v) (by rw [hv]; exact List.mem_cons_self)
        simp only [ite_eq_right_iff, reduceCtorEq, imp_false, not_and]
        exact fun _ => this
    rw [lastLogged, this]
    rfl
  · rfl

/-! ### Keeping the best checkpoints -/

section best
open Verif.Ckpt Verif.Ckpt.Spec
variable {δ : Type} [LinearOrder V] [BoundedOrder V]

theorem insertionSort_congr {α : Type} (r s : α → α → Prop) [DecidableRel r] [DecidableRel s] (l : List α) (h : ∀ a ∈ l, ∀ b ∈ l, r a b ↔ s a b) :
    l.insertionSort r = l.insertionSort s := by
  have ins : ∀ (a : α) (l : List α), (∀ b ∈ l, r a b ↔ s a b) → l.orderedInsert r a = l.orderedInsert s a := by
    intro a l
    induction l with
    | nil => intro _; rfl
    | cons b l ih =>
      intro h
      have hb := h b List.mem_cons_self
      simp only [List.orderedInsert, ih fun c hc => h c (List.mem_cons_of_mem _ hc)]
      by_cases hr : r a b
      · rw [if_pos hr, if_pos (hb.1 hr)]
      · rw [if_neg hr, if_neg fun hs => hr (hb.2 hs)]
  induction l with
  | nil => rfl
  | cons a l ih =>
    have e := ih fun a ha b hb => h a (List.mem_cons_of_mem _ ha) b (List.mem_cons_of_mem _ hb)
    rw [List.insertionSort_cons, List.insertionSort_cons, e]
    refine ins a _ fun b hb => h a List.mem_cons_self b (List.mem_cons_of_mem _ ?_)
    exact (List.perm_insertionSort s l).mem_iff.1 hb

theorem removal_congr (keep : Option Nat) (mm kw : Bool) (period : Option Nat) (f g : Nat → Option V) (steps : List Nat)
    (h : ∀ s ∈ existingSteps period steps, f s = g s) :
    removalList (.best keep mm kw period f) steps = removalList (.best keep mm kw period g) steps := by
  dsimp only [removalList]
  cases Ckpt.truthy keep with
  | none => rfl
  | some k =>
    dsimp only
    split_ifs with h1 h2
    · rfl
    · have hf : (existingSteps period steps).dropLast.filter (fun s => (f s).isSome) = (existingSteps period steps).dropLast.filter fun s => (g s).isSome :=
        List.filter_congr fun s hs => by rw [h s (List.dropLast_subset _ hs)]
      have hm : ∀ s ∈ (existingSteps period steps).dropLast.filter (fun s => (g s).isSome), f s = g s :=
        fun s hs => h s (List.dropLast_subset _ (List.mem_filter.1 hs).1)
      rw [hf]
      congr 2
      unfold sortByMetric
      split_ifs <;> exact insertionSort_congr _ _ _ fun a ha b hb => by rw [hm a ha, hm b hb]
    · have hm : ∀ s ∈ (existingSteps period steps).dropLast, f s = g s := fun s hs => h s (List.dropLast_subset _ hs)
      congr 2
      unfold sortByMetric
      split_ifs <;> exact insertionSort_congr _ _ _ fun a ha b hb => by rw [hm a ha, hm b hb]

/-- The steps that are listed after the new checkpoint has been written. -/
def listed (fs : FS δ) (job : Job δ) : List Nat := allSteps (runOps fs (writeOps job))

theorem save_congr (c : Best) (dirs : List (RunDir V)) (fs : FS δ) (kd : Option Nat) (job : Job δ) (g : Nat → Option V)
    (h : ∀ s ∈ existingSteps c.period (listed fs job),
      PyDict.get (populate c.metricName (existingSteps c.period (listed fs job)) dirs) s = g s) :
    saveOps (c.policy dirs (listed fs job)) kd fs job = saveOps (.best (some c.keep) c.maxMode c.keepWithout c.period g) kd fs job ∧
    saveRaises (c.policy dirs (listed fs job)) fs job = saveRaises (.best (some c.keep) c.maxMode c.keepWithout c.period g) fs job := by
  have e := removal_congr (some c.keep) c.maxMode c.keepWithout c.period _ g (listed fs job) h
  have e' : removalList (c.policy dirs (listed fs job)) (allSteps (runOps fs (writeOps job))) =
      removalList (.best (some c.keep) c.maxMode c.keepWithout c.period g) (allSteps (runOps fs (writeOps job))) := e
  unfold saveOps saveRaises pruneOps
  simp only [e', and_self]

/-- C131 (Orbax): the checkpoints that Orbax compares have the steps that they had; the metric of one that the manager lists is the value logged last for its step,
and of one without such a value what it had before.  Without `metric_name_to_monitor` nothing is changed. -/
theorem C131_orbax (run tag : Key) (hr : run ≠ []) (ht : tag ≠ []) (allSteps : List Nat) (pre post : List (RunDir V)) (events : List (Event V))
    (h1 : ∀ d ∈ pre, ¬ IsRun (run ++ '/' :: tag) d.path) (h2 : ∀ d ∈ post, d.path ≠ run) (infos : List (Info V)) :
    let out := orbaxInfos true (run ++ '/' :: tag) allSteps (pre ++ ⟨run, events⟩ :: post) infos
    out.map Info.step = infos.map Info.step ∧
    (∀ (j : Nat) (a : Info V), infos[j]? = some a → ∃ b, out[j]? = some b ∧ b.step = a.step ∧
      (∀ v, a.step ∈ allSteps → lastLogged events tag a.step = some v → b.metrics = some [(run ++ '/' :: tag, v)]) ∧
      (a.step ∉ allSteps ∨ lastLogged events tag a.step = none → b.metrics = a.metrics)) ∧
    orbaxInfos false (run ++ '/' :: tag) allSteps (pre ++ ⟨run, events⟩ :: post) infos = infos := by
  intro out
  have hv := C131_values run tag hr ht allSteps pre post events h1 h2
  refine ⟨?_, ?_, rfl⟩
  · simp only [out, orbaxInfos, if_true, List.map_map]
    refine List.map_congr_left fun a _ => ?_
    simp only [Function.comp]
    split <;> rfl
  · intro j a ha
    simp only [out, orbaxInfos, if_true, List.getElem?_map, ha, Option.map_some]
    refine ⟨_, rfl, ?_, ?_, ?_⟩
    · split <;> rfl
    · intro v hm hl
      have e := hv a.step
      rw [if_pos hm, hl] at e
      rw [e]
    · intro h
      have e : PyDict.get (populate (run ++ '/' :: tag) allSteps (pre ++ ⟨run, events⟩ :: post)) a.step = none := by
        rw [hv a.step]
        rcases h with h | h
        · rw [if_neg h]
        · rw [h, ite_self]
      rw [e]

/-- C131: what `SaveBestCheckpointer` keeps and removes is determined by the values logged last: a removed checkpoint has no better one than an eligible one
that stays, and is older if they are equal. -/
theorem C131_save_best (evs : List (Ev δ V)) (hv : ValidHistory evs) (c : Best) (hk : 0 < c.keep) (kd : Option Nat) (job : Job δ) (hj : Valid job)
    (hnew : job.step ∉ allSteps (history evs).fs)
    (run tag : Key) (hr : run ≠ []) (ht : tag ≠ []) (hname : c.metricName = run ++ '/' :: tag) (pre post : List (RunDir V)) (events : List (Event V))
    (h1 : ∀ d ∈ pre, ¬ IsRun c.metricName d.path) (h2 : ∀ d ∈ post, d.path ≠ run) :
    let pol := c.policy (pre ++ ⟨run, events⟩ :: post) (listed (history evs).fs job)
    let value := lastLogged events tag
    let before := job.step :: allSteps (history evs).fs
    let after := allSteps (execEv (history evs) (.save pol kd job none)).fs
    let pinned := fun n => isPinned (history evs).fs (ckptName n) = true
    saveRaises pol (history evs).fs job = false ∧
    after ⊆ before ∧
    (∀ n ∈ before, n ∉ after → n ∈ eligible c.keepWithout c.period value before ∧ ¬ pinned n) ∧
    (∀ r ∈ before, r ∉ after → ∀ e ∈ eligible c.keepWithout c.period value before, e ∈ after → ¬ pinned e →
      ¬ Better c.maxMode value r e ∧ (Tied c.maxMode value r e → r < e)) ∧
    min c.keep (eligible c.keepWithout c.period value before).length ≤
      ((eligible c.keepWithout c.period value before).filter (fun n => n ∈ after)).length ∧
    ((∀ n ∈ before, ¬ pinned n) →
      ((eligible c.keepWithout c.period value before).filter (fun n => n ∈ after)).length =
        min c.keep (eligible c.keepWithout c.period value before).length) := by
  intro pol value before after pinned
  rw [hname] at h1
  obtain ⟨e1, e2⟩ := save_congr c (pre ++ ⟨run, events⟩ :: post) (history evs).fs kd job value (by
    intro s hs
    rw [hname, C131_values run tag hr ht _ pre post events h1 h2 s, if_pos hs])
  have h := C22_save_best evs hv c.keep hk c.maxMode c.keepWithout c.period value kd job hj hnew
  have e3 : execEv (history evs) (.save pol kd job none) =
      execEv (history evs) (.save (.best (some c.keep) c.maxMode c.keepWithout c.period value) kd job none) := by
    simp only [execEv, pol, e1]
  dsimp only at h
  rw [← e2] at h
  rw [← e3] at h
  exact h

/-! ### The hypotheses hold of concrete event files -/

def exDirs : List (RunDir Bool) :=
  [⟨".".toList, []⟩, ⟨"train".toList, [⟨1, [("accuracy".toList, true)]⟩, ⟨2, [("accuracy".toList, false)]⟩, ⟨2, [("loss".toList, false)]⟩, ⟨2, []⟩,
    ⟨3, [("accuracy".toList, true)]⟩, ⟨2, [("accuracy".toList, true)]⟩, ⟨3, [("accuracy".toList, false)]⟩]⟩, ⟨"inference_eval/task".toList, []⟩]
def exBest : Best := ⟨1, true, true, none, "train/accuracy".toList⟩

example : ¬ IsRun "train/accuracy".toList ".".toList ∧ "inference_eval/task".toList ≠ "train".toList := by
  rw [← mem_possibleRuns]
  decide
example : populate "train/accuracy".toList [1, 2] exDirs = [(1, true), (2, true)] := by decide
example : ∀ d ∈ exDirs, ¬ IsRun "training_eval/task/accuracy".toList d.path := by
  simp only [← mem_possibleRuns]
  decide
/-- Steps 1 and 2 are logged and listed, step 3 is not listed, step 4 is not logged. -/
example : (orbaxInfos true "train/accuracy".toList [1, 2, 4] exDirs [⟨1, none⟩, ⟨2, some [("train/accuracy".toList, false)]⟩, ⟨3, none⟩, ⟨4, some []⟩]).map
    (fun i => (i.step, i.metrics)) = [(1, some [("train/accuracy".toList, true)]), (2, some [("train/accuracy".toList, true)]), (3, none), (4, some [])] := by decide
/-- The parent directory hides the run. -/
example : populate "eval/task/accuracy".toList [1] [⟨"eval".toList, [⟨1, [("loss".toList, true)]⟩]⟩, ⟨"eval/task".toList, [⟨1, [("accuracy".toList, true)]⟩]⟩] = [] ∧
    populate "eval/task/accuracy".toList [1] [⟨"eval/task".toList, [⟨1, [("accuracy".toList, true)]⟩]⟩] = [(1, true)] := by decide
/-- Of the steps 1 (pinned), 2 and 3, step 2 has the best value. -/
example : 4 ∉ allSteps (history demoHistory).fs ∧
    allSteps (execEv (history demoHistory) (.save (exBest.policy exDirs (listed (history demoHistory).fs (demoJob 4))) none (demoJob 4) none)).fs =
      [1, 2, 4] := by decide +kernel

end best

end Verif.StepMetrics
