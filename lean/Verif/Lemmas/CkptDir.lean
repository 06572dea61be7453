import Verif.Spec.CkptDir
import Verif.Lemmas.CkptName
import Mathlib.Data.List.Perm.Subperm
import Mathlib.Data.List.Dedup
import Mathlib.Data.List.Induction
/-
Lemmas about the checkpoint directory model.
-/
namespace Verif.Ckpt
open Verif Verif.Ckpt.Spec

variable {δ : Type}

theorem get_foldl_set (ws : List (FName × Option δ)) (d : Dir δ) (f : FName) :
    PyDict.get (ws.foldl (fun d w => PyDict.set d w.1 w.2) d) f =
      match (ws.filter (fun w => w.1 = f)).getLast? with
      | some w => some w.2
      | none => PyDict.get d f := by
  induction ws using List.reverseRecOn with
  | nil => rfl
  | append_singleton ws w ih =>
    rw [List.foldl_append, List.foldl_cons, List.foldl_nil, PyDict.get_set, List.filter_append]
    by_cases h : w.1 = f
    · simp [h]
    · rw [if_neg h, ih]; simp [h]

theorem wf_applyOp (fs : FS δ) (h : PyDict.WF fs) (op : Op δ) : PyDict.WF (applyOp fs op) := by
  cases op with
  | mkdir n => simp only [applyOp]; split_ifs; exacts [h, PyDict.wf_set _ h _ _]
  | write n f c =>
    simp only [applyOp]
    cases PyDict.get fs n with
    | none => exact h
    | some d => exact PyDict.wf_set _ h _ _
  | rename a b =>
    simp only [applyOp]
    cases PyDict.get fs a with
    | none => exact h
    | some d => exact PyDict.wf_set _ (PyDict.wf_pop _ h _) _ _
  | rm n f =>
    simp only [applyOp]
    cases PyDict.get fs n with
    | none => exact h
    | some d => exact PyDict.wf_set _ h _ _
  | rmdir n => exact PyDict.wf_pop _ h _

theorem wf_runOps (fs : FS δ) (h : PyDict.WF fs) (ops : List (Op δ)) : PyDict.WF (runOps fs ops) := by
  induction ops generalizing fs with
  | nil => exact h
  | cons op ops ih => exact ih _ (wf_applyOp fs h op)

theorem runOps_append (fs : FS δ) (a b : List (Op δ)) : runOps fs (a ++ b) = runOps (runOps fs a) b := by
  simp [runOps, List.foldl_append]

theorem runOps_cons (fs : FS δ) (a : Op δ) (b : List (Op δ)) : runOps fs (a :: b) = runOps (applyOp fs a) b := rfl

theorem get_mkdir (fs : FS δ) (n nm : Name) :
    PyDict.get (applyOp fs (.mkdir n)) nm = if nm = n then some ((PyDict.get fs n).getD []) else PyDict.get fs nm := by
  by_cases hs : (PyDict.get fs n).isSome
  · obtain ⟨d, hd⟩ := Option.isSome_iff_exists.1 hs
    have e : applyOp fs (.mkdir n) = fs := by exact if_pos hs
    rw [e]
    by_cases h : nm = n
    · subst h; simp [hd]
    · rw [if_neg h]
  · have e : applyOp fs (.mkdir n) = PyDict.set fs n [] := by exact if_neg hs
    rw [e, PyDict.get_set]
    by_cases h : nm = n
    · have : PyDict.get fs n = none := by simpa using hs
      subst h; simp [this]
    · rw [if_neg h, if_neg (fun h2 => h h2.symm)]

theorem get_write (fs : FS δ) (n nm : Name) (f : FName) (c : Option δ) :
    PyDict.get (applyOp fs (.write n f c)) nm =
      if nm = n then (PyDict.get fs n).map (fun d => PyDict.set d f c) else PyDict.get fs nm := by
  simp only [applyOp]
  cases hg : PyDict.get fs n with
  | none =>
    by_cases h : nm = n
    · subst h; simp [hg]
    · simp [h]
  | some d =>
    simp only [PyDict.get_set]
    by_cases h : nm = n
    · simp [h]
    · rw [if_neg h, if_neg (fun h2 => h h2.symm)]

theorem get_rm (fs : FS δ) (n nm : Name) (f : FName) :
    PyDict.get (applyOp fs (.rm n f)) nm =
      if nm = n then (PyDict.get fs n).map (fun d => PyDict.pop d f) else PyDict.get fs nm := by
  simp only [applyOp]
  cases hg : PyDict.get fs n with
  | none =>
    by_cases h : nm = n
    · subst h; simp [hg]
    · simp [h]
  | some d =>
    simp only [PyDict.get_set]
    by_cases h : nm = n
    · simp [h]
    · rw [if_neg h, if_neg (fun h2 => h h2.symm)]

theorem get_rmdir (fs : FS δ) (n nm : Name) :
    PyDict.get (applyOp fs (.rmdir n)) nm = if nm = n then none else PyDict.get fs nm := by
  simp only [applyOp, PyDict.get_pop]
  by_cases h : nm = n
  · simp [h]
  · rw [if_neg h, if_neg (fun h2 => h h2.symm)]

theorem get_writes (fs : FS δ) (tmp nm : Name) (ws : List (FName × Option δ)) :
    PyDict.get (runOps fs (ws.map (fun w => Op.write tmp w.1 w.2))) nm =
      if nm = tmp then (PyDict.get fs tmp).map (fun d => ws.foldl (fun d w => PyDict.set d w.1 w.2) d)
      else PyDict.get fs nm := by
  induction ws generalizing fs with
  | nil =>
    by_cases h : nm = tmp
    · subst h; simp [runOps]
    · simp [h, runOps]
  | cons w ws ih =>
    rw [List.map_cons, runOps_cons, ih, get_write, get_write]
    by_cases h : nm = tmp
    · subst h; simp [Function.comp_def]
    · simp [h]

/-- The operations before the rename only touch the temporary directory. -/
theorem get_tmp_prefix (fs : FS δ) (job : Job δ) (c : Nat) (hc : c < (writeOps job).length) (nm : Name)
    (h : nm ≠ tmpName job.step job.stamp) :
    PyDict.get (runOps fs ((writeOps job).take c)) nm = PyDict.get fs nm := by
  have hall : ∀ op ∈ (writeOps job).take c, (∃ f x, op = .write (tmpName job.step job.stamp) f x) ∨
      op = .mkdir (tmpName job.step job.stamp) := by
    intro op hop
    have e : (writeOps job).take c =
        (Op.mkdir (tmpName job.step job.stamp) ::
          job.writes.map (fun w => Op.write (tmpName job.step job.stamp) w.1 w.2)).take c := by
      unfold writeOps
      simp only [writeOps, List.length_cons, List.length_append, List.length_map, List.length_nil] at hc
      rw [← List.cons_append, List.take_append_of_le_length]
      simp; omega
    rw [e] at hop
    have hop := List.mem_of_mem_take hop
    rcases List.mem_cons.1 hop with h | h
    · right; exact h
    · left
      obtain ⟨w, _, rfl⟩ := List.mem_map.1 h
      exact ⟨_, _, rfl⟩
  generalize (writeOps job).take c = ops at hall
  induction ops generalizing fs with
  | nil => rfl
  | cons op ops ih =>
    rw [runOps_cons, ih _ (fun o ho => hall o (List.mem_cons_of_mem _ ho))]
    rcases hall op (by simp) with ⟨f, x, rfl⟩ | rfl
    · rw [get_write, if_neg h]
    · rw [get_mkdir, if_neg h]

/-- The content of the new checkpoint. -/
def newDir (fs : FS δ) (job : Job δ) : Dir δ :=
  job.writes.foldl (fun d w => PyDict.set d w.1 w.2)
    ((PyDict.get fs (tmpName job.step job.stamp)).getD [])

theorem stepOfName_tmp (n stamp : Nat) : stepOfName (tmpName n stamp) = none := by
  cases h : stepOfName (tmpName n stamp) with
  | none => rfl
  | some m =>
    obtain ⟨ds, h1, _, h3, _⟩ := (stepOfName_iff _ m).1 h
    have : ds = dec n ++ ".tmp-".toList ++ dec stamp := by
      unfold tmpName ckptName at h1
      rw [List.append_assoc, List.append_assoc] at h1
      rw [List.append_assoc]
      exact (List.append_cancel_left h1).symm
    have := h3 '.' (by rw [this]; simp)
    exact absurd this (by decide)

theorem ckptName_ne_tmp (n m s : Nat) : ckptName n ≠ tmpName m s := by
  intro h
  have := stepOfName_ckptName n
  rw [h, stepOfName_tmp] at this
  cases this

theorem get_writeOps (fs : FS δ) (job : Job δ) (nm : Name) :
    PyDict.get (runOps fs (writeOps job)) nm =
      if nm = ckptName job.step then some (newDir fs job)
      else if nm = tmpName job.step job.stamp then none
      else PyDict.get fs nm := by
  unfold writeOps
  rw [runOps_cons, runOps_append]
  set tmp := tmpName job.step job.stamp with htmp
  have h1 : ∀ nm, PyDict.get (runOps (applyOp fs (Op.mkdir tmp))
      (job.writes.map (fun w => Op.write tmp w.1 w.2))) nm =
      if nm = tmp then some (newDir fs job) else PyDict.get fs nm := by
    intro nm
    rw [get_writes, get_mkdir, get_mkdir]
    by_cases h : nm = tmp
    · simp [h, newDir, htmp]
    · simp [h]
  generalize runOps (applyOp fs (Op.mkdir tmp)) (job.writes.map (fun w => Op.write tmp w.1 w.2)) = fs1 at h1
  rw [runOps_cons]
  simp only [runOps, List.foldl_nil, applyOp]
  have h2 := h1 tmp
  rw [if_pos rfl] at h2
  simp only [h2, PyDict.get_set, PyDict.get_pop, h1]
  have hne := ckptName_ne_tmp job.step job.step job.stamp
  rw [← htmp] at hne
  by_cases ha : nm = ckptName job.step
  · simp [ha]
  · rw [if_neg (fun h => ha h.symm), if_neg ha]
    by_cases hb : nm = tmp
    · simp [hb]
    · rw [if_neg (fun h => hb h.symm), if_neg hb, if_neg hb]

theorem newDir_complete (fs : FS δ) (job : Job δ) (hv : Valid job) : Complete (newDir fs job) job := by
  intro f x hfx
  unfold newDir
  rw [get_foldl_set, hv.1 f x hfx]

/-! ### Reported steps -/

/-- Only canonical names occur. -/
def Canon (fs : FS δ) : Prop :=
  ∀ nm, (PyDict.get fs nm).isSome → ∀ n, stepOfName nm = some n → nm = ckptName n

theorem mem_allSteps (fs : FS δ) (hc : Canon fs) (n : Nat) :
    n ∈ allSteps fs ↔ (PyDict.get fs (ckptName n)).isSome := by
  unfold allSteps
  rw [mem_allStepsOf]
  constructor
  · rintro ⟨e, he, h⟩
    have he' := (PyDict.get_isSome_iff fs e).2 he
    rw [hc e he' n h] at he'
    exact he'
  · intro h
    exact ⟨_, (PyDict.get_isSome_iff fs _).1 h, stepOfName_ckptName n⟩

theorem allSteps_nodup (fs : FS δ) (hw : PyDict.WF fs) (hc : Canon fs) : (allSteps fs).Nodup := by
  unfold allSteps allStepsOf
  rw [(List.perm_insertionSort _ _).nodup_iff]
  have hk : ∀ nm ∈ PyDict.keys fs, ∀ n, stepOfName nm = some n → nm = ckptName n :=
    fun nm h => hc nm ((PyDict.get_isSome_iff fs nm).2 h)
  unfold PyDict.WF at hw
  generalize PyDict.keys fs = l at hk hw
  induction l with
  | nil => simp
  | cons a l ih =>
    rw [List.nodup_cons] at hw
    have ih := ih (fun nm h => hk nm (List.mem_cons_of_mem _ h)) hw.2
    rw [List.filterMap_cons]
    cases hs : stepOfName a with
    | none => exact ih
    | some n =>
      rw [List.nodup_cons]
      refine ⟨?_, ih⟩
      intro hmem
      obtain ⟨b, hb, hbn⟩ := List.mem_filterMap.1 hmem
      have h1 := hk a (by simp) n hs
      have h2 := hk b (List.mem_cons_of_mem _ hb) n hbn
      rw [h1, ← h2] at hw
      exact hw.1 hb

theorem allSteps_sorted (fs : FS δ) (hw : PyDict.WF fs) (hc : Canon fs) : (allSteps fs).Pairwise (· < ·) := by
  have h1 : (allSteps fs).Pairwise (· ≤ ·) := allStepsOf_sorted _
  have h2 := allSteps_nodup fs hw hc
  exact (h1.and h2).imp (fun h => Nat.lt_of_le_of_ne h.1 h.2)

theorem dropLast_lt {l : List Nat} (h : l.Pairwise (· < ·)) {M : Nat} (hl : l.getLast? = some M) :
    ∀ s ∈ l.dropLast, s < M := by
  intro s hs
  obtain ⟨t, rfl⟩ : ∃ t, l = t ++ [M] := by
    rcases List.eq_nil_or_concat' l with rfl | ⟨t, x, rfl⟩
    · cases hl
    · simp at hl; exact ⟨t, by rw [hl]⟩
  rw [List.dropLast_concat] at hs
  rw [List.pairwise_append] at h
  exact h.2.2 s hs M (by simp)

theorem take_subset_dropLast {α : Type} (l : List α) (k : Nat) : l.take (l.length - (k + 1)) ⊆ l.dropLast := by
  intro x hx
  rw [List.dropLast_eq_take]
  exact (List.take_subset_take_left l (by omega)) hx

theorem dropLast_concat_sub (l : List Nat) (p : Nat) : (filterPeriod p l).dropLast ⊆ l.dropLast := by
  unfold filterPeriod
  cases hl : l.getLast? with
  | none => simp
  | some last =>
    simp only [List.dropLast_concat]
    intro x hx
    exact List.mem_of_mem_filter hx

section policy
variable {α : Type} [LinearOrder α] [BoundedOrder α]

theorem perm_sortByMetric (mm : Bool) (metric : Nat → Option α) (l : List Nat) :
    (sortByMetric mm metric l).Perm l := by
  unfold sortByMetric
  split_ifs
  · exact List.perm_insertionSort _ _
  · exact List.perm_insertionSort _ _

/-- The latest checkpoint is never handed to removal. -/
theorem removalList_sub (pol : Policy α) (l : List Nat) : removalList pol l ⊆ l.dropLast := by
  cases pol with
  | newest keep =>
    unfold removalList
    rcases keep with _ | _ | k
    · simp [truthy]
    · simp [truthy]
    · exact take_subset_dropLast l k
  | best keep mm kw period metric =>
    unfold removalList
    rcases keep with _ | _ | k
    · simp [truthy]
    · simp [truthy]
    · simp only [truthy]
      have key : ∀ ex : List Nat, ex.dropLast ⊆ l.dropLast →
          (if ex.length ≤ k + 1 + 1 then [] else
            (sortByMetric mm metric (if kw then ex.dropLast.filter (fun s => (metric s).isSome) else ex.dropLast)
              ++ ex.getLast?.toList).take
              ((if kw then ex.dropLast.filter (fun s => (metric s).isSome) else ex.dropLast).length - (k + 1)))
            ⊆ l.dropLast := by
        intro ex hex
        split_ifs with h1 h2
        · simp
        · rw [List.take_append_of_le_length (by rw [(perm_sortByMetric mm metric _).length_eq]; omega)]
          intro x hx
          have := (perm_sortByMetric mm metric _).subset (List.mem_of_mem_take hx)
          exact hex (List.mem_of_mem_filter this)
        · rw [List.take_append_of_le_length (by rw [(perm_sortByMetric mm metric _).length_eq]; omega)]
          intro x hx
          exact hex ((perm_sortByMetric mm metric _).subset (List.mem_of_mem_take hx))
      unfold existingSteps
      rcases period with _ | _ | p
      · exact key l (List.Subset.refl _)
      · exact key l (List.Subset.refl _)
      · exact key (filterPeriod (p + 1) l) (dropLast_concat_sub l (p + 1))
end policy

/-! ### Pruning operations -/

/-- Operations that only remove things belonging to steps other than `M`. -/
def PruneOp (M : Nat) (op : Op δ) : Prop :=
  ∃ s, s ≠ M ∧ ((∃ f, op = .rm (ckptName s) f) ∨ op = .rmdir (ckptName s))

theorem prune_op_get (M : Nat) (fs : FS δ) (op : Op δ) (h : PruneOp M op) :
    PyDict.get (applyOp fs op) (ckptName M) = PyDict.get fs (ckptName M) ∧
    ∀ nm, (PyDict.get (applyOp fs op) nm).isSome → (PyDict.get fs nm).isSome := by
  obtain ⟨s, hs, ⟨f, rfl⟩ | rfl⟩ := h
  · have : ckptName M ≠ ckptName s := fun h => hs (ckptName_inj h).symm
    refine ⟨by rw [get_rm, if_neg this], ?_⟩
    intro nm
    rw [get_rm]
    split_ifs with h
    · subst h; simp
    · exact id
  · have : ckptName M ≠ ckptName s := fun h => hs (ckptName_inj h).symm
    refine ⟨by rw [get_rmdir, if_neg this], ?_⟩
    intro nm
    rw [get_rmdir]
    split_ifs with h
    · simp
    · exact id

theorem prune_run_get (M : Nat) (fs : FS δ) (ops : List (Op δ)) (h : ∀ op ∈ ops, PruneOp M op) :
    PyDict.get (runOps fs ops) (ckptName M) = PyDict.get fs (ckptName M) ∧
    ∀ nm, (PyDict.get (runOps fs ops) nm).isSome → (PyDict.get fs nm).isSome := by
  induction ops generalizing fs with
  | nil => exact ⟨rfl, fun _ h => h⟩
  | cons op ops ih =>
    rw [runOps_cons]
    have h1 := prune_op_get M fs op (h op (by simp))
    have h2 := ih (applyOp fs op) (fun o ho => h o (List.mem_cons_of_mem _ ho))
    exact ⟨h2.1.trans h1.1, fun nm hn => h1.2 nm (h2.2 nm hn)⟩

theorem removeCkpts_ops (fs : FS δ) (ss : List Nat) :
    ∀ op ∈ (removeCkpts fs ss).1, ∃ s ∈ ss, (∃ f, op = .rm (ckptName s) f) ∨ op = .rmdir (ckptName s) := by
  induction ss generalizing fs with
  | nil => simp [removeCkpts]
  | cons s rest ih =>
    intro op hop
    unfold removeCkpts at hop
    split_ifs at hop with hp
    · obtain ⟨t, ht, h⟩ := ih fs op hop
      exact ⟨t, List.mem_cons_of_mem _ ht, h⟩
    · cases hg : PyDict.get fs (ckptName s) with
      | none => rw [hg] at hop; simp at hop
      | some d =>
        rw [hg] at hop
        simp only [List.mem_append] at hop
        rcases hop with hop | hop
        · unfold rmtreeOps at hop
          rcases List.mem_append.1 hop with hop | hop
          · obtain ⟨e, _, rfl⟩ := List.mem_map.1 hop
            exact ⟨s, by simp, Or.inl ⟨_, rfl⟩⟩
          · exact ⟨s, by simp, Or.inr (by simpa using hop)⟩
        · obtain ⟨t, ht, h⟩ := ih _ op hop
          exact ⟨t, List.mem_cons_of_mem _ ht, h⟩

theorem dsSteps_sorted (fs : FS δ) : (dsSteps fs).Pairwise (· < ·) := by
  unfold dsSteps
  generalize List.filterMap _ _ = l
  have h1 : (l.dedup.insertionSort (· ≤ ·)).Pairwise (· ≤ ·) := List.pairwise_insertionSort _ _
  have h2 : (l.dedup.insertionSort (· ≤ ·)).Nodup :=
    (List.perm_insertionSort _ _).nodup_iff.2 (List.nodup_dedup l)
  exact (h1.and h2).imp (fun h => Nat.lt_of_le_of_ne h.1 h.2)

theorem dsSteps_sub (fs : FS δ) : dsSteps fs ⊆ allSteps fs := by
  intro n hn
  unfold dsSteps at hn
  rw [List.mem_insertionSort, List.mem_dedup, List.mem_filterMap] at hn
  obtain ⟨e, he, h⟩ := hn
  unfold allSteps
  rw [mem_allStepsOf]
  exact ⟨e.1, List.mem_map.2 ⟨e, List.mem_of_mem_filter he, rfl⟩, h⟩

theorem pruneDs_ops (fs : FS δ) (kd : Option Nat) :
    ∀ op ∈ pruneDsOps fs kd, ∃ s ∈ (dsSteps fs).dropLast, ∃ f, dsPrefix.isPrefixOf f = true ∧
      op = .rm (ckptName s) f := by
  intro op hop
  unfold pruneDsOps at hop
  rcases kd with _ | _ | k
  · simp [truthy] at hop
  · simp [truthy] at hop
  · simp only [truthy, List.mem_flatMap] at hop
    obtain ⟨s, hs, hop⟩ := hop
    refine ⟨s, take_subset_dropLast _ k hs, ?_⟩
    unfold removeDsOps at hop
    split_ifs at hop with hp
    · simp at hop
    · cases hg : PyDict.get fs (ckptName s) with
      | none => rw [hg] at hop; simp at hop
      | some d =>
        rw [hg] at hop
        obtain ⟨f, hf, rfl⟩ := List.mem_map.1 hop
        exact ⟨f, (List.mem_filter.1 hf).2, rfl⟩

section policy
variable {α : Type} [LinearOrder α] [BoundedOrder α]

theorem canon_of_sub (a b : FS δ) (h : ∀ nm, (PyDict.get b nm).isSome → (PyDict.get a nm).isSome)
    (ha : Canon a) : Canon b := fun nm hn => ha nm (h nm hn)

/-- All operations of pruning remove things of steps below the latest one. -/
theorem pruneOps_are (pol : Policy α) (kd : Option Nat) (fs : FS δ) (hw : PyDict.WF fs) (hc : Canon fs)
    (M : Nat) (hM : (PyDict.get fs (ckptName M)).isSome)
    (hmax : ∀ n, (PyDict.get fs (ckptName n)).isSome → n ≤ M) :
    ∀ op ∈ pruneOps pol kd fs, PruneOp M op := by
  have hlast : (allSteps fs).getLast? = some M := by
    have hs := allSteps_sorted fs hw hc
    have hm := (mem_allSteps fs hc M).2 hM
    have hle : ∀ n ∈ allSteps fs, n ≤ M := fun n hn => hmax n ((mem_allSteps fs hc n).1 hn)
    generalize allSteps fs = l at hs hm hle
    rcases List.eq_nil_or_concat' l with rfl | ⟨t, x, rfl⟩
    · simp at hm
    · simp only [List.getLast?_append, List.getLast?_singleton, Option.some_or, Option.some.injEq]
      have h1 := hle x (by simp)
      rcases List.mem_append.1 hm with h | h
      · have := (List.pairwise_append.1 hs).2.2 M h x (by simp); omega
      · exact (List.mem_singleton.1 h).symm
  have h1 : ∀ op ∈ (removeCkpts fs (removalList pol (allSteps fs))).1, PruneOp M op := by
    intro op hop
    obtain ⟨s, hs, h⟩ := removeCkpts_ops fs _ op hop
    have := dropLast_lt (allSteps_sorted fs hw hc) hlast s (removalList_sub pol _ hs)
    exact ⟨s, by omega, h⟩
  unfold pruneOps
  dsimp only
  split_ifs with hok
  · intro op hop
    rcases List.mem_append.1 hop with hop | hop
    · exact h1 op hop
    · set fs2 := runOps fs (removeCkpts fs (removalList pol (allSteps fs))).1
      obtain ⟨s, hs, f, _, rfl⟩ := pruneDs_ops fs2 kd op hop
      have h2 := prune_run_get M fs _ h1
      have hc2 : Canon fs2 := canon_of_sub fs fs2 h2.2 hc
      refine ⟨s, ?_, Or.inl ⟨f, rfl⟩⟩
      cases hl : (dsSteps fs2).getLast? with
      | none =>
        rw [List.getLast?_eq_none_iff] at hl
        rw [hl] at hs; simp at hs
      | some m =>
        have := dropLast_lt (dsSteps_sorted fs2) hl s hs
        have hm := dsSteps_sub fs2 (List.mem_of_getLast? hl)
        have := hmax m (h2.2 _ ((mem_allSteps fs2 hc2 m).1 hm))
        omega
  · exact h1

/-! ### The invariant of histories -/

structure Inv (st : St δ) : Prop where
  wf : PyDict.WF st.fs
  canon : Canon st.fs
  valid : ∀ j ∈ st.log, Valid j
  src : ∀ n, (PyDict.get st.fs (ckptName n)).isSome → ∃ j ∈ st.log, j.step = n
  latest : st.log = [] ∨ ∃ M d j, PyDict.get st.fs (ckptName M) = some d ∧
    lastSave st.log M = some j ∧ Complete d j ∧ ∀ j' ∈ st.log, j'.step ≤ M

theorem inv_empty : Inv (⟨[], []⟩ : St δ) where
  wf := by simp [PyDict.WF, PyDict.keys]
  canon := by intro nm h; simp [PyDict.get] at h
  valid := by simp
  src := by intro n h; simp [PyDict.get] at h
  latest := Or.inl rfl

/-- Directory changes outside checkpoint names keep the invariant. -/
theorem inv_congr (st : St δ) (hi : Inv st) (fs : FS δ) (hw : PyDict.WF fs)
    (hg : ∀ n, PyDict.get fs (ckptName n) = PyDict.get st.fs (ckptName n))
    (hc : Canon fs) : Inv ⟨fs, st.log⟩ where
  wf := hw
  canon := hc
  valid := hi.valid
  src := by intro n h; simp only [hg n] at h; exact hi.src n h
  latest := by
    rcases hi.latest with h | ⟨M, d, j, h1, h2, h3, h4⟩
    · exact Or.inl h
    · exact Or.inr ⟨M, d, j, (hg M).trans h1, h2, h3, h4⟩

theorem inv_prune (st : St δ) (hi : Inv st) (M : Nat) (ops : List (Op δ)) (h : ∀ op ∈ ops, PruneOp M op)
    (hM : ∀ j ∈ st.log, j.step ≤ M) (hMp : (PyDict.get st.fs (ckptName M)).isSome) : Inv ⟨runOps st.fs ops, st.log⟩ where
  wf := wf_runOps _ hi.wf _
  canon := canon_of_sub st.fs _ (prune_run_get M st.fs ops h).2 hi.canon
  valid := hi.valid
  src := fun n hn => hi.src n ((prune_run_get M st.fs ops h).2 _ hn)
  latest := by
    rcases hi.latest with h' | ⟨M', d, j, h1, h2, h3, h4⟩
    · exact Or.inl h'
    · obtain ⟨jm, hjm, hjs⟩ := hi.src M hMp
      have e1 := h4 jm hjm
      have e2 : M' ≤ M := by
        have := List.mem_of_find?_eq_some h2
        have hs := List.find?_some h2
        simp only [decide_eq_true_eq] at hs
        have := hM j this
        omega
      have : M' = M := by omega
      subst this
      exact Or.inr ⟨M', d, j, (prune_run_get M' st.fs ops h).1.trans h1, h2, h3, h4⟩

theorem inv_commit (st : St δ) (hi : Inv st) (job : Job δ) (hv : Valid job)
    (hnew : PyDict.has st.fs (ckptName job.step) = false) :
    Inv ⟨runOps st.fs (writeOps job), job :: st.log⟩ where
  wf := wf_runOps _ hi.wf _
  canon := by
    intro nm hn n hs
    simp only [get_writeOps] at hn
    split_ifs at hn with h1 h2
    · subst h1
      rw [stepOfName_ckptName] at hs
      cases hs; rfl
    · simp at hn
    · exact hi.canon nm hn n hs
  valid := by
    intro j hj
    rcases List.mem_cons.1 hj with rfl | hj
    · exact hv
    · exact hi.valid j hj
  src := by
    intro n hn
    simp only [get_writeOps] at hn
    split_ifs at hn with h1 h2
    · exact ⟨job, by simp, (ckptName_inj h1).symm⟩
    · simp at hn
    · obtain ⟨j, hj, h⟩ := hi.src n hn
      exact ⟨j, List.mem_cons_of_mem _ hj, h⟩
  latest := by
    right
    have hself : PyDict.get (runOps st.fs (writeOps job)) (ckptName job.step) = some (newDir st.fs job) := by
      rw [get_writeOps, if_pos rfl]
    rcases hi.latest with h | ⟨M, d, j, h1, h2, h3, h4⟩
    · refine ⟨job.step, newDir st.fs job, job, hself, by simp [lastSave], newDir_complete _ _ hv, ?_⟩
      intro j' hj'
      rw [h] at hj'
      simp at hj'; rw [hj']
    · have hne : M ≠ job.step := by
        rintro rfl
        unfold PyDict.has at hnew
        rw [h1] at hnew; simp at hnew
      rcases Nat.lt_or_gt_of_ne hne with hlt | hlt
      · refine ⟨job.step, newDir st.fs job, job, hself, by simp [lastSave], newDir_complete _ _ hv, ?_⟩
        intro j' hj'
        rcases List.mem_cons.1 hj' with rfl | hj'
        · exact le_rfl
        · have := h4 j' hj'; omega
      · refine ⟨M, d, j, ?_, ?_, h3, ?_⟩
        · rw [get_writeOps, if_neg (fun h => hne (ckptName_inj h)),
            if_neg (ckptName_ne_tmp _ _ _), h1]
        · unfold lastSave at h2 ⊢
          rw [List.find?_cons]
          have : decide (job.step = M) = false := by simp; omega
          rw [this]; exact h2
        · intro j' hj'
          rcases List.mem_cons.1 hj' with rfl | hj'
          · omega
          · exact h4 j' hj'

theorem canon_tmp_prefix (fs : FS δ) (hc : Canon fs) (job : Job δ) (c : Nat) (h : c < (writeOps job).length) :
    Canon (runOps fs ((writeOps job).take c)) := by
  intro nm hn n hs
  by_cases hne : nm = tmpName job.step job.stamp
  · rw [hne, stepOfName_tmp] at hs; cases hs
  · rw [get_tmp_prefix fs job c h nm hne] at hn
    exact hc nm hn n hs

theorem valid_files_ne_pinned (j : Job δ) (hv : Valid j) (f : FName) (x : δ) (h : (f, x) ∈ j.files) :
    f ≠ pinnedFile := by
  have h1 := hv.1 f x h
  have h2 := List.mem_of_mem_filter (List.mem_of_getLast? h1)
  exact hv.2 _ h2

/-- A change of directories that keeps every file but the pin marker. -/
theorem inv_pinlike (st : St δ) (hi : Inv st) (fs : FS δ) (hw : PyDict.WF fs)
    (hs : ∀ nm, (PyDict.get fs nm).isSome = (PyDict.get st.fs nm).isSome)
    (hg : ∀ nm d, PyDict.get st.fs nm = some d → ∃ d', PyDict.get fs nm = some d' ∧
      ∀ f, f ≠ pinnedFile → PyDict.get d' f = PyDict.get d f) : Inv ⟨fs, st.log⟩ where
  wf := hw
  canon := canon_of_sub st.fs fs (fun nm h => by rw [← hs]; exact h) hi.canon
  valid := hi.valid
  src := by intro n h; simp only [hs] at h; exact hi.src n h
  latest := by
    rcases hi.latest with h | ⟨M, d, j, h1, h2, h3, h4⟩
    · exact Or.inl h
    · obtain ⟨d', h5, h6⟩ := hg _ _ h1
      have hv := hi.valid j (List.mem_of_find?_eq_some h2)
      refine Or.inr ⟨M, d', j, h5, h2, ?_, h4⟩
      intro f x hf
      rw [h6 f (valid_files_ne_pinned j hv f x hf)]
      exact h3 f x hf

theorem pin_effect (fs : FS δ) (s : Nat) :
    (∀ nm, (PyDict.get (pin fs s) nm).isSome = (PyDict.get fs nm).isSome) ∧
    ∀ nm d, PyDict.get fs nm = some d → ∃ d', PyDict.get (pin fs s) nm = some d' ∧
      ∀ f, f ≠ pinnedFile → PyDict.get d' f = PyDict.get d f := by
  unfold pin
  refine ⟨?_, ?_⟩
  · intro nm
    rw [get_write]
    split_ifs with h
    · subst h; simp
    · rfl
  · intro nm d hd
    rw [get_write]
    split_ifs with h
    · subst h
      rw [hd]
      refine ⟨_, rfl, ?_⟩
      intro f hf
      rw [PyDict.get_set, if_neg (fun h => hf h.symm)]
    · exact ⟨d, hd, fun _ _ => rfl⟩

theorem unpin_effect (fs : FS δ) (s : Nat) :
    (∀ nm, (PyDict.get (unpin fs s) nm).isSome = (PyDict.get fs nm).isSome) ∧
    ∀ nm d, PyDict.get fs nm = some d → ∃ d', PyDict.get (unpin fs s) nm = some d' ∧
      ∀ f, f ≠ pinnedFile → PyDict.get d' f = PyDict.get d f := by
  unfold unpin
  split_ifs with hp
  · refine ⟨?_, ?_⟩
    · intro nm
      rw [get_rm]
      split_ifs with h
      · subst h; simp
      · rfl
    · intro nm d hd
      rw [get_rm]
      split_ifs with h
      · subst h
        rw [hd]
        refine ⟨_, rfl, ?_⟩
        intro f hf
        rw [PyDict.get_pop, if_neg (fun h => hf h.symm)]
      · exact ⟨d, hd, fun _ _ => rfl⟩
  · exact ⟨fun _ => rfl, fun nm d h => ⟨d, h, fun _ _ => rfl⟩⟩

theorem wf_pin (fs : FS δ) (h : PyDict.WF fs) (s : Nat) : PyDict.WF (pin fs s) := wf_applyOp _ h _
theorem wf_unpin (fs : FS δ) (h : PyDict.WF fs) (s : Nat) : PyDict.WF (unpin fs s) := by
  unfold unpin
  split_ifs
  · exact wf_applyOp _ h _
  · exact h

/-- The executed part of a save is a part of the writing, or all of the writing and
a part of the pruning. -/
theorem executed_cases (pol : Policy α) (kd : Option Nat) (fs : FS δ) (job : Job δ) (crash : Option Nat)
    (hnew : PyDict.has fs (ckptName job.step) = false) :
    (∃ c, c < (writeOps job).length ∧ crash = some c ∧
      executed (saveOps pol kd fs job) crash = (writeOps job).take c) ∨
    (∃ p, executed (saveOps pol kd fs job) crash = writeOps job ++
        executed (pruneOps pol kd (runOps fs (writeOps job))) p ∧
      (crash = none ∧ p = none ∨ ∃ c, crash = some ((writeOps job).length + c) ∧ p = some c)) := by
  have e : saveOps pol kd fs job = writeOps job ++ pruneOps pol kd (runOps fs (writeOps job)) := by
    unfold saveOps; rw [if_neg (by simp [hnew])]
  rw [e]
  cases crash with
  | none => exact Or.inr ⟨none, rfl, Or.inl ⟨rfl, rfl⟩⟩
  | some c =>
    by_cases hc : c < (writeOps job).length
    · left
      refine ⟨c, hc, rfl, ?_⟩
      simp only [executed]
      rw [List.take_append_of_le_length (by omega)]
    · right
      refine ⟨some (c - (writeOps job).length), ?_, Or.inr ⟨c - (writeOps job).length, ?_, rfl⟩⟩
      · simp only [executed]
        rw [List.take_append, List.take_of_length_le (by omega)]
      · congr 1; omega

theorem executed_sub (ops : List (Op δ)) (c : Option Nat) : executed ops c ⊆ ops := by
  cases c with
  | none => exact List.Subset.refl _
  | some c => exact List.take_subset _ _

theorem execEv_skip (st : St δ) (pol : Policy α) (kd : Option Nat) (job : Job δ) (crash : Option Nat)
    (h : PyDict.has st.fs (ckptName job.step) = true) : execEv st (Ev.save pol kd job crash) = st := by
  have e : executed (saveOps pol kd st.fs job) crash = [] := by
    unfold saveOps; rw [if_pos h]; cases crash <;> simp [executed]
  simp only [execEv, e, h]
  rfl

theorem inv_execEv (st : St δ) (hi : Inv st) (ev : Ev δ α)
    (hv : ∀ pol kd j c, ev = Ev.save pol kd j c → Valid j) : Inv (execEv st ev) := by
  cases ev with
  | pin s => exact inv_pinlike st hi _ (wf_pin _ hi.wf s) (pin_effect st.fs s).1 (pin_effect st.fs s).2
  | unpin s => exact inv_pinlike st hi _ (wf_unpin _ hi.wf s) (unpin_effect st.fs s).1 (unpin_effect st.fs s).2
  | save pol kd job crash =>
    cases hnew : PyDict.has st.fs (ckptName job.step) with
    | true => rw [execEv_skip st pol kd job crash hnew]; exact hi
    | false =>
      have hvj := hv pol kd job crash rfl
      rcases executed_cases pol kd st.fs job crash hnew with ⟨c, hc, _, he⟩ | ⟨p, he, _⟩
      · simp only [execEv, he, hnew]
        rw [if_neg (by simp; omega)]
        refine inv_congr st hi _ (wf_runOps _ hi.wf _) ?_ (canon_tmp_prefix _ hi.canon _ _ hc)
        intro n
        exact get_tmp_prefix _ _ _ hc _ (ckptName_ne_tmp _ _ _)
      · simp only [execEv, he, hnew]
        rw [if_pos (by simp), runOps_append]
        have h1 := inv_commit st hi job hvj hnew
        obtain ⟨M, d, j, hM1, hM2, hM3, hM4⟩ := h1.latest.resolve_left (by simp)
        have hmax : ∀ n, (PyDict.get (runOps st.fs (writeOps job)) (ckptName n)).isSome → n ≤ M := by
          intro n hn
          obtain ⟨j, hj, rfl⟩ := h1.src n hn
          exact hM4 j hj
        refine inv_prune ⟨runOps st.fs (writeOps job), job :: st.log⟩ h1 M _ ?_ hM4 (by simp [hM1])
        intro op hop
        exact pruneOps_are pol kd _ h1.wf h1.canon M (by simp [hM1]) hmax op (executed_sub _ _ hop)

theorem inv_foldl (evs : List (Ev δ α)) (st : St δ) (hi : Inv st) (hv : ValidHistory evs) :
    Inv (evs.foldl execEv st) := by
  induction evs generalizing st with
  | nil => exact hi
  | cons ev evs ih =>
    refine ih _ (inv_execEv st hi ev ?_) (fun pol kd j c h => hv pol kd j c (List.mem_cons_of_mem _ h))
    rintro pol kd j c rfl
    exact hv pol kd j c (by simp)

theorem inv_history (evs : List (Ev δ α)) (hv : ValidHistory evs) : Inv (history evs) :=
  inv_foldl evs _ inv_empty hv

/-! ### Full effect of an uncrashed removal -/

theorem get_rmtree (fs : FS δ) (n nm : Name) (d : Dir δ) :
    PyDict.get (runOps fs (rmtreeOps n d)) nm = if nm = n then none else PyDict.get fs nm := by
  unfold rmtreeOps
  rw [runOps_append, runOps_cons]
  simp only [runOps, List.foldl_nil]
  rw [get_rmdir]
  split_ifs with h
  · rfl
  · induction d generalizing fs with
    | nil => rfl
    | cons e d ih =>
      simp only [List.map_cons, List.foldl_cons]
      rw [ih, get_rm, if_neg h]

theorem removeCkpts_effect (fs : FS δ) (ss : List Nat) (hnd : ss.Nodup)
    (hp : ∀ s ∈ ss, (PyDict.get fs (ckptName s)).isSome) :
    (removeCkpts fs ss).2 = true ∧
    (∀ nm, (∃ s ∈ ss, nm = ckptName s ∧ isPinned fs nm = false) →
      PyDict.get (runOps fs (removeCkpts fs ss).1) nm = none) ∧
    (∀ nm, ¬ (∃ s ∈ ss, nm = ckptName s ∧ isPinned fs nm = false) →
      PyDict.get (runOps fs (removeCkpts fs ss).1) nm = PyDict.get fs nm) := by
  induction ss generalizing fs with
  | nil => simp [removeCkpts, runOps]
  | cons s rest ih =>
    rw [List.nodup_cons] at hnd
    unfold removeCkpts
    cases hpin : isPinned fs (ckptName s) with
    | true =>
      simp only [if_true]
      have h1 := ih fs hnd.2 (fun t ht => hp t (List.mem_cons_of_mem _ ht))
      refine ⟨h1.1, ?_, ?_⟩
      · rintro nm ⟨t, ht, rfl, h⟩
        rcases List.mem_cons.1 ht with rfl | ht
        · rw [hpin] at h; cases h
        · exact h1.2.1 _ ⟨t, ht, rfl, h⟩
      · intro nm hn
        exact h1.2.2 nm (fun ⟨t, ht, h⟩ => hn ⟨t, List.mem_cons_of_mem _ ht, h⟩)
    | false =>
      simp only [Bool.false_eq_true, if_false]
      cases hg : PyDict.get fs (ckptName s) with
      | none => have := hp s (by simp); rw [hg] at this; simp at this
      | some d =>
        simp only
        set fs1 := runOps fs (rmtreeOps (ckptName s) d) with hfs1
        have hget : ∀ nm, PyDict.get fs1 nm = if nm = ckptName s then none else PyDict.get fs nm :=
          fun nm => get_rmtree fs _ nm d
        have hp1 : ∀ t ∈ rest, (PyDict.get fs1 (ckptName t)).isSome := by
          intro t ht
          have hne : t ≠ s := by rintro rfl; exact hnd.1 ht
          rw [hget, if_neg (fun h => hne (ckptName_inj h))]
          exact hp t (List.mem_cons_of_mem _ ht)
        have hpn : ∀ nm, nm ≠ ckptName s → isPinned fs1 nm = isPinned fs nm := by
          intro nm hne
          unfold isPinned
          rw [hget, if_neg hne]
        obtain ⟨i1, i2, i3⟩ := ih fs1 hnd.2 hp1
        rw [runOps_append, ← hfs1]
        refine ⟨i1, ?_, ?_⟩
        · rintro nm ⟨t, ht, rfl, h⟩
          by_cases hts : t = s
          · subst hts
            by_cases hex : ∃ s_1 ∈ rest, ckptName t = ckptName s_1 ∧ isPinned fs1 (ckptName t) = false
            · exact i2 _ hex
            · rw [i3 _ hex, hget, if_pos rfl]
          · have ht' : t ∈ rest := by
              rcases List.mem_cons.1 ht with h | h
              · exact absurd h hts
              · exact h
            exact i2 _ ⟨t, ht', rfl, by rw [hpn _ (fun h => hts (ckptName_inj h))]; exact h⟩
        · intro nm hn
          have hne : nm ≠ ckptName s := by
            rintro rfl; exact hn ⟨s, by simp, rfl, hpin⟩
          rw [i3 nm, hget, if_neg hne]
          rintro ⟨t, ht, h1, h2⟩
          rw [hpn nm hne] at h2
          exact hn ⟨t, List.mem_cons_of_mem _ ht, h1, h2⟩

/-- Removing dataset files keeps all directories and all other files. -/
theorem dsOps_effect (fs : FS δ) (ops : List (Op δ))
    (h : ∀ op ∈ ops, ∃ n f, dsPrefix.isPrefixOf f = true ∧ op = .rm n f) :
    (∀ nm, (PyDict.get (runOps fs ops) nm).isSome = (PyDict.get fs nm).isSome) ∧
    ∀ nm d, PyDict.get fs nm = some d → ∃ d', PyDict.get (runOps fs ops) nm = some d' ∧
      ∀ f, ¬ (dsPrefix <+: f) → PyDict.get d' f = PyDict.get d f := by
  induction ops generalizing fs with
  | nil => exact ⟨fun _ => rfl, fun nm d h => ⟨d, h, fun _ _ => rfl⟩⟩
  | cons op ops ih =>
    obtain ⟨n, f, hf, rfl⟩ := h op (by simp)
    rw [runOps_cons]
    obtain ⟨h1, h2⟩ := ih (applyOp fs (.rm n f)) (fun o ho => h o (List.mem_cons_of_mem _ ho))
    refine ⟨?_, ?_⟩
    · intro nm
      rw [h1, get_rm]
      split_ifs with hn
      · subst hn; simp
      · rfl
    · intro nm d hd
      by_cases hn : nm = n
      · subst hn
        obtain ⟨d', h3, h4⟩ := h2 nm (PyDict.pop d f) (by rw [get_rm, if_pos rfl, hd]; rfl)
        refine ⟨d', h3, ?_⟩
        intro g hg
        rw [h4 g hg, PyDict.get_pop, if_neg]
        rintro rfl
        exact hg (List.isPrefixOf_iff_prefix.1 hf)
      · exact h2 nm d (by rw [get_rm, if_neg hn, hd])

theorem removalList_nodup (pol : Policy α) (l : List Nat) (hl : l.Nodup) : (removalList pol l).Nodup := by
  cases pol with
  | newest keep =>
    unfold removalList
    rcases keep with _ | _ | k
    · simp [truthy]
    · simp [truthy]
    · exact hl.sublist (List.take_sublist _ _)
  | best keep mm kw period metric =>
    unfold removalList
    rcases keep with _ | _ | k
    · simp [truthy]
    · simp [truthy]
    · simp only [truthy]
      have key : ∀ ex : List Nat, ex.Nodup →
          (if ex.length ≤ k + 1 + 1 then [] else
            (sortByMetric mm metric (if kw then ex.dropLast.filter (fun s => (metric s).isSome) else ex.dropLast)
              ++ ex.getLast?.toList).take
              ((if kw then ex.dropLast.filter (fun s => (metric s).isSome) else ex.dropLast).length - (k + 1))).Nodup := by
        intro ex hex
        have hd : ex.dropLast.Nodup := hex.sublist (List.dropLast_sublist _)
        split_ifs with h1 h2
        · simp
        · rw [List.take_append_of_le_length (by rw [(perm_sortByMetric mm metric _).length_eq]; omega)]
          exact ((perm_sortByMetric mm metric _).nodup_iff.2 (hd.filter _)).sublist (List.take_sublist _ _)
        · rw [List.take_append_of_le_length (by rw [(perm_sortByMetric mm metric _).length_eq]; omega)]
          exact ((perm_sortByMetric mm metric _).nodup_iff.2 hd).sublist (List.take_sublist _ _)
      unfold existingSteps
      rcases period with _ | _ | p
      · exact key l hl
      · exact key l hl
      · refine key (filterPeriod (p + 1) l) ?_
        unfold filterPeriod
        rcases List.eq_nil_or_concat' l with rfl | ⟨t, x, rfl⟩
        · simp
        · simp only [List.getLast?_append, List.getLast?_singleton, Option.some_or, List.dropLast_concat]
          exact hl.sublist (List.Sublist.append List.filter_sublist (List.Sublist.refl _))

/-- Effect of a full pruning pass. -/
theorem pruneOps_effect (pol : Policy α) (kd : Option Nat) (fs : FS δ) (hw : PyDict.WF fs) (hc : Canon fs) :
    (removeCkpts fs (removalList pol (allSteps fs))).2 = true ∧
    (∀ nm, (PyDict.get (runOps fs (pruneOps pol kd fs)) nm).isSome ↔
      (PyDict.get fs nm).isSome ∧
      ¬ (∃ s ∈ removalList pol (allSteps fs), nm = ckptName s ∧ isPinned fs nm = false)) ∧
    (∀ nm d', PyDict.get (runOps fs (pruneOps pol kd fs)) nm = some d' → ∃ d, PyDict.get fs nm = some d ∧
      ∀ f, ¬ (dsPrefix <+: f) → PyDict.get d' f = PyDict.get d f) ∧
    (truthy kd = none → ∀ nm d', PyDict.get (runOps fs (pruneOps pol kd fs)) nm = some d' →
      PyDict.get fs nm = some d') := by
  have hn := allSteps_nodup fs hw hc
  obtain ⟨r1, r2, r3⟩ := removeCkpts_effect fs (removalList pol (allSteps fs)) (removalList_nodup pol _ hn)
    (fun s hs => (mem_allSteps fs hc s).1 (List.dropLast_subset _ (removalList_sub pol _ hs)))
  have e : pruneOps pol kd fs = (removeCkpts fs (removalList pol (allSteps fs))).1 ++
      pruneDsOps (runOps fs (removeCkpts fs (removalList pol (allSteps fs))).1) kd := by
    unfold pruneOps; rw [if_pos r1]
  rw [e, runOps_append]
  set fs2 := runOps fs (removeCkpts fs (removalList pol (allSteps fs))).1
  obtain ⟨d1, d2⟩ := dsOps_effect fs2 (pruneDsOps fs2 kd) (by
    intro op hop
    obtain ⟨s, _, f, hf, h⟩ := pruneDs_ops fs2 kd op hop
    exact ⟨_, f, hf, h⟩)
  refine ⟨r1, ?_, ?_, ?_⟩
  · intro nm
    rw [d1]
    by_cases h : ∃ s ∈ removalList pol (allSteps fs), nm = ckptName s ∧ isPinned fs nm = false
    · rw [r2 nm h]; simp [h]
    · rw [r3 nm h]; simp [h]
  · intro nm d' hd'
    have hs : (PyDict.get fs2 nm).isSome := by rw [← d1, hd']; rfl
    obtain ⟨d, hd⟩ := Option.isSome_iff_exists.1 hs
    obtain ⟨d'', h3, h4⟩ := d2 nm d hd
    rw [hd'] at h3; cases h3
    refine ⟨d, ?_, h4⟩
    by_cases h : ∃ s ∈ removalList pol (allSteps fs), nm = ckptName s ∧ isPinned fs nm = false
    · rw [r2 nm h] at hd; cases hd
    · rw [← r3 nm h]; exact hd
  · intro hk nm d' hd'
    have : pruneDsOps fs2 kd = [] := by unfold pruneDsOps; rw [hk]
    rw [this] at hd'
    change PyDict.get fs2 nm = some d' at hd'
    by_cases h : ∃ s ∈ removalList pol (allSteps fs), nm = ckptName s ∧ isPinned fs nm = false
    · rw [r2 nm h] at hd'; cases hd'
    · rw [← r3 nm h]; exact hd'

end policy

end Verif.Ckpt
