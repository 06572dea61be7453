import Verif.Lemmas.CkptBest
/-
Further invariants of checkpoint histories.
-/
namespace Verif.Ckpt
open Verif Verif.Ckpt.Spec

variable {δ : Type}

/-! ### Pins only ever sit in checkpoint directories -/

def NoPinOutside (fs : FS δ) : Prop :=
  ∀ nm d, stepOfName nm = none → PyDict.get fs nm = some d → PyDict.get d pinnedFile = none

theorem nopin_applyOp (fs : FS δ) (h : NoPinOutside fs) (op : Op δ)
    (hop : match op with
      | .mkdir _ => True
      | .write n f _ => f ≠ pinnedFile ∨ (stepOfName n).isSome
      | .rename _ b => (stepOfName b).isSome
      | .rm _ _ => True
      | .rmdir _ => True) : NoPinOutside (applyOp fs op) := by
  intro nm d hs hg
  cases op with
  | mkdir n =>
    rw [get_mkdir] at hg
    split_ifs at hg with h1
    · subst h1
      cases hg
      cases hx : PyDict.get fs nm with
      | none => simp [PyDict.get]
      | some d => exact h nm d hs hx
    · exact h nm d hs hg
  | write n f c =>
    rw [get_write] at hg
    split_ifs at hg with h1
    · subst h1
      obtain ⟨d0, h2, rfl⟩ := Option.map_eq_some_iff.1 hg
      rcases hop with hop | hop
      · rw [PyDict.get_set, if_neg hop]; exact h _ _ hs h2
      · rw [hs] at hop; simp at hop
    · exact h nm d hs hg
  | rename a b =>
    simp only [applyOp] at hg
    cases hx : PyDict.get fs a with
    | none => rw [hx] at hg; exact h nm d hs hg
    | some d0 =>
      rw [hx] at hg
      simp only [PyDict.get_set, PyDict.get_pop] at hg
      split_ifs at hg with h1 h2
      · subst h1; simp only [hs] at hop; simp at hop
      · exact h nm d hs hg
  | rm n f =>
    rw [get_rm] at hg
    split_ifs at hg with h1
    · subst h1
      obtain ⟨d0, h2, rfl⟩ := Option.map_eq_some_iff.1 hg
      rw [PyDict.get_pop]
      split_ifs
      · rfl
      · exact h _ _ hs h2
    · exact h nm d hs hg
  | rmdir n =>
    rw [get_rmdir] at hg
    split_ifs at hg with h1
    exact h nm d hs hg

theorem nopin_runOps (fs : FS δ) (h : NoPinOutside fs) (ops : List (Op δ))
    (hop : ∀ op ∈ ops, match op with
      | .mkdir _ => True
      | .write n f _ => f ≠ pinnedFile ∨ (stepOfName n).isSome
      | .rename _ b => (stepOfName b).isSome
      | .rm _ _ => True
      | .rmdir _ => True) : NoPinOutside (runOps fs ops) := by
  induction ops generalizing fs with
  | nil => exact h
  | cons op ops ih =>
    exact ih _ (nopin_applyOp fs h op (hop op (by simp))) (fun o ho => hop o (List.mem_cons_of_mem _ ho))

section policy
variable {α : Type} [LinearOrder α] [BoundedOrder α]

theorem pruneOps_form (pol : Policy α) (kd : Option Nat) (fs : FS δ) :
    ∀ op ∈ pruneOps pol kd fs, (∃ n f, op = .rm n f) ∨ ∃ n, op = .rmdir n := by
  have h1 : ∀ op ∈ (removeCkpts fs (removalList pol (allSteps fs))).1, (∃ n f, op = .rm n f) ∨ ∃ n, op = .rmdir n := by
    intro op hop
    obtain ⟨s, _, ⟨f, h⟩ | h⟩ := removeCkpts_ops fs _ op hop
    · exact Or.inl ⟨_, _, h⟩
    · exact Or.inr ⟨_, h⟩
  unfold pruneOps
  dsimp only
  split_ifs
  · intro op hop
    rcases List.mem_append.1 hop with hop | hop
    · exact h1 op hop
    · obtain ⟨s, _, f, _, h⟩ := pruneDs_ops _ kd op hop
      exact Or.inl ⟨_, _, h⟩
  · exact h1

theorem nopin_execEv (st : St δ) (h : NoPinOutside st.fs) (ev : Ev δ α)
    (hv : ∀ pol kd j c, ev = Ev.save pol kd j c → Valid j) : NoPinOutside (execEv st ev).fs := by
  cases ev with
  | pin s =>
    refine nopin_applyOp st.fs h (.write (ckptName s) pinnedFile none) ?_
    right; rw [stepOfName_ckptName]; rfl
  | unpin s =>
    simp only [execEv, unpin]
    split_ifs
    · exact nopin_applyOp st.fs h _ trivial
    · exact h
  | save pol kd job crash =>
    simp only [execEv]
    refine nopin_runOps _ h _ ?_
    intro op hop
    have hop := executed_sub _ _ hop
    unfold saveOps at hop
    split_ifs at hop
    · simp at hop
    rcases List.mem_append.1 hop with hop | hop
    · unfold writeOps at hop
      rcases List.mem_cons.1 hop with rfl | hop
      · trivial
      · rcases List.mem_append.1 hop with hop | hop
        · obtain ⟨w, hw, rfl⟩ := List.mem_map.1 hop
          exact Or.inl ((hv pol kd job crash rfl).2 w hw)
        · rw [List.mem_singleton] at hop
          subst hop
          simp only [stepOfName_ckptName]; rfl
    · rcases pruneOps_form pol kd _ op hop with ⟨n, f, rfl⟩ | ⟨n, rfl⟩ <;> trivial

theorem nopin_foldl (evs : List (Ev δ α)) (st : St δ) (h : NoPinOutside st.fs) (hv : ValidHistory evs) :
    NoPinOutside (evs.foldl execEv st).fs := by
  induction evs generalizing st with
  | nil => exact h
  | cons ev evs ih =>
    refine ih _ (nopin_execEv st h ev ?_) (fun pol kd j c h => hv pol kd j c (List.mem_cons_of_mem _ h))
    rintro pol kd j c rfl
    exact hv pol kd j c (by simp)

theorem nopin_history (evs : List (Ev δ α)) (hv : ValidHistory evs) : NoPinOutside (history evs).fs :=
  nopin_foldl evs _ (by intro nm d _ h; simp [PyDict.get] at h) hv

/-- A freshly saved checkpoint is not pinned. -/
theorem new_not_pinned (fs : FS δ) (h : NoPinOutside fs) (job : Job δ) (hv : Valid job) :
    isPinned (runOps fs (writeOps job)) (ckptName job.step) = false := by
  unfold isPinned
  rw [get_writeOps, if_pos rfl]
  simp only [PyDict.has, newDir, get_foldl_set]
  have : (job.writes.filter (fun w => decide (w.1 = pinnedFile))) = [] := by
    rw [List.filter_eq_nil_iff]
    intro w hw
    simp [hv.2 w hw]
  rw [this]
  simp only [List.getLast?_nil]
  cases hx : PyDict.get fs (tmpName job.step job.stamp) with
  | none => simp [PyDict.get]
  | some d => simp [h _ d (stepOfName_tmp _ _) hx]

theorem old_pinned (fs : FS δ) (job : Job δ) (n : Nat) (hn : n ≠ job.step) :
    isPinned (runOps fs (writeOps job)) (ckptName n) = isPinned fs (ckptName n) := by
  unfold isPinned
  rw [get_writeOps, if_neg (fun h => hn (ckptName_inj h)), if_neg (ckptName_ne_tmp _ _ _)]

/-! ### Pinned directories are left alone by pruning -/

theorem rm_other (fs : FS δ) (ops : List (Op δ)) (nm : Name) (h : ∀ op ∈ ops, ∃ n f, op = .rm n f ∧ n ≠ nm) :
    PyDict.get (runOps fs ops) nm = PyDict.get fs nm := by
  induction ops generalizing fs with
  | nil => rfl
  | cons op ops ih =>
    rw [runOps_cons, ih _ (fun o ho => h o (List.mem_cons_of_mem _ ho))]
    obtain ⟨n, f, rfl, hne⟩ := h op (by simp)
    rw [get_rm, if_neg (fun h => hne h.symm)]

theorem pruneOps_pinned (pol : Policy α) (kd : Option Nat) (fs : FS δ) (hw : PyDict.WF fs) (hc : Canon fs)
    (nm : Name) (hp : isPinned fs nm = true) :
    PyDict.get (runOps fs (pruneOps pol kd fs)) nm = PyDict.get fs nm := by
  have hn := allSteps_nodup fs hw hc
  obtain ⟨r1, r2, r3⟩ := removeCkpts_effect fs (removalList pol (allSteps fs)) (removalList_nodup pol _ hn)
    (fun s hs => (mem_allSteps fs hc s).1 (List.dropLast_subset _ (removalList_sub pol _ hs)))
  have e : pruneOps pol kd fs = (removeCkpts fs (removalList pol (allSteps fs))).1 ++
      pruneDsOps (runOps fs (removeCkpts fs (removalList pol (allSteps fs))).1) kd := by
    unfold pruneOps; rw [if_pos r1]
  rw [e, runOps_append]
  have h2 := r3 nm (by rintro ⟨s, _, _, h⟩; rw [hp] at h; cases h)
  rw [← h2]
  have hp2 : isPinned (runOps fs (removeCkpts fs (removalList pol (allSteps fs))).1) nm = true := by
    unfold isPinned at hp ⊢; rw [h2]; exact hp
  apply rm_other
  intro op hop
  generalize runOps fs (removeCkpts fs (removalList pol (allSteps fs))).1 = fs2 at hp2 hop
  unfold pruneDsOps at hop
  cases hk : truthy kd with
  | none => rw [hk] at hop; simp at hop
  | some k =>
    rw [hk] at hop
    simp only [List.mem_flatMap] at hop
    obtain ⟨s, hs, hop⟩ := hop
    unfold removeDsOps at hop
    split_ifs at hop with hps
    · simp at hop
    · have hne : ckptName s ≠ nm := by rintro rfl; exact hps hp2
      cases hg : PyDict.get fs2 (ckptName s) with
      | none => rw [hg] at hop; simp at hop
      | some d =>
        rw [hg] at hop
        obtain ⟨f, hf, rfl⟩ := List.mem_map.1 hop
        exact ⟨_, _, rfl, hne⟩

/-! ### All reported checkpoints are complete -/

/-- Every checkpoint directory has the files of its last save that satisfy `P`. -/
def AllHave (P : FName → Prop) (st : St δ) : Prop :=
  ∀ n d, PyDict.get st.fs (ckptName n) = some d → ∃ j, lastSave st.log n = some j ∧
    ∀ f x, (f, x) ∈ j.files → P f → PyDict.get d f = some (some x)

theorem allHave_execEv (P : FName → Prop) (st : St δ) (hi : Inv st) (ha : AllHave P st) (ev : Ev δ α)
    (hv : ∀ pol kd j c, ev = Ev.save pol kd j c → Valid j)
    (hp : ∀ pol kd j crash, ev = Ev.save pol kd j crash → ∀ p, 
      (crash = none ∧ p = none ∨ ∃ c, crash = some ((writeOps j).length + c) ∧ p = some c) →
      ∀ fs : FS δ, PyDict.WF fs → Canon fs → ∀ nm d', 
      PyDict.get (runOps fs (executed (pruneOps pol kd fs) p)) nm = some d' →
      ∃ d, PyDict.get fs nm = some d ∧ ∀ f, P f → PyDict.get d' f = PyDict.get d f) :
    AllHave P (execEv st ev) := by
  have pinlike : ∀ fs : FS δ, (∀ nm, (PyDict.get fs nm).isSome = (PyDict.get st.fs nm).isSome) →
      (∀ nm d, PyDict.get st.fs nm = some d → ∃ d', PyDict.get fs nm = some d' ∧
      ∀ f, f ≠ pinnedFile → PyDict.get d' f = PyDict.get d f) → AllHave P ⟨fs, st.log⟩ := by
    intro fs hs hg n d' hd'
    have : (PyDict.get st.fs (ckptName n)).isSome := by rw [← hs, hd']; rfl
    obtain ⟨d, hd⟩ := Option.isSome_iff_exists.1 this
    obtain ⟨d'', h1, h2⟩ := hg _ d hd
    rw [show PyDict.get fs (ckptName n) = some d' from hd'] at h1
    cases h1
    obtain ⟨j, hj, h3⟩ := ha n d hd
    refine ⟨j, hj, ?_⟩
    intro f x hf hP
    rw [h2 f (valid_files_ne_pinned j (hi.valid j (List.mem_of_find?_eq_some hj)) f x hf)]
    exact h3 f x hf hP
  cases ev with
  | pin s => exact pinlike _ (pin_effect st.fs s).1 (pin_effect st.fs s).2
  | unpin s => exact pinlike _ (unpin_effect st.fs s).1 (unpin_effect st.fs s).2
  | save pol kd job crash =>
    cases hnew : PyDict.has st.fs (ckptName job.step) with
    | true => rw [execEv_skip st pol kd job crash hnew]; exact ha
    | false =>
      have hvj := hv pol kd job crash rfl
      rcases executed_cases pol kd st.fs job crash hnew with ⟨c, hc, _, he⟩ | ⟨p, he, hcp⟩
      · simp only [execEv, he, hnew]
        rw [if_neg (by simp; omega)]
        intro n d hd
        rw [get_tmp_prefix _ _ _ hc _ (ckptName_ne_tmp _ _ _)] at hd
        exact ha n d hd
      · simp only [execEv, he, hnew]
        rw [if_pos (by simp), runOps_append]
        have h1 := inv_commit st hi job hvj hnew
        intro n d' hd'
        obtain ⟨d, hd, hsame⟩ := hp pol kd job crash rfl p hcp (runOps st.fs (writeOps job)) h1.wf h1.canon _ d' hd'
        rw [get_writeOps] at hd
        split_ifs at hd with e1 e2
        · cases hd
          have hjs := ckptName_inj e1
          refine ⟨job, by simp [lastSave, hjs], ?_⟩
          intro f x hf hP
          rw [hsame f hP]
          exact newDir_complete st.fs job hvj f x hf
        · obtain ⟨j, hj, h3⟩ := ha n d hd
          refine ⟨j, ?_, ?_⟩
          · unfold lastSave at hj ⊢
            rw [List.find?_cons]
            have : decide (job.step = n) = false := by
              simp only [decide_eq_false_iff_not]
              rintro rfl; exact e1 rfl
            rw [this]; exact hj
          · intro f x hf hP
            rw [hsame f hP]
            exact h3 f x hf hP

theorem allHave_foldl (P : FName → Prop) (evs : List (Ev δ α)) (st : St δ) (hi : Inv st) (ha : AllHave P st)
    (hv : ValidHistory evs)
    (hp : ∀ pol kd j crash, Ev.save pol kd j crash ∈ evs → ∀ p, 
      (crash = none ∧ p = none ∨ ∃ c, crash = some ((writeOps j).length + c) ∧ p = some c) →
      ∀ fs : FS δ, PyDict.WF fs → Canon fs → ∀ nm d', 
      PyDict.get (runOps fs (executed (pruneOps pol kd fs) p)) nm = some d' →
      ∃ d, PyDict.get fs nm = some d ∧ ∀ f, P f → PyDict.get d' f = PyDict.get d f) :
    AllHave P (evs.foldl execEv st) := by
  induction evs generalizing st with
  | nil => exact ha
  | cons ev evs ih =>
    refine ih (execEv st ev) (inv_execEv st hi ev ?_) (allHave_execEv P st hi ha ev ?_ ?_)
      (fun pol kd j c h => hv pol kd j c (List.mem_cons_of_mem _ h))
      (fun pol kd j c h => hp pol kd j c (List.mem_cons_of_mem _ h))
    · rintro pol kd j c rfl; exact hv pol kd j c (by simp)
    · rintro pol kd j c rfl; exact hv pol kd j c (by simp)
    · rintro pol kd j c rfl; exact hp pol kd j c (by simp)

/-- With no limits pruning does nothing. -/
theorem pruneOps_unlimited (pol : Policy α) (kd : Option Nat) (fs : FS δ)
    (hpol : match pol with
      | .newest k => k = none ∨ k = some 0
      | .best k _ _ _ _ => k = none ∨ k = some 0) (hkd : kd = none ∨ kd = some 0) :
    pruneOps pol kd fs = [] := by
  have h1 : removalList pol (allSteps fs) = [] := by
    cases pol with
    | newest k => rcases hpol with rfl | rfl <;> rfl
    | best k _ _ _ _ => rcases hpol with rfl | rfl <;> rfl
  unfold pruneOps
  rw [h1]
  simp only [removeCkpts, if_true, List.nil_append]
  unfold pruneDsOps
  rcases hkd with rfl | rfl <;> rfl

end policy
end Verif.Ckpt
