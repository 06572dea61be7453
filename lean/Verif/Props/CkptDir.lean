import Verif.Lemmas.CkptHist
/-
Properties C20, C21, C22 and C26: checkpoint histories, retention, restore.
-/
namespace Verif.Ckpt
open Verif Verif.Ckpt.Spec

variable {δ : Type}
section policy
variable {α : Type} [LinearOrder α] [BoundedOrder α]

theorem latest_iff (fs : FS δ) (hc : Canon fs) (n : Nat) : latestStep fs = some n ↔
    (PyDict.get fs (ckptName n)).isSome ∧ ∀ m, (PyDict.get fs (ckptName m)).isSome → m ≤ n := by
  have hs : (allSteps fs).Pairwise (· ≤ ·) := allStepsOf_sorted _
  have hm := mem_allSteps fs hc
  unfold latestStep latestOf
  change (allSteps fs).getLast? = some n ↔ _
  rw [← hm]
  simp only [← hm]
  generalize allSteps fs = l at hs
  rcases List.eq_nil_or_concat' l with rfl | ⟨t, x, rfl⟩
  · simp
  · simp only [List.getLast?_append, List.getLast?_singleton, Option.some_or, Option.some.injEq]
    rw [List.pairwise_append] at hs
    constructor
    · rintro rfl
      refine ⟨by simp, ?_⟩
      intro m hm
      rcases List.mem_append.1 hm with h | h
      · exact hs.2.2 m h x (by simp)
      · simp at h; omega
    · rintro ⟨h1, h2⟩
      have := h2 x (by simp)
      rcases List.mem_append.1 h1 with h | h
      · have := hs.2.2 n h x (by simp); omega
      · simp at h; omega

/-- C20: in every history of saves, crashes at any point, restarts, pins and
unpins, with either checkpointer and any retention settings, `latest_step` is the
largest step ever saved completely and its directory holds all files of that
save; it is `None` only if nothing was ever saved completely. -/
theorem C20_latest_complete (evs : List (Ev δ α)) (hv : ValidHistory evs) :
    (latestStep (history evs).fs = none ↔ (history evs).log = []) ∧
    ∀ n, latestStep (history evs).fs = some n →
      (∀ j ∈ (history evs).log, j.step ≤ n) ∧
      ∃ j d, lastSave (history evs).log n = some j ∧
        PyDict.get (history evs).fs (ckptName n) = some d ∧ Complete d j := by
  have hi := inv_history evs hv
  generalize history evs = st at hi
  rcases hi.latest with h | ⟨M, d, j, h1, h2, h3, h4⟩
  · have hnone : ∀ n, ¬ (PyDict.get st.fs (ckptName n)).isSome := by
      intro n hn
      obtain ⟨j, hj, _⟩ := hi.src n hn
      rw [h] at hj; simp at hj
    have : latestStep st.fs = none := by
      cases hl : latestStep st.fs with
      | none => rfl
      | some n => exact absurd ((latest_iff _ hi.canon n).1 hl).1 (hnone n)
    rw [this]
    exact ⟨by simp [h], by intro n hn; cases hn⟩
  · have hM : latestStep st.fs = some M := by
      rw [latest_iff _ hi.canon]
      refine ⟨by simp [h1], ?_⟩
      intro m hm
      obtain ⟨j', hj', rfl⟩ := hi.src m hm
      exact h4 j' hj'
    rw [hM]
    refine ⟨?_, ?_⟩
    · have : st.log ≠ [] := by
        intro h; unfold lastSave at h2; rw [h] at h2; simp at h2
      simp [this]
    · intro n hn
      cases hn
      exact ⟨h4, j, d, h2, h1, h3⟩

/-- C20: a save of a new largest step that reaches the rename becomes the latest
step, however much of the pruning is executed. -/
theorem C20_save_visible (evs : List (Ev δ α)) (hv : ValidHistory evs) (pol : Policy α) (kd : Option Nat)
    (job : Job δ) (hj : Valid job) (crash : Option Nat) (hc : ∀ c, crash = some c → (writeOps job).length ≤ c)
    (hbig : ∀ j ∈ (history evs).log, j.step < job.step) :
    latestStep (execEv (history evs) (.save pol kd job crash)).fs = some job.step ∧
    ∃ d, PyDict.get (execEv (history evs) (.save pol kd job crash)).fs (ckptName job.step) = some d ∧
      Complete d job := by
  have hi := inv_history evs hv
  have hnew : PyDict.has (history evs).fs (ckptName job.step) = false := by
    cases h : PyDict.has (history evs).fs (ckptName job.step) with
    | false => rfl
    | true =>
      obtain ⟨j, hj', h'⟩ := hi.src job.step h
      have := hbig j hj'; omega
  have hlog : (execEv (history evs) (.save pol kd job crash)).log = job :: (history evs).log := by
    rcases executed_cases pol kd (history evs).fs job crash hnew with ⟨c, h1, h2, _⟩ | ⟨p, he, _⟩
    · have := hc c h2; omega
    · simp only [execEv, he, hnew]
      rw [if_pos (by simp)]
  have hi2 : Inv (execEv (history evs) (.save pol kd job crash)) :=
    inv_execEv _ hi _ (by rintro _ _ _ _ h; cases h; exact hj)
  generalize execEv (history evs) (.save pol kd job crash) = st at hi2 hlog
  rcases hi2.latest with h | ⟨M, d, j, h1, h2, h3, h4⟩
  · rw [hlog] at h; cases h
  · have hM : M = job.step := by
      obtain ⟨j', hj', h5⟩ := hi2.src M (by simp [h1])
      have h6 := h4 job (by rw [hlog]; simp)
      rw [hlog] at hj'
      rcases List.mem_cons.1 hj' with rfl | hj'
      · exact h5.symm
      · have := hbig j' hj'; omega
    subst hM
    have hj' : j = job := by
      unfold lastSave at h2
      rw [hlog] at h2
      simpa using h2.symm
    subst hj'
    refine ⟨?_, d, h1, h3⟩
    rw [latest_iff _ hi2.canon]
    refine ⟨by simp [h1], ?_⟩
    intro m hm
    obtain ⟨j', hj', rfl⟩ := hi2.src m hm
    exact h4 j' hj'

/-- C20: with no crash inside the pruning after a rename, every reported step is a
complete checkpoint; dataset files may be missing only if their number is
limited.  (Missing from the full claim: crashes inside pruning, for which
it is false, see `C20_crash_while_pruning`.) -/
theorem C20_all_complete_partial (evs : List (Ev δ α)) (hv : ValidHistory evs) (hp : NoPruneCrash evs)
    (n : Nat) (hn : n ∈ allSteps (history evs).fs) :
    ∃ j d, lastSave (history evs).log n = some j ∧ PyDict.get (history evs).fs (ckptName n) = some d ∧
      ModelComplete d j ∧ (KeepsDs evs → Complete d j) := by
  have hi := inv_history evs hv
  rw [mem_allSteps _ hi.canon] at hn
  obtain ⟨d, hd⟩ := Option.isSome_iff_exists.1 hn
  have hcrash0 : ∀ pol kd j crash, Ev.save pol kd j crash ∈ evs → ∀ p : Option Nat,
      (crash = none ∧ p = none ∨ ∃ c, crash = some ((writeOps j).length + c) ∧ p = some c) →
      p = none ∨ p = some 0 := by
    rintro pol kd j crash hmem p (⟨_, h⟩ | ⟨c, h1, h2⟩)
    · exact Or.inl h
    · subst h1
      have := hp pol kd j _ hmem
      have : c = 0 := by omega
      subst this; exact Or.inr h2
  have hA : AllHave (fun f => ¬ (dsPrefix <+: f)) (history evs) := by
    refine allHave_foldl _ evs ⟨[], []⟩ inv_empty (by intro n d h; simp [PyDict.get] at h) hv ?_
    intro pol kd j crash hmem p hcp fs hw hc nm d' hd'
    rcases hcrash0 pol kd j crash hmem p hcp with rfl | rfl
    · exact (pruneOps_effect pol kd fs hw hc).2.2.1 nm d' hd'
    · exact ⟨d', hd', fun _ _ => rfl⟩
  obtain ⟨j, hj, h1⟩ := hA n d hd
  refine ⟨j, d, hj, hd, fun f x hf hne => h1 f x hf hne, ?_⟩
  intro hk
  have hB : AllHave (fun _ => True) (history evs) := by
    refine allHave_foldl _ evs ⟨[], []⟩ inv_empty (by intro n d h; simp [PyDict.get] at h) hv ?_
    intro pol kd j crash hmem p hcp fs hw hc nm d' hd'
    rcases hcrash0 pol kd j crash hmem p hcp with rfl | rfl
    · have ht : truthy kd = none := by rcases hk pol kd j crash hmem with rfl | rfl <;> rfl
      exact ⟨d', (pruneOps_effect pol kd fs hw hc).2.2.2 ht nm d' hd', fun _ _ => rfl⟩
    · exact ⟨d', hd', fun _ _ => rfl⟩
  obtain ⟨j', hj', h2⟩ := hB n d hd
  rw [hj] at hj'; cases hj'
  intro f x hf
  exact h2 f x hf trivial

/-- C20: without retention limits, at every crash point the reported steps are
exactly the completely saved ones, and all of them are complete. -/
theorem C20_keep_all (evs : List (Ev δ α)) (hv : ValidHistory evs) (hk : KeepsAll evs) (hd : KeepsDs evs) :
    (∀ n, n ∈ allSteps (history evs).fs ↔ ∃ j ∈ (history evs).log, j.step = n) ∧
    ∀ n ∈ allSteps (history evs).fs, ∃ j d, lastSave (history evs).log n = some j ∧
      PyDict.get (history evs).fs (ckptName n) = some d ∧ Complete d j := by
  have hi := inv_history evs hv
  have hB : AllHave (fun _ => True) (history evs) := by
    refine allHave_foldl _ evs ⟨[], []⟩ inv_empty (by intro n d h; simp [PyDict.get] at h) hv ?_
    intro pol kd j crash hmem p hcp fs hw hc nm d' hd'
    have e : pruneOps pol kd fs = [] := pruneOps_unlimited pol kd fs (hk pol kd j crash hmem) (hd pol kd j crash hmem)
    have e2 : executed (pruneOps pol kd fs) p = [] := by rw [e]; cases p <;> simp [executed]
    rw [e2] at hd'
    exact ⟨d', hd', fun _ _ => rfl⟩
  have hP : ∀ j ∈ (history evs).log, (PyDict.get (history evs).fs (ckptName j.step)).isSome := by
    have step : ∀ (evs : List (Ev δ α)) (st : St δ), KeepsAll evs → KeepsDs evs →
        (∀ j ∈ st.log, (PyDict.get st.fs (ckptName j.step)).isSome) →
        ∀ j ∈ (evs.foldl execEv st).log, (PyDict.get (evs.foldl execEv st).fs (ckptName j.step)).isSome := by
      intro evs
      induction evs with
      | nil => intro st _ _ h; exact h
      | cons ev evs ih =>
        intro st hk hd h
        refine ih _ (fun pol kd j c h => hk pol kd j c (List.mem_cons_of_mem _ h))
          (fun pol kd j c h => hd pol kd j c (List.mem_cons_of_mem _ h)) ?_
        cases ev with
        | pin s =>
          intro j hj
          change (PyDict.get (pin st.fs s) _).isSome
          rw [(pin_effect st.fs s).1]; exact h j hj
        | unpin s =>
          intro j hj
          change (PyDict.get (unpin st.fs s) _).isSome
          rw [(unpin_effect st.fs s).1]; exact h j hj
        | save pol kd job crash =>
          cases hnew : PyDict.has st.fs (ckptName job.step) with
          | true => rw [execEv_skip st pol kd job crash hnew]; exact h
          | false =>
            rcases executed_cases pol kd st.fs job crash hnew with ⟨c, hc, _, he⟩ | ⟨p, he, hcp⟩
            · simp only [execEv, he, hnew]
              rw [if_neg (by simp; omega)]
              intro j hj
              rw [get_tmp_prefix _ _ _ hc _ (ckptName_ne_tmp _ _ _)]
              exact h j hj
            · simp only [execEv, he, hnew]
              rw [if_pos (by simp), pruneOps_unlimited pol kd _ (hk pol kd job crash (by simp)) (hd pol kd job crash (by simp))]
              have e2 : executed ([] : List (Op δ)) p = [] := by cases p <;> simp [executed]
              rw [e2, List.append_nil]
              intro j hj
              rw [get_writeOps]
              split_ifs with e1 e2
              · rfl
              · exact absurd e2 (ckptName_ne_tmp _ _ _)
              · rcases List.mem_cons.1 hj with rfl | hj
                · exact absurd rfl e1
                · exact h j hj
    exact step evs ⟨[], []⟩ hk hd (by simp)
  refine ⟨?_, ?_⟩
  · intro n
    rw [mem_allSteps _ hi.canon]
    constructor
    · exact hi.src n
    · rintro ⟨j, hj, rfl⟩; exact hP j hj
  · intro n hn
    rw [mem_allSteps _ hi.canon] at hn
    obtain ⟨d, hd'⟩ := Option.isSome_iff_exists.1 hn
    obtain ⟨j, hj, h⟩ := hB n d hd'
    exact ⟨j, d, hj, hd', fun f x hf => h f x hf trivial⟩

/-! ### Retention -/

/-- What an undisturbed save of a new step does, for either checkpointer. -/
theorem save_effect (evs : List (Ev δ α)) (hv : ValidHistory evs) (pol : Policy α) (kd : Option Nat)
    (job : Job δ) (hj : Valid job) (hnew : job.step ∉ allSteps (history evs).fs) :
    (allSteps (runOps (history evs).fs (writeOps job))).Perm (job.step :: allSteps (history evs).fs) ∧
    (allSteps (runOps (history evs).fs (writeOps job))).Pairwise (· < ·) ∧
    saveRaises pol (history evs).fs job = false ∧
    (∀ n, n ∈ allSteps (execEv (history evs) (.save pol kd job none)).fs ↔
      n ∈ job.step :: allSteps (history evs).fs ∧
        ¬ (n ∈ removalList pol (allSteps (runOps (history evs).fs (writeOps job))) ∧
          ((isPinned (history evs).fs (ckptName n)) = false))) ∧
    (∀ n ∈ allSteps (history evs).fs, isPinned (history evs).fs (ckptName n) = true →
      PyDict.get (execEv (history evs) (.save pol kd job none)).fs (ckptName n) =
        PyDict.get (history evs).fs (ckptName n)) ∧
    (∀ n ∈ allSteps (history evs).fs, ∀ d', 
      PyDict.get (execEv (history evs) (.save pol kd job none)).fs (ckptName n) = some d' →
      ∃ d, PyDict.get (history evs).fs (ckptName n) = some d ∧
        ∀ f, ¬ ("train_ds".toList <+: f) → PyDict.get d' f = PyDict.get d f) := by
  have hi := inv_history evs hv
  have hnp := nopin_history evs hv
  generalize history evs = st at hi hnp hnew
  have hhas : PyDict.has st.fs (ckptName job.step) = false := by
    cases h : PyDict.has st.fs (ckptName job.step) with
    | false => rfl
    | true => exact absurd ((mem_allSteps _ hi.canon _).2 h) hnew
  have h1 := inv_commit st hi job hj hhas
  have hw1 : PyDict.WF (runOps st.fs (writeOps job)) := h1.wf
  have hc1 : Canon (runOps st.fs (writeOps job)) := h1.canon
  have hmem1 : ∀ n, n ∈ allSteps (runOps st.fs (writeOps job)) ↔ n ∈ job.step :: allSteps st.fs := by
    intro n
    rw [mem_allSteps _ hc1, get_writeOps, List.mem_cons, mem_allSteps _ hi.canon]
    split_ifs with e1 e2
    · simp [ckptName_inj e1]
    · exact absurd e2 (ckptName_ne_tmp _ _ _)
    · have : n ≠ job.step := by rintro rfl; exact e1 rfl
      simp [this]
  have hperm : (allSteps (runOps st.fs (writeOps job))).Perm (job.step :: allSteps st.fs) := by
    rw [List.perm_ext_iff_of_nodup (allSteps_nodup _ hw1 hc1)
      (List.nodup_cons.2 ⟨hnew, allSteps_nodup _ hi.wf hi.canon⟩)]
    exact hmem1
  have hfs : (execEv st (.save pol kd job none)).fs =
      runOps (runOps st.fs (writeOps job)) (pruneOps pol kd (runOps st.fs (writeOps job))) := by
    simp only [execEv, executed, saveOps, hhas]
    rw [if_neg (by simp), runOps_append]
  obtain ⟨p1, p2, p3, p4⟩ := pruneOps_effect pol kd _ hw1 hc1
  have hcF : Canon (execEv st (.save pol kd job none)).fs := by
    rw [hfs]
    exact canon_of_sub _ _ (fun nm h => ((p2 nm).1 h).1) hc1
  have hnpin := new_not_pinned st.fs hnp job hj
  have hpinnew : isPinned st.fs (ckptName job.step) = false := by
    unfold isPinned
    have : PyDict.get st.fs (ckptName job.step) = none := by
      unfold PyDict.has at hhas; simpa using hhas
    rw [this]
  have hpin : ∀ n, isPinned (runOps st.fs (writeOps job)) (ckptName n) = isPinned st.fs (ckptName n) := by
    intro n
    by_cases h : n = job.step
    · subst h; rw [hnpin, hpinnew]
    · exact old_pinned _ _ _ h
  have hold : ∀ n ∈ allSteps st.fs, PyDict.get (runOps st.fs (writeOps job)) (ckptName n) =
      PyDict.get st.fs (ckptName n) := by
    intro n hn
    have : n ≠ job.step := by rintro rfl; exact hnew hn
    rw [get_writeOps, if_neg (fun h => this (ckptName_inj h)), if_neg (ckptName_ne_tmp _ _ _)]
  refine ⟨hperm, allSteps_sorted _ hw1 hc1, ?_, ?_, ?_, ?_⟩
  · unfold saveRaises
    rw [if_neg (by simp [hhas])]
    simp only [p1, Bool.not_true]
  · intro n
    rw [mem_allSteps _ hcF, hfs, p2, ← hmem1, mem_allSteps _ hc1]
    refine and_congr Iff.rfl (not_congr ?_)
    constructor
    · rintro ⟨s, hs, e, hp⟩
      rw [hpin] at hp
      rw [ckptName_inj e]; exact ⟨hs, (ckptName_inj e) ▸ hp⟩
    · rintro ⟨hs, hp⟩
      exact ⟨n, hs, rfl, by rw [hpin]; exact hp⟩
  · intro n hn hp
    rw [hfs, pruneOps_pinned pol kd _ hw1 hc1 _ (by rw [hpin]; exact hp)]
    exact hold n hn
  · intro n hn d' hd'
    rw [hfs] at hd'
    obtain ⟨d, hd, h⟩ := p3 _ d' hd'
    rw [hold n hn] at hd
    exact ⟨d, hd, h⟩

/-- C21: an undisturbed save of a new step with `keep=k`, after any history,
succeeds and leaves exactly the pinned checkpoints and the `k` newest ones (those
with fewer than `k` newer ones, counting the saved one); with `keep` unset (or 0)
it removes nothing.  Pinned checkpoints are untouched, the others keep all
their files but possibly dataset files.  A save of a step that exists
changes nothing. -/
theorem C21_retention (evs : List (Ev δ α)) (hv : ValidHistory evs) (keep kd : Option Nat)
    (job : Job δ) (hj : Valid job) :
    (job.step ∈ allSteps (history evs).fs →
      execEv (history evs) (.save (.newest keep : Policy α) kd job none) = history evs) ∧
    (job.step ∉ allSteps (history evs).fs →
      saveRaises (.newest keep : Policy α) (history evs).fs job = false ∧
      (∀ n, n ∈ allSteps (execEv (history evs) (.save (.newest keep : Policy α) kd job none)).fs ↔
        n ∈ job.step :: allSteps (history evs).fs ∧
          (keep = none ∨ keep = some 0 ∨ isPinned (history evs).fs (ckptName n) = true ∨
            ∃ k, keep = some k ∧ ((job.step :: allSteps (history evs).fs).filter (fun m => n < m)).length < k)) ∧
      (∀ n ∈ allSteps (history evs).fs, isPinned (history evs).fs (ckptName n) = true →
        PyDict.get (execEv (history evs) (.save (.newest keep : Policy α) kd job none)).fs (ckptName n) =
          PyDict.get (history evs).fs (ckptName n)) ∧
      (∀ n ∈ allSteps (history evs).fs, ∀ d', 
        PyDict.get (execEv (history evs) (.save (.newest keep : Policy α) kd job none)).fs (ckptName n) = some d' →
        ∃ d, PyDict.get (history evs).fs (ckptName n) = some d ∧
          ∀ f, ¬ ("train_ds".toList <+: f) → PyDict.get d' f = PyDict.get d f)) := by
  have hi := inv_history evs hv
  constructor
  · intro h
    exact execEv_skip _ _ _ _ _ ((mem_allSteps _ hi.canon _).1 h)
  · intro hnew
    obtain ⟨e1, e2, e3, e4, e5, e6⟩ := save_effect evs hv (.newest keep : Policy α) kd job hj hnew
    refine ⟨e3, ?_, e5, e6⟩
    intro n
    rw [e4]
    refine and_congr_right (fun hn => ?_)
    rcases keep with _ | _ | k
    · simp [removalList, truthy]
    · simp [removalList, truthy]
    · have hmem := mem_take_iff _ e2 (k + 1) n (e1.mem_iff.2 hn)
      have hlen := (e1.filter (fun m => decide (n < m))).length_eq
      change ¬ (n ∈ List.take _ _ ∧ _) ↔ _
      rw [hmem, hlen]
      simp only [reduceCtorEq, false_or, Option.some.injEq, exists_eq_left']
      cases hp : isPinned (history evs).fs (ckptName n)
      · simp
      · simp

/-- C21, limit of the claim: when `keep` newer checkpoints exist already (training
was restarted from an older one), the checkpoint just saved is itself removed. -/
theorem C21_backward_save_lost (evs : List (Ev δ α)) (hv : ValidHistory evs) (k : Nat) (kd : Option Nat)
    (job : Job δ) (hj : Valid job) (hnew : job.step ∉ allSteps (history evs).fs)
    (h : k + 1 ≤ ((allSteps (history evs).fs).filter (fun m => job.step < m)).length) :
    job.step ∉ allSteps (execEv (history evs) (.save (.newest (some (k + 1)) : Policy α) kd job none)).fs := by
  have hi := inv_history evs hv
  rw [((C21_retention evs hv (some (k + 1)) kd job hj).2 hnew).2.1]
  rintro ⟨-, h1 | h1 | h1 | ⟨k', h1, h2⟩⟩
  · cases h1
  · cases h1
  · unfold isPinned at h1
    have : PyDict.get (history evs).fs (ckptName job.step) = none := by
      have := mt (mem_allSteps _ hi.canon _).2 hnew
      simpa using this
    rw [this] at h1; cases h1
  · cases h1
    rw [List.filter_cons, if_neg (by simp)] at h2
    omega

/-- C22: an undisturbed save of a new step by the save-best checkpointer with
`keep=k≥1`, after any history and for any metric values, keeps the latest
checkpoint, those at multiples of the keep period, pinned ones, and
(if so configured) those without metric.  A removed checkpoint is not better than
any eligible unpinned one that stays, and is older on ties.  If none is pinned
exactly `min k (number of eligible)` eligible ones stay. -/
theorem C22_save_best (evs : List (Ev δ α)) (hv : ValidHistory evs) (k : Nat) (hk : 0 < k) (mm kw : Bool)
    (period : Option Nat) (metric : Nat → Option α) (kd : Option Nat)
    (job : Job δ) (hj : Valid job) (hnew : job.step ∉ allSteps (history evs).fs) :
    let before := job.step :: allSteps (history evs).fs
    let after := allSteps (execEv (history evs) (.save (.best (some k) mm kw period metric) kd job none)).fs
    let pinned := fun n => isPinned (history evs).fs (ckptName n) = true
    saveRaises (.best (some k) mm kw period metric) (history evs).fs job = false ∧
    after ⊆ before ∧
    (∀ n ∈ before, n ∉ after → n ∈ eligible kw period metric before ∧ ¬ pinned n) ∧
    (∀ r ∈ before, r ∉ after → ∀ e ∈ eligible kw period metric before, e ∈ after → ¬ pinned e →
      ¬ Better mm metric r e ∧ (Tied mm metric r e → r < e)) ∧
    min k (eligible kw period metric before).length ≤
      ((eligible kw period metric before).filter (fun n => n ∈ after)).length ∧
    ((∀ n ∈ before, ¬ pinned n) →
      ((eligible kw period metric before).filter (fun n => n ∈ after)).length =
        min k (eligible kw period metric before).length) := by
  intro before after pinned
  obtain ⟨e1, e2, e3, e4, e5, e6⟩ :=
    save_effect evs hv (.best (some k) mm kw period metric : Policy α) kd job hj hnew
  obtain ⟨k, rfl⟩ : ∃ k', k = k' + 1 := ⟨k - 1, by omega⟩
  set S := allSteps (runOps (history evs).fs (writeOps job)) with hS
  have hR := removalList_best k mm kw period metric S e2
  have helig : ∀ n, n ∈ eligible kw period metric before ↔ n ∈ eligible kw period metric S := by
    intro n
    have hex : (∃ t ∈ before, n < t) ↔ ∃ t ∈ S, n < t := by
      constructor
      · rintro ⟨t, ht, h⟩; exact ⟨t, e1.mem_iff.2 ht, h⟩
      · rintro ⟨t, ht, h⟩; exact ⟨t, e1.mem_iff.1 ht, h⟩
    have e1' : n ∈ S ↔ n ∈ before := e1.mem_iff
    unfold eligible
    rw [List.mem_filter, List.mem_filter, ← e1']
    simp only [hex]
  have hEnd : (eligible kw period metric S).Pairwise (· < ·) := List.Pairwise.sublist List.filter_sublist e2
  have hEnodup : (eligible kw period metric S).Nodup := hEnd.imp (fun h => Nat.ne_of_lt h)
  have hbn : before.Nodup := e1.nodup_iff.1 (e2.imp (fun h => Nat.ne_of_lt h))
  have hpermE : (eligible kw period metric before).Perm (eligible kw period metric S) := by
    have hb : (eligible kw period metric before).Nodup := hbn.sublist List.filter_sublist
    rw [List.perm_ext_iff_of_nodup hb hEnodup]
    exact helig
  set E := eligible kw period metric S with hE
  set L := sortByMetric mm metric E with hL
  have hLp : L.Perm E := perm_sortByMetric mm metric E
  have hRsub : ∀ n ∈ removalList (.best (some (k + 1)) mm kw period metric) S, n ∈ E := by
    intro n hn; rw [hR] at hn
    exact hLp.mem_iff.1 (List.mem_of_mem_take hn)
  have hrem : ∀ n ∈ before, n ∉ after → n ∈ L.take (E.length - (k + 1)) ∧ ¬ pinned n := by
    intro n hn hna
    have : ¬ (n ∈ before ∧ ¬ (n ∈ removalList (.best (some (k + 1)) mm kw period metric) S ∧
        isPinned (history evs).fs (ckptName n) = false)) := fun h => hna ((e4 n).2 h)
    have h2 : n ∈ removalList (.best (some (k + 1)) mm kw period metric) S ∧
        isPinned (history evs).fs (ckptName n) = false := by
      by_contra h; exact this ⟨hn, h⟩
    refine ⟨by rw [← hR]; exact h2.1, ?_⟩
    simp only [pinned, h2.2]; simp
  have hkeep : ∀ n, n ∈ after → ¬ pinned n → n ∉ L.take (E.length - (k + 1)) := by
    intro n hna hp hn
    have := ((e4 n).1 hna).2
    rw [hR] at this
    refine this ⟨hn, ?_⟩
    cases h : isPinned (history evs).fs (ckptName n)
    · rfl
    · exact absurd h hp
  have hEsub : ∀ n ∈ E, n ∈ before := by
    intro n hn
    exact e1.mem_iff.1 (List.mem_of_mem_filter hn)
  refine ⟨e3, fun n hn => ((e4 n).1 hn).1, ?_, ?_, ?_, ?_⟩
  · intro n hn hna
    obtain ⟨h1, h2⟩ := hrem n hn hna
    exact ⟨(helig n).2 (hLp.mem_iff.1 (List.mem_of_mem_take h1)), h2⟩
  · intro r hr hra e he hea hep
    obtain ⟨h1, _⟩ := hrem r hr hra
    exact sort_take mm metric E hEnd _ r e h1 ((helig e).1 he) (hkeep e hea hep)
  · have hdrop : (L.drop (E.length - (k + 1))).length = min (k + 1) E.length := by
      rw [List.length_drop, hLp.length_eq]; omega
    rw [hpermE.length_eq, ← hdrop, (hpermE.filter _).length_eq]
    have hsub : ∀ n ∈ L.drop (E.length - (k + 1)), n ∈ E.filter (fun n => decide (n ∈ after)) := by
      intro n hn
      have hnE : n ∈ E := hLp.mem_iff.1 (List.mem_of_mem_drop hn)
      rw [List.mem_filter]
      refine ⟨hnE, ?_⟩
      simp only [decide_eq_true_eq]
      by_contra hna
      have := (hrem n (hEsub n hnE) hna).1
      have hnd : (L.take (E.length - (k + 1)) ++ L.drop (E.length - (k + 1))).Nodup := by
        rw [List.take_append_drop]; exact hLp.nodup_iff.2 hEnodup
      exact (List.nodup_append.1 hnd).2.2 n this n hn rfl
    have hnd : (L.drop (E.length - (k + 1))).Nodup := (hLp.nodup_iff.2 hEnodup).sublist (List.drop_sublist _ _)
    exact (List.subperm_of_subset hnd hsub).length_le
  · intro hnp
    have hdrop : (L.drop (E.length - (k + 1))).length = min (k + 1) E.length := by
      rw [List.length_drop, hLp.length_eq]; omega
    rw [hpermE.length_eq, ← hdrop, (hpermE.filter _).length_eq]
    apply List.Perm.length_eq
    rw [List.perm_ext_iff_of_nodup (hEnodup.filter _)
      ((hLp.nodup_iff.2 hEnodup).sublist (List.drop_sublist _ _))]
    intro n
    rw [List.mem_filter, decide_eq_true_eq]
    have hnd : (L.take (E.length - (k + 1)) ++ L.drop (E.length - (k + 1))).Nodup := by
      rw [List.take_append_drop]; exact hLp.nodup_iff.2 hEnodup
    constructor
    · rintro ⟨h1, h2⟩
      have h3 := hkeep n h2 (hnp n (hEsub n h1))
      have : n ∈ L.take (E.length - (k + 1)) ++ L.drop (E.length - (k + 1)) := by
        rw [List.take_append_drop]; exact hLp.mem_iff.2 h1
      rcases List.mem_append.1 this with h | h
      · exact absurd h h3
      · exact h
    · intro h
      have hnE : n ∈ E := hLp.mem_iff.1 (List.mem_of_mem_drop h)
      refine ⟨hnE, ?_⟩
      by_contra hna
      have := (hrem n (hEsub n hnE) hna).1
      exact (List.nodup_append.1 hnd).2.2 n this n h rfl

end policy

/-! ### Where the atomicity claim is false -/

/-- A small save: one parameter file and the msgpack file. -/
def demoJob (n : Nat) : Job Nat :=
  { step := n, stamp := 9
    files := [("w".toList, n), ("checkpoint".toList, 100 + n)]
    writes := [("w".toList, none), ("w".toList, some n), ("checkpoint".toList, none), ("checkpoint".toList, some (100 + n))] }

theorem demoJob_valid (n : Nat) : Valid (demoJob n) := by
  constructor
  · intro f x h
    simp only [demoJob, List.mem_cons, List.not_mem_nil, or_false, Prod.mk.injEq] at h
    rcases h with ⟨rfl, rfl⟩ | ⟨rfl, rfl⟩
    · simp [demoJob]
    · simp [demoJob]
  · intro w hw
    simp only [demoJob, List.mem_cons, List.not_mem_nil, or_false] at hw
    rcases hw with rfl | rfl | rfl | rfl <;> simp [pinnedFile]

/-- Negation of the full C20: a crash while an old checkpoint is being pruned leaves
it among the reported steps without all its files, and a later save of that step
is skipped, so it stays incomplete. -/
theorem C20_crash_while_pruning : ∃ evs : List (Ev Nat Bool), ValidHistory evs ∧
    ∃ n d, n ∈ allSteps (history evs).fs ∧ PyDict.get (history evs).fs (ckptName n) = some d ∧
      PyDict.get d "w".toList = none ∧
      execEv (history evs) (.save (.newest (some 1) : Policy Bool) none (demoJob n) none) = history evs := by
  refine ⟨[.save (.newest (some 1)) none (demoJob 1) none, .save (.newest (some 1)) none (demoJob 2) (some 7)], ?_, ?_⟩
  · intro pol kd j c h
    simp only [List.mem_cons, List.not_mem_nil, or_false] at h
    rcases h with h | h <;> (cases h; exact demoJob_valid _)
  · refine ⟨1, [("checkpoint".toList, some 101)], by decide, by decide, by decide, ?_⟩
    exact execEv_skip _ _ _ _ _ (by decide)

/-- On `gs://` the final move is not atomic: dying in the middle leaves the step
reported, as the latest one, without all its files. -/
theorem C20_gs_not_atomic : ∃ (job : Job Nat) (c : Nat), Valid job ∧
    let fs := runOps ([] : FS Nat) ((saveOpsGs [] job).take c)
    latestStep fs = some job.step ∧ ∃ d, PyDict.get fs (ckptName job.step) = some d ∧ ¬ Complete d job := by
  refine ⟨demoJob 3, 7, demoJob_valid 3, by decide, [("w".toList, some 3)], by decide, ?_⟩
  intro h
  have := h "checkpoint".toList 103 (by simp [demoJob])
  exact absurd this (by decide)

/-! ### Restore -/

/-- C26: `Checkpointer.restore` rejects a step together with a path; with a path it
reads that path, with a step the directory of that step, with neither the
directory of the latest step.  (The claim "raises only when there is no
checkpoint" is false for step 0, see `C26_step_zero`.) -/
theorem C26_selection_partial (d : Name) (isDir exists_ : Name → Bool) (latest step : Option Nat) (path : Option Name)
    (hpath : path ≠ some []) :
    (step.isSome ∧ path.isSome → restorePath d isDir exists_ latest step path = .error .bothGiven) ∧
    (∀ file, restorePath d isDir exists_ latest step path = .ok file →
      exists_ file = true ∧ isDir file = false ∧
      ∃ root, (path = some root ∨
          path = none ∧ ∃ s, (step = some s ∨ step = none ∧ latest = some s) ∧
            root = getCheckpointDir "checkpoint".toList d s) ∧
        (isDir root = false ∧ file = root ∨ isDir root = true ∧
          (file = pathJoin root "checkpoint".toList ∨
           file = pathJoin (pathJoin root "state".toList) "checkpoint".toList))) ∧
    (∀ s, step = some s → path = none → ∀ st,
      st = getCheckpointDir "checkpoint".toList d s → isDir st = true → isDir (pathJoin st "state".toList) = false →
      exists_ (pathJoin st "checkpoint".toList) = true → isDir (pathJoin st "checkpoint".toList) = false →
      restorePath d isDir exists_ latest step path = .ok (pathJoin st "checkpoint".toList)) ∧
    (∀ s, step = none → path = none → latest = some s → s ≠ 0 → ∀ st,
      st = getCheckpointDir "checkpoint".toList d s → isDir st = true → isDir (pathJoin st "state".toList) = false →
      exists_ (pathJoin st "checkpoint".toList) = true → isDir (pathJoin st "checkpoint".toList) = false →
      restorePath d isDir exists_ latest step path = .ok (pathJoin st "checkpoint".toList)) := by
  have fin : ∀ root file,
      (if !exists_ (if isDir root then if isDir (pathJoin root "state".toList) then
          pathJoin (pathJoin root "state".toList) "checkpoint".toList
        else pathJoin root "checkpoint".toList else root) || isDir (if isDir root then
          if isDir (pathJoin root "state".toList) then
          pathJoin (pathJoin root "state".toList) "checkpoint".toList
        else pathJoin root "checkpoint".toList else root) then (throw .invalidPath : Except RestoreErr Name)
        else pure (if isDir root then if isDir (pathJoin root "state".toList) then
          pathJoin (pathJoin root "state".toList) "checkpoint".toList
        else pathJoin root "checkpoint".toList else root)) = .ok file →
      exists_ file = true ∧ isDir file = false ∧ (isDir root = false ∧ file = root ∨ isDir root = true ∧
          (file = pathJoin root "checkpoint".toList ∨
           file = pathJoin (pathJoin root "state".toList) "checkpoint".toList)) := by
    intro root file h
    generalize hf : (if isDir root then if isDir (pathJoin root "state".toList) then
          pathJoin (pathJoin root "state".toList) "checkpoint".toList
        else pathJoin root "checkpoint".toList else root) = g at h
    by_cases h1 : (!exists_ g || isDir g) = true
    · rw [if_pos h1] at h; cases h
    · rw [if_neg h1] at h
      cases h
      simp only [Bool.not_eq_true, Bool.or_eq_false_iff, Bool.not_eq_false'] at h1
      refine ⟨h1.1, h1.2, ?_⟩
      split_ifs at hf with a b
      · exact Or.inr ⟨a, Or.inr hf.symm⟩
      · exact Or.inr ⟨a, Or.inl hf.symm⟩
      · exact Or.inl ⟨by simpa using a, hf.symm⟩
  have mk : ∀ st, isDir st = true → isDir (pathJoin st "state".toList) = false →
      exists_ (pathJoin st "checkpoint".toList) = true → isDir (pathJoin st "checkpoint".toList) = false →
      (if !exists_ (if isDir st then if isDir (pathJoin st "state".toList) then
          pathJoin (pathJoin st "state".toList) "checkpoint".toList
        else pathJoin st "checkpoint".toList else st) || isDir (if isDir st then
          if isDir (pathJoin st "state".toList) then
          pathJoin (pathJoin st "state".toList) "checkpoint".toList
        else pathJoin st "checkpoint".toList else st) then (throw .invalidPath : Except RestoreErr Name)
        else pure (if isDir st then if isDir (pathJoin st "state".toList) then
          pathJoin (pathJoin st "state".toList) "checkpoint".toList
        else pathJoin st "checkpoint".toList else st)) = .ok (pathJoin st "checkpoint".toList) := by
    intro st h1 h2 h3 h4
    simp only [h1, h2, if_true, Bool.false_eq_true, if_false, h3, h4, Bool.not_true, Bool.or_false]
    rfl
  refine ⟨?_, ?_, ?_, ?_⟩
  · intro h
    unfold restorePath
    rw [if_pos h]
  · intro file h
    unfold restorePath at h
    split_ifs at h with hb
    rcases path with _ | _ | ⟨c, p⟩
    · rcases step with _ | s
      · rcases latest with _ | _ | s
        · cases h
        · cases h
        · obtain ⟨h1, h2, h3⟩ := fin _ file h
          exact ⟨h1, h2, _, Or.inr ⟨rfl, s + 1, Or.inr ⟨rfl, rfl⟩, rfl⟩, h3⟩
      · obtain ⟨h1, h2, h3⟩ := fin _ file h
        exact ⟨h1, h2, _, Or.inr ⟨rfl, s, Or.inl rfl, rfl⟩, h3⟩
    · exact absurd rfl hpath
    · obtain ⟨h1, h2, h3⟩ := fin _ file h
      exact ⟨h1, h2, _, Or.inl rfl, h3⟩
  · rintro s rfl rfl st rfl h1 h2 h3 h4
    unfold restorePath
    rw [if_neg (by simp)]
    exact mk _ h1 h2 h3 h4
  · rintro s rfl rfl rfl hs st rfl h1 h2 h3 h4
    unfold restorePath
    rw [if_neg (by simp)]
    obtain ⟨s, rfl⟩ : ∃ t, s = t + 1 := ⟨s - 1, by omega⟩
    exact mk _ h1 h2 h3 h4

/-- Negation of the full C26: if the only checkpoint is that of step 0, a restore
without arguments reports that there is none, whatever is in the directory. -/
theorem C26_step_zero (d : Name) (isDir exists_ : Name → Bool) :
    restorePath d isDir exists_ (some 0) none none = .error .noCheckpoints := rfl

/-- C26 for `find_checkpoint`: pointed at a model directory it takes the given or
latest step (also step 0), and returns only existing files. -/
theorem C26_find_checkpoint (isDir exists_ : Name → Bool) (latest : Name → Option Nat) (path : Name) (step : Option Nat) :
    (∀ file, findCheckpoint isDir exists_ latest path step = .ok file → exists_ file = true ∧ isDir file = false) ∧
    (∀ s, isDir path = true → (step = some s ∨ step = none ∧ latest path = some s) →
      ∀ f, f = pathJoin (getCheckpointDir "checkpoint".toList path s) "checkpoint".toList →
      findCheckpoint isDir exists_ latest path step =
        if exists_ f && !isDir f then .ok f else .error .invalidPath) ∧
    (isDir path = false → findCheckpoint isDir exists_ latest path step =
        if exists_ path then .ok path else .error .invalidPath) := by
  refine ⟨?_, ?_, ?_⟩
  · intro file h
    unfold findCheckpoint at h
    dsimp only at h
    generalize (if isDir path = true then _ else path : Name) = g at h
    by_cases h1 : (!exists_ g || isDir g) = true
    · rw [if_pos h1] at h; cases h
    · rw [if_neg h1] at h
      cases h
      simpa using h1
  · rintro s hd hs f rfl
    unfold findCheckpoint
    have e : (match step with | none => latest path | some s => some s) = some s := by
      rcases hs with rfl | ⟨rfl, h⟩
      · rfl
      · exact h
    simp only [hd, if_true]
    rcases hs with rfl | ⟨rfl, h⟩
    · dsimp only
      generalize pathJoin (getCheckpointDir "checkpoint".toList path s) "checkpoint".toList = g
      cases h1 : exists_ g <;> cases h2 : isDir g <;> rfl
    · dsimp only
      rw [h]
      dsimp only
      generalize pathJoin (getCheckpointDir "checkpoint".toList path s) "checkpoint".toList = g
      cases h1 : exists_ g <;> cases h2 : isDir g <;> rfl
  · intro hd
    unfold findCheckpoint
    simp only [hd, Bool.false_eq_true, if_false, Bool.or_false]
    cases h1 : exists_ path <;> rfl

/-! ### Witnesses -/

/-- A history with a crash, a pin and pruning. -/
def demoHistory : List (Ev Nat Bool) :=
  [.save (.newest (some 2)) none (demoJob 1) none, .pin 1, .save (.newest (some 2)) none (demoJob 2) (some 4),
   .save (.newest (some 2)) none (demoJob 2) none, .save (.newest (some 2)) none (demoJob 3) none]

example : ValidHistory demoHistory ∧
    allSteps (history demoHistory).fs = [1, 2, 3] ∧ latestStep (history demoHistory).fs = some 3 := by
  refine ⟨?_, by decide, by decide⟩
  intro pol kd j c h
  simp only [demoHistory, List.mem_cons, List.not_mem_nil, or_false] at h
  rcases h with h | h | h | h | h <;> first | (cases h; exact demoJob_valid _) | cases h
example : NoPruneCrash demoHistory := by
  intro pol kd j c h
  simp only [demoHistory, List.mem_cons, List.not_mem_nil, or_false] at h
  rcases h with h | h | h | h | h <;> cases h
  decide
/-- Saving step 5 with keep=2 removes step 2 and keeps the pinned step 1. -/
example : (5 ∉ allSteps (history demoHistory).fs) ∧
    allSteps (execEv (history demoHistory) (.save (.newest (some 2) : Policy Bool) none (demoJob 5) none)).fs = [1, 3, 5] := by decide
/-- Going back: step 0 is removed at once. -/
example : 2 ≤ ((allSteps (history demoHistory).fs).filter (fun m => (demoJob 0).step < m)).length ∧
    allSteps (execEv (history demoHistory) (.save (.newest (some 2) : Policy Bool) none (demoJob 0) none)).fs = [1, 2, 3] := by decide
/-- Save-best, max mode, keep=1: of the eligible steps 1 (pinned), 2, 3 the best is 2. -/
example : allSteps (execEv (history demoHistory)
    (.save (.best (some 1) true true none (fun n => if n = 2 then some true else if n = 4 then none else some false))
      none (demoJob 4) none)).fs = [1, 2, 4] := by decide
example : restorePath "/m".toList (fun p => p = "/m/checkpoint_7".toList)
    (fun p => p = "/m/checkpoint_7/checkpoint".toList) (some 7) none none =
    .ok "/m/checkpoint_7/checkpoint".toList := by rfl

end Verif.Ckpt
