import Verif.Model.OrbaxMgr
import Verif.Props.CkptName
import Verif.Props.CkptDir
import Verif.Props.Msgpack
/-
C98: what the Orbax manager restores and keeps.
-/
namespace Verif.OrbaxMgr
open Verif
open Verif.Ckpt (Name pathJoin pathSplit getStepFromCheckpointDir getCheckpointDir findCheckpoint restorePath)

/-- The file of step `s` written by `Checkpointer` in `d`. -/
def fileOf (d : Name) (s : Nat) : Name := pathJoin (getCheckpointDir prefix_ d s) "checkpoint".toList

/-- There is such a file. -/
def HasFile (w : World) (d : Name) (s : Nat) : Prop := w.exists_ (fileOf d s) = true ∧ w.isDir (fileOf d s) = false

/-- There is a file `_METADATA` in the directory of step `s`. -/
def HasMeta (w : World) (d : Name) (s : Nat) : Prop := w.exists_ (pathJoin (getCheckpointDir prefix_ d s) "_METADATA".toList) = true

theorem dir_last (d : Name) (s : Nat) : (getCheckpointDir prefix_ d s).getLast? ≠ some '/' ∧ getCheckpointDir prefix_ d s ≠ [] := by
  have hd : getCheckpointDir prefix_ d s = pathJoin d (prefix_ ++ '_' :: Ckpt.dec s) := Ckpt.getCheckpointDir_eq prefix_ d s none
  have h1 : (getCheckpointDir prefix_ d s).getLast? = (Ckpt.dec s).getLast? := by
    rw [hd]
    unfold pathJoin
    have e : ∀ q : Name, (q ++ (prefix_ ++ '_' :: Ckpt.dec s)).getLast? = (Ckpt.dec s).getLast? := by
      intro q
      rw [show q ++ (prefix_ ++ '_' :: Ckpt.dec s) = (q ++ prefix_ ++ ['_']) ++ Ckpt.dec s by simp]
      exact List.getLast?_append_of_ne_nil _ (Ckpt.dec_ne_nil s)
    split_ifs
    · exact e d
    · have := e (d ++ ['/'])
      rwa [List.append_assoc] at this
  constructor
  · rw [h1]
    intro h
    exact Ckpt.not_digit_slash (Ckpt.dec_digits s _ (List.mem_of_getLast? h))
  · intro h
    rw [h] at h1
    have := Ckpt.dec_ne_nil s
    exact this (List.getLast?_eq_none_iff.1 h1.symm)

theorem hasMeta (w : World) (d : Name) (s : Nat) : hasMetadata w (fileOf d s) = true ↔ HasMeta w d s := by
  obtain ⟨h1, h2⟩ := dir_last d s
  have hn : Ckpt.normDir (getCheckpointDir prefix_ d s) = getCheckpointDir prefix_ d s := by
    unfold Ckpt.normDir
    rw [Ckpt.rstrip_of_not_slash _ h1]
    split_ifs <;> rfl
  unfold hasMetadata fileOf HasMeta
  rw [Ckpt.pathSplit_join _ _ (by decide), hn]

theorem hasMeta_not (w : World) (d : Name) (s : Nat) : hasMetadata w (fileOf d s) = false ↔ ¬ HasMeta w d s := by
  rw [← hasMeta]
  simp

theorem find_ok (w : World) (d : Name) (s : Nat) (hd : w.isDir d = true) (hf : HasFile w d s) :
    findCheckpoint w.isDir w.exists_ w.latest d (some s) = .ok (fileOf d s) := by
  obtain ⟨h1, h2⟩ := hf
  rw [(Ckpt.C26_find_checkpoint w.isDir w.exists_ w.latest d (some s)).2.1 s hd (Or.inl rfl) (fileOf d s) rfl, h1, h2]
  rfl

theorem find_none (w : World) (d : Name) (s : Nat) (hd : w.isDir d = true) (hf : ¬ HasFile w d s) :
    findCheckpoint w.isDir w.exists_ w.latest d (some s) = .error .invalidPath := by
  rw [(Ckpt.C26_find_checkpoint w.isDir w.exists_ w.latest d (some s)).2.1 s hd (Or.inl rfl) (fileOf d s) rfl, if_neg]
  intro h
  apply hf
  simpa [HasFile, fileOf] using h

/-- The two ways a path may be written. -/
def IsPath (d : Name) (s : Nat) (p : Name) : Prop := p = getCheckpointDir prefix_ d s ∨ p = getCheckpointDir prefix_ d s ++ ['/']

theorem path_step (d : Name) (hne : d ≠ []) (hs : d.getLast? ≠ some '/') (s : Nat) (p : Name) (hp : IsPath d s p) :
    getStepFromCheckpointDir prefix_ p = some (d, s) := by
  obtain ⟨h1, h2⟩ := Ckpt.C23_round_trip prefix_ d (by decide) hne hs s none
  rcases hp with rfl | rfl
  · exact h1
  · exact h2

theorem restore_path (w : World) (dir d : Name) (hne : d ≠ []) (hs : d.getLast? ≠ some '/') (s : Nat) (p : Name) (hp : IsPath d s p) :
    restoreSource w dir none (some p) = byFormat w dir d (some s) (some p) := by
  unfold restoreSource
  rw [if_neg (by simp)]
  simp only [path_step d hne hs s p hp]

theorem path_ne (d : Name) (s : Nat) (p : Name) (hp : IsPath d s p) : p ≠ [] := by
  have : getCheckpointDir prefix_ d s ≠ [] := by
    rw [Ckpt.getCheckpointDir_eq]
    have hn : ∀ q : Name, prefix_ ++ '_' :: q ≠ [] := fun q h => by
      have := (List.append_eq_nil_iff.1 h).2
      cases this
    intro h
    unfold pathJoin at h
    split_ifs at h
    · exact hn _ (List.append_eq_nil_iff.1 h).2
    · have := (List.append_eq_nil_iff.1 h).2
      cases this
  rcases hp with rfl | rfl
  · exact this
  · simp

/-- **C98** (a path).  Given the path of the checkpoint of step `s` in a directory, with or without a final slash, whatever the
manager restores is that checkpoint: by Orbax if there is no file `checkpoint` in it or `_METADATA` beside it, otherwise that file
(or the one in its subdirectory `state`) by `Checkpointer`.  A file in the TensorFlow format is an error. -/
theorem C98_path (w : World) (dir d : Name) (hne : d ≠ []) (hs : d.getLast? ≠ some '/') (s : Nat) (p : Name) (hp : IsPath d s p)
    (hd : w.isDir d = true) :
    (∀ src, restoreSource w dir none (some p) = .ok src →
      src = .orbax d (some s) ∨
      HasFile w d s ∧ ¬ HasMeta w d s ∧ ∃ f, src = .legacy f ∧ w.exists_ f = true ∧ w.isDir f = false ∧
        (w.isDir p = true → f = pathJoin p "checkpoint".toList ∨ f = pathJoin (pathJoin p "state".toList) "checkpoint".toList)) ∧
    (¬ HasFile w d s → restoreSource w dir none (some p) = .ok (.orbax d (some s))) ∧
    (HasFile w d s → HasMeta w d s → restoreSource w dir none (some p) = .ok (.orbax d (some s))) ∧
    (HasFile w d s → ¬ HasMeta w d s → w.content (fileOf d s) = .tf →
      restoreSource w dir none (some p) = .error .tfCheckpoint) ∧
    (HasFile w d s → ¬ HasMeta w d s → p = getCheckpointDir prefix_ d s → w.isDir p = true →
      w.isDir (pathJoin p "state".toList) = false →
      ∀ (kvs : Msgpack.Spec.KVs) (more : List Msgpack.Tok), kvs.WF → w.content (fileOf d s) = .msgpack ((Msgpack.Spec.Val.map kvs).enc ++ more) →
      restoreSource w dir none (some p) = .ok (.legacy (fileOf d s))) := by
  simp only [← hasMeta_not, ← hasMeta]
  rw [restore_path w dir d hne hs s p hp]
  have notf : ¬ HasFile w d s → byFormat w dir d (some s) (some p) = .ok (.orbax d (some s)) := by
    intro hf
    unfold byFormat
    rw [find_none w d s hd hf]
  refine ⟨?_, notf, ?_, ?_, ?_⟩
  · intro src h
    by_cases hf : HasFile w d s
    · unfold byFormat at h
      rw [find_ok w d s hd hf] at h
      dsimp only at h
      by_cases hm : hasMetadata w (fileOf d s) = true
      · have : detect w (fileOf d s) = .ok .orbax := by unfold detect; rw [if_pos hm]
        rw [this] at h
        left
        exact (Except.ok.inj h).symm
      · right
        refine ⟨hf, by simpa using hm, ?_⟩
        have hdet : ∀ t, detect w (fileOf d s) = .ok t → t ≠ .orbax := by
          intro t ht
          unfold detect at ht
          rw [if_neg hm] at ht
          rintro rfl
          revert ht
          cases w.content (fileOf d s) with
          | tf => intro ht; cases ht
          | msgpack ts =>
            dsimp only
            cases Msgpack.readKeys ts with
            | error e => intro ht; cases ht
            | ok x => intro ht; cases ht
        cases e : detect w (fileOf d s) with
        | error x => rw [e] at h; cases h
        | ok t =>
          rw [e] at h
          cases t with
          | orbax => exact absurd rfl (hdet _ e)
          | t5xTf => cases h
          | t5x =>
            dsimp only at h
            unfold legacySource at h
            obtain ⟨-, c2, -⟩ := Ckpt.C26_selection_partial dir w.isDir w.exists_ (w.latest dir) none (some p)
              (by intro e; exact path_ne d s p hp (Option.some.inj e))
            cases g : restorePath dir w.isDir w.exists_ (w.latest dir) none (some p) with
            | error x => rw [g] at h; cases h
            | ok f =>
              rw [g] at h
              dsimp only at h
              obtain ⟨g1, g2, root, g3, g4⟩ := c2 f g
              have hr : root = p := by
                rcases g3 with g3 | ⟨g3, -⟩
                · exact (Option.some.inj g3).symm
                · cases g3
              subst hr
              refine ⟨f, ?_, g1, g2, ?_⟩
              · cases e2 : detect w f with
                | error x => rw [e2] at h; cases h
                | ok t =>
                  rw [e2] at h
                  cases t with
                  | t5xTf => cases h
                  | orbax => exact (Except.ok.inj h).symm
                  | t5x => exact (Except.ok.inj h).symm
              · intro hdir
                rcases g4 with ⟨g4, -⟩ | ⟨-, g4⟩
                · rw [hdir] at g4; cases g4
                · exact g4
    · left
      rw [notf hf] at h
      exact (Except.ok.inj h).symm
  · intro hf hm
    unfold byFormat
    rw [find_ok w d s hd hf]
    have : detect w (fileOf d s) = .ok .orbax := by unfold detect; rw [if_pos hm]
    simp only [this]
  · intro hf hm ht
    unfold byFormat
    rw [find_ok w d s hd hf]
    have : detect w (fileOf d s) = .ok .t5xTf := by unfold detect; rw [if_neg (by simp [hm]), ht]
    simp only [this]
  · rintro hf hm rfl hdir hst kvs more hwf hc
    unfold byFormat
    rw [find_ok w d s hd hf]
    obtain ⟨h, root, h1, -, -⟩ := Msgpack.C28_key_tree kvs hwf more
    have hdet : detect w (fileOf d s) = .ok .t5x := by
      unfold detect
      rw [if_neg (by simp [hm]), hc]
      simp only [h1]
    have hne' := path_ne d s _ (Or.inl rfl)
    have hrp : restorePath dir w.isDir w.exists_ (w.latest dir) none (some (getCheckpointDir prefix_ d s)) = .ok (fileOf d s) := by
      obtain ⟨c, q, hcq⟩ := List.exists_cons_of_ne_nil hne'
      unfold restorePath
      rw [if_neg (by simp)]
      rw [hcq]
      simp only [pure_bind]
      rw [← hcq, if_pos hdir]
      simp only [hst, Bool.false_eq_true, if_false]
      have e : pathJoin (getCheckpointDir prefix_ d s) "checkpoint".toList = fileOf d s := rfl
      rw [e, hf.1, hf.2]
      rfl
    simp only [hdet]
    unfold legacySource
    rw [hrp]
    simp only [hdet]

/-- **C98** (a step of an Orbax checkpoint, both arguments).  A step is looked up in the manager's own directory; a step and a path
together are an error. -/
theorem C98_step (w : World) (dir : Name) (s : Nat) (hd : w.isDir dir = true) :
    (¬ HasFile w dir s ∨ HasMeta w dir s → restoreSource w dir (some s) none = .ok (.orbax dir (some s))) ∧
    (HasFile w dir s → ¬ HasMeta w dir s → w.content (fileOf dir s) = .tf →
      restoreSource w dir (some s) none = .error .tfCheckpoint) ∧
    (∀ p, restoreSource w dir (some s) (some p) = .error .bothGiven) := by
  simp only [← hasMeta_not, ← hasMeta]
  have base : restoreSource w dir (some s) none = byFormat w dir dir (some s) none := by
    unfold restoreSource
    rw [if_neg (by simp)]
  refine ⟨?_, ?_, fun p => ?_⟩
  · intro h
    rw [base]
    unfold byFormat
    by_cases hf : HasFile w dir s
    · rcases h with h | h
      · exact absurd hf h
      · rw [find_ok w dir s hd hf]
        have : detect w (fileOf dir s) = .ok .orbax := by unfold detect; rw [if_pos h]
        simp only [this]
    · rw [find_none w dir s hd hf]
  · intro hf hm ht
    rw [base]
    unfold byFormat
    rw [find_ok w dir s hd hf]
    have : detect w (fileOf dir s) = .ok .t5xTf := by unfold detect; rw [if_neg (by simp [hm]), ht]
    simp only [this]
  · unfold restoreSource
    rw [if_pos (by simp)]

/-- **C98** (a step of a checkpoint of `Checkpointer`: **false**).  Asked for step `s` in a directory of such checkpoints, the manager
restores the latest one, `t`: the step is not passed on. -/
theorem C98_step_legacy (w : World) (dir : Name) (s t : Nat) (hd : w.isDir dir = true) (ht : w.latest dir = some t) (h0 : t ≠ 0)
    (hsf : HasFile w dir s) (htf : HasFile w dir t) (hm : ¬ HasMeta w dir s) (hmt : ¬ HasMeta w dir t)
    (hdt : w.isDir (getCheckpointDir prefix_ dir t) = true) (hst : w.isDir (pathJoin (getCheckpointDir prefix_ dir t) "state".toList) = false)
    (kvs kvt : Msgpack.Spec.KVs) (hks : kvs.WF) (hkt : kvt.WF) (hcs : w.content (fileOf dir s) = .msgpack (Msgpack.Spec.Val.map kvs).enc)
    (hct : w.content (fileOf dir t) = .msgpack (Msgpack.Spec.Val.map kvt).enc) :
    restoreSource w dir (some s) none = .ok (.legacy (fileOf dir t)) ∧ (s ≠ t → fileOf dir t ≠ fileOf dir s) := by
  rw [← hasMeta_not] at hm hmt
  have hdet : ∀ (x : Nat) (kv : Msgpack.Spec.KVs), kv.WF → hasMetadata w (fileOf dir x) = false →
      w.content (fileOf dir x) = .msgpack (Msgpack.Spec.Val.map kv).enc → detect w (fileOf dir x) = .ok .t5x := by
    intro x kv hk hmx hc
    obtain ⟨h, root, h1, -, -⟩ := Msgpack.C28_key_tree kv hk []
    rw [List.append_nil] at h1
    unfold detect
    rw [if_neg (by simp [hmx]), hc]
    simp only [h1]
  constructor
  · unfold restoreSource
    rw [if_neg (by simp)]
    simp only [byFormat, find_ok w dir s hd hsf, hdet s kvs hks hm hcs]
    unfold legacySource
    have hrp : restorePath dir w.isDir w.exists_ (w.latest dir) none none = .ok (fileOf dir t) := by
      obtain ⟨u, rfl⟩ := Nat.exists_eq_succ_of_ne_zero h0
      unfold restorePath
      rw [if_neg (by simp), ht]
      simp only [Ckpt.truthy, pure_bind]
      have e0 : getCheckpointDir "checkpoint".toList dir (u + 1) = getCheckpointDir prefix_ dir (u + 1) := rfl
      simp only [Nat.succ_eq_add_one] at *
      rw [e0, if_pos hdt]
      simp only [hst, Bool.false_eq_true, if_false]
      have e : pathJoin (getCheckpointDir prefix_ dir (u + 1)) "checkpoint".toList = fileOf dir (u + 1) := rfl
      rw [e, htf.1, htf.2]
      rfl
    rw [hrp]
    simp only [hdet t kvt hkt hmt hct]
  · intro hne e
    apply hne
    unfold fileOf at e
    have inj : getCheckpointDir prefix_ dir t = getCheckpointDir prefix_ dir s := by
      have nl : ∀ x, ¬ (getCheckpointDir prefix_ dir x = [] ∨ (getCheckpointDir prefix_ dir x).getLast? = some '/') := by
        rintro x (h | h)
        · exact path_ne dir x _ (Or.inl rfl) h
        · rw [Ckpt.getCheckpointDir_eq] at h
          have hd2 : Ckpt.stepStr none x ≠ [] := Ckpt.dec_ne_nil x
          have hl : ∀ a : Name, (a ++ (prefix_ ++ '_' :: Ckpt.stepStr none x)).getLast? = (Ckpt.stepStr none x).getLast? := by
            intro a
            rw [show a ++ (prefix_ ++ '_' :: Ckpt.stepStr none x) = (a ++ (prefix_ ++ ['_'])) ++ Ckpt.stepStr none x by simp,
              List.getLast?_append_of_ne_nil _ hd2]
          have h' : (Ckpt.stepStr none x).getLast? = some '/' := by
            unfold pathJoin at h
            split_ifs at h
            · rw [hl] at h; exact h
            · rw [show dir ++ '/' :: (prefix_ ++ '_' :: Ckpt.stepStr none x) = (dir ++ ['/']) ++ (prefix_ ++ '_' :: Ckpt.stepStr none x) by simp,
                hl] at h
              exact h
          exact Ckpt.not_digit_slash (Ckpt.stepStr_digits none x _ (List.mem_of_getLast? h'))
      unfold pathJoin at e
      rw [if_neg (nl t), if_neg (nl s)] at e
      exact List.append_cancel_right e
    exact (Ckpt.C23_distinct prefix_ dir t s none inj).symm

/-! ### Configuration -/

variable {V D M It : Type} [DecidableEq M]

/-- The settings of `SaveBestCheckpointer` that other checkpointers do not have. -/
def metricSettings : List Name :=
  ["metric_name_to_monitor".toList, "metric_mode".toList, "keep_checkpoints_without_metrics".toList, "force_keep_period".toList]

/-- **C98** (configuration).  The manager saves with the dtype, `keep` and `period` of the save configuration and restores with the
dtype of the restore configuration; different manager classes are rejected; metric settings bound in a `functools.partial` of the
checkpointer class reach the manager, those of the save configuration first. -/
theorem C98_manager (best : Kwargs V) (s : SaveCfg V D M) (r : RestoreCfg V D M) (it : Option It) :
    (s.manager ≠ r.manager → create best (some s) (some r) it = .error .managersDiffer) ∧
    (∀ a, create best (some s) (some r) it = .ok a → s.manager = r.manager ∧ a.manager = s.manager ∧
      a.saveDtype = s.dtype ∧ a.restoreDtype = r.dtype ∧ a.keep = s.keep ∧ a.period = s.period ∧
      ∀ defaults, s.cls = .partial_ defaults → ∀ k v, k ∈ metricSettings → (k, v) ∈ defaults → (k, v) ∈ a.extra) ∧
    (∀ a, create best (some s) none it = .ok a → a.saveDtype = s.dtype ∧ a.keep = s.keep ∧ a.period = s.period ∧
      (a.it = if s.saveDataset then it else none)) ∧
    (∀ a, create best none (some r) it = .ok a → a.restoreDtype = r.dtype ∧ a.keep = none ∧ (a.it = if r.restoreDataset then it else none)) := by
  refine ⟨fun h => ?_, fun a h => ?_, fun a h => ?_, fun a h => ?_⟩
  · simp only [create]
    rw [if_pos h]
  · simp only [create] at h
    by_cases hm : s.manager ≠ r.manager
    · rw [if_pos hm] at h; cases h
    · rw [if_neg hm] at h
      obtain rfl := Except.ok.inj h
      refine ⟨by simpa using hm, (not_not.1 hm).symm, rfl, rfl, rfl, rfl, ?_⟩
      intro defaults hc k v hk hv
      have hmem : (k, v) ∈ extraKwargs best s.cls := by
        rw [hc]
        have hk' : k ∈ relevant := hk
        exact List.mem_filter.2 ⟨hv, by simpa using hk'⟩
      dsimp only
      rw [if_neg]
      · exact hmem
      · intro he
        rw [List.isEmpty_iff] at he
        rw [he] at hmem
        cases hmem
  · obtain rfl := Except.ok.inj h
    exact ⟨rfl, rfl, rfl, rfl⟩
  · obtain rfl := Except.ok.inj h
    exact ⟨rfl, rfl, rfl⟩

/-- **C98** (findings about the configuration).  The class `SaveBestCheckpointer` itself, not wrapped in a `functools.partial`, gives
the manager no metric settings at all: it then keeps the newest checkpoints.  And `save_dataset` alone makes the manager restore the
iterator too, `restore_dataset` alone makes it save it, unlike `LegacyCheckpointManager`. -/
theorem C98_config_findings (best : Kwargs V) (s : SaveCfg V D M) (r : RestoreCfg V D M) (i : It) (a : Args V D M It)
    (h : create best (some s) (some r) (some i) = .ok a) :
    (∀ b b', s.cls = .cls b → r.cls = .cls b' → a.extra = []) ∧
    (s.saveDataset = true → r.restoreDataset = false → a.it = some i ∧ legacyIterators (some s) (some r) (some i) = (some i, none)) ∧
    (s.saveDataset = false → r.restoreDataset = true → a.it = some i ∧ legacyIterators (some s) (some r) (some i) = (none, some i)) := by
  simp only [create] at h
  by_cases hm : s.manager ≠ r.manager
  · rw [if_pos hm] at h; cases h
  · rw [if_neg hm] at h
    obtain rfl := Except.ok.inj h
    refine ⟨fun b b' h1 h2 => ?_, fun h1 h2 => ?_, fun h1 h2 => ?_⟩
    · dsimp only
      rw [h1, h2]
      rfl
    · dsimp only [legacyIterators]
      rw [h1, h2]
      exact ⟨rfl, rfl⟩
    · dsimp only [legacyIterators]
      rw [h1, h2]
      exact ⟨rfl, rfl⟩

/-! ### Witnesses -/

/-- Directory `m` with checkpoints of steps 1 and 2 written by `Checkpointer`. -/
def demo : World where
  isDir p := p = ['m'] ∨ p = getCheckpointDir prefix_ ['m'] 1 ∨ p = getCheckpointDir prefix_ ['m'] 2
  exists_ p := p = fileOf ['m'] 1 ∨ p = fileOf ['m'] 2
  content _ := .msgpack (Msgpack.Spec.Val.map (.cons "version".toList (.other 3) (.cons "optimizer".toList (.map .nil) .nil))).enc
  latest _ := some 2

/-- The hypotheses of `C98_path` and `C98_step_legacy` are met, and the effect of the latter. -/
example : demo.isDir ['m'] = true ∧ HasFile demo ['m'] 1 ∧ HasFile demo ['m'] 2 ∧ ¬ HasMeta demo ['m'] 1 ∧
    ¬ HasMeta demo ['m'] 2 ∧ demo.isDir (pathJoin (getCheckpointDir prefix_ ['m'] 2) "state".toList) = false ∧
    restoreSource demo ['m'] (some 1) none = .ok (.legacy (fileOf ['m'] 2)) ∧
    restoreSource demo ['m'] none (some "m/checkpoint_1".toList) = .ok (.legacy (fileOf ['m'] 1)) := by
  refine ⟨by decide +kernel, ?_, ?_, by unfold HasMeta; decide +kernel, by unfold HasMeta; decide +kernel, by decide +kernel,
    by decide +kernel, by decide +kernel⟩
  · exact ⟨by decide +kernel, by decide +kernel⟩
  · exact ⟨by decide +kernel, by decide +kernel⟩

example : ∃ a, create (V := Nat) (D := Nat) (M := Nat) (It := Nat) [] (some ⟨none, some 3, some 10, true,
      .partial_ [("metric_mode".toList, 7), ("keep".toList, 5)], 0⟩) (some ⟨some 1, false, .cls false, 0⟩) (some 9) = .ok a ∧
    a.extra = [("metric_mode".toList, 7)] ∧ a.it = some 9 := ⟨_, rfl, by decide +kernel, rfl⟩

end Verif.OrbaxMgr
