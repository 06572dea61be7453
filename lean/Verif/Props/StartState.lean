import Verif.Model.StartState
import Verif.Props.RestoreCfg
import Verif.Props.SaveRestore
/-
Property C123: the train state with which a job starts.
-/
namespace Verif.StartState
open Verif
open Verif.Ckpt (Name pathJoin dec)
open Verif.RestoreCfg (Cfg TrainRestore World firstValid trainCfgs trainSource)
open Verif.RestoreCfg.Spec (Yields NothingHere ckptsOf)

namespace Spec
variable {K M Ty Fn D S It R V ε : Type}

/-- A model directory as T5X writes it. -/
structure OwnDir (w : World) (modelDir : Name) : Prop where
  named : modelDir ≠ []
  dir : w.isDir modelDir = true
  native : w.tfPaths modelDir = none

/-- The configured initial checkpoint is one that training accepts: not mode 'all', and one path (or an empty sequence of paths). -/
def Accepted (restore : Option (TrainRestore (Restore K M Ty Fn))) : Prop :=
  ∀ x, restore = some x → x.cfg.mode ≠ .all ∧ (x.isStr = true ∨ x.cfg.paths = [])

/-- The checkpoint of a step. -/
def ckpt (dir : Name) (n : Nat) : Name := pathJoin dir ("checkpoint_".toList ++ dec n)

/-- The configured transformations. -/
def transforms (restore : Option (TrainRestore (Restore K M Ty Fn))) : List Fn := (restore.map fun x => x.cfg.tag.fns).getD []

/-- A start that reads: the outcome is that of the reader; the pipeline is where the reader puts it, if it does. -/
def StartsBy (read : Except ε (S × Option It)) (it : Option It) (start : Except (Err ε) (Start S It)) : Prop :=
  (∀ s, read = .ok (s, none) → start = .ok ⟨s, it, true⟩) ∧
  (∀ s j, read = .ok (s, some j) → start = .ok ⟨s, some j, true⟩) ∧
  ∀ e, read = .error e → start = .error (.read e)

/-- The state for missing parameters. -/
def fallbackOf (io : Io K M Ty Fn D S It R V ε) (r : Restore K M Ty Fn) (rng : R) : Option D :=
  if r.fallback = true then some (io.stateDict (io.scratch rng)) else none

end Spec
open Spec

variable {K M Ty Fn D S It R V ε : Type}

theorem ckpt_ne (d : Name) (n : Nat) : ckpt d n ≠ [] := by
  unfold ckpt pathJoin
  split_ifs <;> simp

theorem source_resume (w : World) (modelDir : Name) (tag : Restore K M Ty Fn) (restore : Option (TrainRestore (Restore K M Ty Fn))) (hd : OwnDir w modelDir)
    (hr : Accepted restore) (n : Nat) (hn : (w.steps modelDir).getLast? = some n) :
    trainSource w modelDir tag restore = .ok (some ⟨.latest, [modelDir], tag⟩, some (ckpt modelDir n)) :=
  (RestoreCfg.C27_training w modelDir tag restore hd.dir hd.native hr).1 n hn

theorem firstValid_skip (w : World) (modelDir : Name) (tag : Restore K M Ty Fn) (l : List (Cfg (Restore K M Ty Fn))) (hd : OwnDir w modelDir)
    (h0 : w.steps modelDir = []) : firstValid w (⟨.latest, [modelDir], tag⟩ :: l) = firstValid w l := by
  have : RestoreCfg.scanDirs w true [modelDir] = .ok none := by
    rw [RestoreCfg.scan_none]
    intro d hdm
    rw [List.mem_singleton] at hdm
    subst hdm
    exact ⟨hd.dir, by unfold ckptsOf; rw [hd.native, h0]; rfl⟩
  simp only [firstValid, this]

theorem source_initial (w : World) (modelDir : Name) (tag : Restore K M Ty Fn) (x : TrainRestore (Restore K M Ty Fn)) (hd : OwnDir w modelDir)
    (hm : x.cfg.mode ≠ .all) (hs : x.isStr = true) (h0 : w.steps modelDir = []) (p : Name) (hp : Yields w x.cfg [p]) :
    trainSource w modelDir tag (some x) = .ok (some x.cfg, some p) := by
  have h : firstValid w [x.cfg] = .ok (some x.cfg, [p]) := (RestoreCfg.C27_first_config w [x.cfg] x.cfg [p]).2 ⟨[], [], rfl, by simp, hp⟩
  unfold trainSource
  simp only [trainCfgs, if_neg hm, hs, if_true, firstValid_skip w modelDir tag _ hd h0, h]
  rfl

theorem source_scratch (w : World) (modelDir : Name) (tag : Restore K M Ty Fn) (restore : Option (TrainRestore (Restore K M Ty Fn))) (hd : OwnDir w modelDir)
    (hr : Accepted restore) (h0 : w.steps modelDir = []) (hn : ∀ x, restore = some x → x.isStr = true → NothingHere w x.cfg) :
    trainSource w modelDir tag restore = .ok (none, none) := by
  unfold trainSource
  cases restore with
  | none => simp only [trainCfgs, firstValid_skip w modelDir tag _ hd h0]; rfl
  | some x =>
    obtain ⟨h1, h2⟩ := hr x rfl
    simp only [trainCfgs, if_neg h1]
    cases hs : x.isStr with
    | false =>
      rcases h2 with h2 | h2
      · rw [hs] at h2; cases h2
      · simp only [Bool.false_eq_true, if_false, h2, List.isEmpty_nil, if_true, firstValid_skip w modelDir tag _ hd h0]; rfl
    | true =>
      simp only [if_true, firstValid_skip w modelDir tag _ hd h0]
      obtain ⟨ps, h⟩ := (RestoreCfg.C27_none w [x.cfg]).2 (by simpa using hn x rfl hs)
      have hps : ps = [] := by
        unfold firstValid at h
        split at h
        · cases h
        · simp only [firstValid, Except.ok.injEq, Prod.mk.injEq, true_and] at h; exact h.symm
        · split at h
          · cases h
          · cases h
          · simp only [firstValid, Except.ok.injEq, Prod.mk.injEq, true_and] at h; exact h.symm
        · split at h
          · cases h
          · cases h
          · simp only [firstValid, Except.ok.injEq, Prod.mk.injEq, true_and] at h; exact h.symm
      subst hps
      rw [h]
      rfl

variable [DecidableEq M]

theorem lacks_false (save : Option (Save K M Ty)) (it : Option It) (hds : ∀ s, save = some s → s.saveDataset = true → it.isSome = true) :
    lacksIterator save it = false := by
  cases save with
  | none => rfl
  | some s =>
    cases h : s.saveDataset with
    | false => simp [lacksIterator, h]
    | true =>
      have := hds s rfl h
      cases it with
      | none => cases this
      | some i => simp [lacksIterator]

/-- The legacy manager with one path. -/
theorem legacy_one (io : Io K M Ty Fn D S It R V ε) (save : Option (Save K M Ty)) (r : Restore K M Ty Fn) (p : Name) (hp : p ≠ []) (rng : Option R)
    (md : Bool) (it : Option It) (hds : ∀ s, save = some s → s.saveDataset = true → it.isSome = true) (fb : Option D)
    (hfb : fallbackState io (some r) rng = .ok fb) :
    createAndRestore io save (some r) (some p) rng md it false =
      match legacyRestore1 io ⟨some (r.cls, r.dtype, r.restoreDataset && it.isSome), r.strict⟩ r.fns fb p with
      | .error e => .error e
      | .ok (s, j) => .ok (some s, loaded it j) := by
  have h1 := lacks_false save it hds
  have h2 : p.isEmpty = false := by simpa using hp
  simp only [createAndRestore, Option.isNone_some, Bool.and_false, Bool.false_eq_true, if_false, h2, managerRestore, legacyManager, h1, hfb,
    legacyRestore, restoreAll]
  cases legacyRestore1 io ⟨some (r.cls, r.dtype, r.restoreDataset && it.isSome), r.strict⟩ r.fns fb p with
  | error e => rfl
  | ok x => rfl

/-- Reading one T5X checkpoint. -/
theorem legacy_t5x (io : Io K M Ty Fn D S It R V ε) (m : K × Option Ty × Bool) (strict : Bool) (fns : List Fn) (fb : Option D) (p : Name)
    (h : io.isTf p = false) : legacyRestore1 io ⟨some m, strict⟩ fns fb p = lift (io.t5x m.1 m.2.1 m.2.2 p fns fb) := by
  simp only [legacyRestore1, h, Bool.false_and, Bool.false_eq_true, if_false]

theorem startsBy_of (read : Except ε (S × Option It)) (it : Option It) (start : Except (Err ε) (Start S It))
    (h : start = match lift read with
      | .error e => .error e
      | .ok (s, j) => .ok ⟨s, loaded it j, true⟩) : StartsBy read it start := by
  subst h
  refine ⟨fun s hs => ?_, fun s j hs => ?_, fun e he => ?_⟩
  · rw [hs]; rfl
  · rw [hs]; rfl
  · rw [he]; rfl

theorem train_of (io : Io K M Ty Fn D S It R V ε) (d : Defaults K M Ty Fn) (w : World) (modelDir : Name) (save : Option (Save K M Ty))
    (restore : Option (TrainRestore (Restore K M Ty Fn))) (rng : R) (it : Option It) (ob : Bool) (c : Cfg (Restore K M Ty Fn)) (p : Name)
    (h : trainSource w modelDir (resumeCfg d save (restore.map (·.cfg.tag))) restore = .ok (some c, some p)) :
    train io d w modelDir save restore rng it ob =
      match createAndRestore io save (some c.tag) (some p) (some rng) (!modelDir.isEmpty) it ob with
      | .error e => .error e
      | .ok (some s, it') => .ok ⟨s, it', true⟩
      | .ok (none, it') => .ok ⟨io.scratch rng, it', true⟩ := by
  unfold train
  simp only [h, Option.isSome_some, Bool.true_or, if_true, Option.map_some]
  rcases createAndRestore io save (some c.tag) (some p) (some rng) (!modelDir.isEmpty) it ob with e | ⟨_ | s, it'⟩ <;> rfl

/-- **C123, resuming**: if the model directory has checkpoints, the job starts from the latest one, whatever initial checkpoint is configured: read
with the dtype and the class with which checkpoints are saved, all of it (no fallback), with the configured transformations told that
the job resumes, and with the input pipeline exactly if it is saved. -/
theorem C123_resume (io : Io K M Ty Fn D S It R V ε) (d : Defaults K M Ty Fn) (w : World) (modelDir : Name) (sv : Save K M Ty)
    (restore : Option (TrainRestore (Restore K M Ty Fn))) (rng : R) (it : Option It) (hd : OwnDir w modelDir) (hr : Accepted restore)
    (hds : sv.saveDataset = true → it.isSome = true) (n : Nat) (hn : (w.steps modelDir).getLast? = some n) (hi : io.isTf (ckpt modelDir n) = false) :
    StartsBy (io.t5x sv.cls sv.dtype sv.saveDataset (ckpt modelDir n) ((transforms restore).map d.resuming) none) it
      (train io d w modelDir (some sv) restore rng it false) := by
  apply startsBy_of
  have hfns : (resumeCfg d (some sv) (restore.map (·.cfg.tag))).fns = (transforms restore).map d.resuming := by
    unfold resumeCfg transforms
    cases restore <;> rfl
  have hb : (sv.saveDataset && it.isSome) = sv.saveDataset := by
    cases h : sv.saveDataset with
    | false => rfl
    | true => rw [hds h]; rfl
  rw [train_of io d w modelDir (some sv) restore rng it false _ _ (source_resume w modelDir _ restore hd hr n hn),
    legacy_one io (some sv) _ _ (ckpt_ne _ _) _ _ it (fun s hs h => by cases hs; exact hds h) none rfl, legacy_t5x _ _ _ _ _ _ hi, hfns]
  change (match (match lift (io.t5x sv.cls sv.dtype (sv.saveDataset && it.isSome) (ckpt modelDir n) ((transforms restore).map d.resuming) none) with
      | .error e => .error e
      | .ok (s, j) => .ok (some s, loaded it j) : Except (Err ε) (Option S × Option It)) with
    | .error e => .error e
    | .ok (some s, it') => .ok ⟨s, it', true⟩
    | .ok (none, it') => .ok ⟨io.scratch rng, it', true⟩ : Except (Err ε) (Start S It)) = _
  rw [hb]
  cases lift (io.t5x sv.cls sv.dtype sv.saveDataset (ckpt modelDir n) ((transforms restore).map d.resuming) none) with
  | error e => rfl
  | ok x => rfl

/-- **C123, the initial checkpoint**: a job whose model directory has no checkpoint starts from the configured one, read with the settings configured for
it; missing parameters are taken from the state from scratch exactly if that is asked for. -/
theorem C123_initial (io : Io K M Ty Fn D S It R V ε) (d : Defaults K M Ty Fn) (w : World) (modelDir : Name) (save : Option (Save K M Ty))
    (x : TrainRestore (Restore K M Ty Fn)) (rng : R) (it : Option It) (hd : OwnDir w modelDir) (hm : x.cfg.mode ≠ .all) (hs : x.isStr = true)
    (hds : ∀ s, save = some s → s.saveDataset = true → it.isSome = true) (h0 : w.steps modelDir = []) (p : Name) (hp : Yields w x.cfg [p]) (hne : p ≠ []) :
    (x.cfg.tag.fallback = true → x.cfg.tag.fns = [] → train io d w modelDir save (some x) rng it false = .error .fallbackNoFns) ∧
    (io.isTf p = false → (x.cfg.tag.fallback = true → x.cfg.tag.fns ≠ []) →
      StartsBy (io.t5x x.cfg.tag.cls x.cfg.tag.dtype (x.cfg.tag.restoreDataset && it.isSome) p x.cfg.tag.fns (fallbackOf io x.cfg.tag rng)) it
        (train io d w modelDir save (some x) rng it false)) ∧
    (io.isTf p = true → x.cfg.tag.fns ≠ [] → train io d w modelDir save (some x) rng it false = .error .tfTransforms) ∧
    (io.isTf p = true → x.cfg.tag.fns = [] → x.cfg.tag.fallback = false →
      (∀ s, io.tf x.cfg.tag.cls x.cfg.tag.dtype p x.cfg.tag.strict = .ok s → train io d w modelDir save (some x) rng it false = .ok ⟨s, it, true⟩) ∧
      ∀ e, io.tf x.cfg.tag.cls x.cfg.tag.dtype p x.cfg.tag.strict = .error e → train io d w modelDir save (some x) rng it false = .error (.read e)) := by
  have h1 := train_of io d w modelDir save (some x) rng it false _ _ (source_initial w modelDir _ x hd hm hs h0 p hp)
  have hfb : (x.cfg.tag.fallback = true → x.cfg.tag.fns ≠ []) → fallbackState io (some x.cfg.tag) (some rng) = .ok (fallbackOf io x.cfg.tag rng) := by
    intro hf
    unfold fallbackState fallbackOf
    cases hb : x.cfg.tag.fallback with
    | false => simp only [hb, Bool.false_eq_true, if_false]
    | true =>
      have hf : x.cfg.tag.fns.isEmpty = false := by simpa using hf hb
      simp only [hb, if_true, hf, Bool.false_eq_true, if_false]
  refine ⟨fun h2 h3 => ?_, fun h2 h3 => ?_, fun h2 h3 => ?_, fun h2 h3 h4 => ?_⟩
  · rw [h1]
    have hl := lacks_false save it hds
    have : fallbackState io (some x.cfg.tag) (some rng) = .error .fallbackNoFns := by
      simp only [fallbackState, h2, h3, if_true, List.isEmpty_nil]
    simp only [createAndRestore, Option.isNone_some, Bool.and_false, Bool.false_eq_true, if_false, managerRestore, legacyManager, hl, this]
  · apply startsBy_of
    rw [h1, legacy_one io save _ p hne _ _ it hds _ (hfb h3), legacy_t5x _ _ _ _ _ _ h2]
    change (match (match lift (io.t5x x.cfg.tag.cls x.cfg.tag.dtype (x.cfg.tag.restoreDataset && it.isSome) p x.cfg.tag.fns (fallbackOf io x.cfg.tag rng)) with
        | .error e => .error e
        | .ok (s, j) => .ok (some s, loaded it j) : Except (Err ε) (Option S × Option It)) with
      | .error e => .error e
      | .ok (some s, it') => .ok ⟨s, it', true⟩
      | .ok (none, it') => .ok ⟨io.scratch rng, it', true⟩ : Except (Err ε) (Start S It)) = _
    cases lift (io.t5x x.cfg.tag.cls x.cfg.tag.dtype (x.cfg.tag.restoreDataset && it.isSome) p x.cfg.tag.fns (fallbackOf io x.cfg.tag rng)) with
    | error e => rfl
    | ok y => rfl
  · have h3' : x.cfg.tag.fns.isEmpty = false := by simpa using h3
    rw [h1, legacy_one io save _ p hne _ _ it hds _ (hfb fun _ => h3)]
    simp only [legacyRestore1, h2, h3', Bool.not_false, Bool.and_true, if_true]
  · have h5 : train io d w modelDir save (some x) rng it false =
        match io.tf x.cfg.tag.cls x.cfg.tag.dtype p x.cfg.tag.strict with
        | .error e => .error (.read e)
        | .ok s => .ok ⟨s, it, true⟩ := by
      rw [h1, legacy_one io save _ p hne _ _ it hds _ (hfb fun h => by rw [h4] at h; cases h)]
      simp only [legacyRestore1, h2, h3, List.isEmpty_nil, Bool.not_true, Bool.and_false, Bool.false_eq_true, if_false, if_true]
      cases io.tf x.cfg.tag.cls x.cfg.tag.dtype p x.cfg.tag.strict with
      | error e => rfl
      | ok s => rfl
    exact ⟨fun s hs' => by rw [h5, hs'], fun e he => by rw [h5, he]⟩

/-- **C123, from scratch**: with nothing to restore the job starts from the state made from the random key, with the pipeline untouched, and can save
exactly if a period or steps are configured. -/
theorem C123_scratch (io : Io K M Ty Fn D S It R V ε) (d : Defaults K M Ty Fn) (w : World) (modelDir : Name) (save : Option (Save K M Ty))
    (restore : Option (TrainRestore (Restore K M Ty Fn))) (rng : R) (it : Option It) (ob : Bool) (hd : OwnDir w modelDir) (hr : Accepted restore)
    (hds : ∀ s, save = some s → s.saveDataset = true → it.isSome = true) (h0 : w.steps modelDir = [])
    (hn : ∀ x, restore = some x → x.isStr = true → NothingHere w x.cfg) :
    ∃ b, train io d w modelDir save restore rng it ob = .ok ⟨io.scratch rng, it, b⟩ ∧
      (b = true ↔ ∃ s, save = some s ∧ ((∃ k, s.period = some k ∧ k ≠ 0) ∨ s.steps ≠ [])) := by
  have hsaves : saves save = true ↔ ∃ s, save = some s ∧ ((∃ k, s.period = some k ∧ k ≠ 0) ∨ s.steps ≠ []) := by
    unfold saves
    cases save with
    | none => simp
    | some s =>
      simp only [Option.some.injEq, exists_eq_left', Bool.or_eq_true, Bool.not_eq_true', List.isEmpty_eq_false_iff]
      cases s.period with
      | none => simp
      | some k => simp
  refine ⟨saves save, ?_, hsaves⟩
  unfold train
  rw [source_scratch w modelDir _ restore hd hr h0 hn]
  simp only [Option.isSome_none, Bool.false_or, Option.map_none]
  cases hsv : saves save with
  | false => rfl
  | true =>
    cases save with
    | none => cases hsv
    | some s =>
      have hmd : (!(!modelDir.isEmpty) && (none : Option (Restore K M Ty Fn)).isNone) = false := by
        have : modelDir.isEmpty = false := by simpa using hd.named
        rw [this]; rfl
      have hz := lacks_false (some s) it hds
      simp only [if_true, createAndRestore, hmd, Bool.false_eq_true, if_false]
      cases ob with
      | false => simp only [managerRestore, Bool.false_eq_true, if_false, legacyManager, hz, fallbackState, legacyRestore]
      | true => simp only [managerRestore, if_true, Option.map_some, Option.map_none, OrbaxMgr.create, fallbackState, orbaxRestore]

/-! ### `TrainStateInitializer` -/

theorem firstValid_none (w : World) (cfgs : List (Cfg (Restore K M Ty Fn))) (ps : List Name) (h : firstValid w cfgs = .ok (none, ps)) : ps = [] := by
  induction cfgs with
  | nil => simp only [firstValid, Except.ok.injEq, Prod.mk.injEq, true_and] at h; exact h.symm
  | cons c cs ih =>
    unfold firstValid at h
    split at h
    · cases h
    · exact ih h
    · split at h
      · cases h
      · cases h
      · exact ih h
    · split at h
      · cases h
      · cases h
      · exact ih h

theorem restoreAll_length (f : Name → Except (Err ε) (S × Option It)) (ps : List Name) (it : Option It) (ss : List S) (it' : Option It)
    (h : restoreAll f ps it = .ok (ss, it')) : ss.length = ps.length := by
  induction ps generalizing it ss with
  | nil => simp only [restoreAll, Except.ok.injEq, Prod.mk.injEq] at h; rw [← h.1]; rfl
  | cons p ps ih =>
    simp only [restoreAll] at h
    split at h
    · cases h
    · split at h
      · cases h
      · rename_i hy
        simp only [Except.ok.injEq, Prod.mk.injEq] at h
        obtain ⟨rfl, rfl⟩ := h
        simp only [List.length_cons, ih _ _ hy]

/-- One path: the manager and the initialiser do the same. -/
theorem init_one (io : Io K M Ty Fn D S It R V ε) (r : Restore K M Ty Fn) (p : Name) (rng : R) (it : Option It) (fb : Option D)
    (hfb : fallbackState io (some r) (some rng) = .ok fb) :
    initRestore1 io r (some rng) it p =
      legacyRestore1 io ⟨some (r.cls, r.dtype, r.restoreDataset && it.isSome), r.strict⟩ r.fns fb p := by
  unfold initRestore1 legacyRestore1
  cases io.isTf p with
  | false => simp only [Bool.false_eq_true, if_false, Bool.false_and, hfb]
  | true =>
    cases hf : r.fns.isEmpty with
    | false => simp only [Bool.false_eq_true, if_false, Bool.not_false, Bool.and_true, if_true]
    | true => simp only [if_true, Bool.not_true, Bool.and_false, Bool.false_eq_true, if_false]

/-- **C123, one rule for both ways**: whenever a training job starts, `TrainStateInitializer.from_checkpoint_or_scratch` with the same list of
configurations gives the same train state and leaves the pipeline in the same state. -/
theorem C123_initializer (io : Io K M Ty Fn D S It R V ε) (d : Defaults K M Ty Fn) (w : World) (modelDir : Name) (save : Option (Save K M Ty))
    (restore : Option (TrainRestore (Restore K M Ty Fn))) (rng : R) (it : Option It) (cfgs : List (Cfg (Restore K M Ty Fn)))
    (hc : trainCfgs ⟨.latest, [modelDir], resumeCfg d save (restore.map (·.cfg.tag))⟩ restore = .ok cfgs) (st : Start S It)
    (h : train io d w modelDir save restore rng it false = .ok st) :
    fromCheckpointOrScratch io w cfgs rng it = .ok (st.state, st.it) := by
  unfold train trainSource at h
  simp only [hc] at h
  unfold fromCheckpointOrScratch fromCheckpoint
  cases hv : firstValid w cfgs with
  | error e => simp only [hv] at h; cases h
  | ok x =>
    obtain ⟨c, ps⟩ := x
    simp only [hv] at h
    cases c with
    | none =>
      obtain rfl := firstValid_none w cfgs ps hv
      simp only [List.length_nil, gt_iff_lt, Nat.not_lt_zero, if_false, List.head?_nil, Option.isSome_none, Bool.false_or, Option.map_none] at h
      cases hsv : saves save with
      | false =>
        simp only [hsv, Bool.false_eq_true, if_false, Except.ok.injEq] at h
        subst h; rfl
      | true =>
        simp only [hsv, if_true, createAndRestore, managerRestore, Bool.false_eq_true, if_false, legacyManager, fallbackState, legacyRestore] at h
        split at h
        · cases h
        · rename_i s' it' hx
          exfalso
          split at hx
          · cases hx
          · split at hx <;> rename_i hy <;> split at hy <;> cases hy <;> cases hx
        · rename_i it' hx
          simp only [Except.ok.injEq] at h
          subst h
          have : it' = it := by
            split at hx
            · cases hx
            · split at hx <;> rename_i hy <;> split at hy <;> cases hy <;> cases hx
              rfl
          subst this; rfl
    | some c =>
      by_cases hl : ps.length > 1
      · rw [if_pos hl] at h; cases h
      · rw [if_neg hl] at h
        simp only [Option.isSome_some, Bool.true_or, if_true, Option.map_some] at h
        rcases ps with _ | ⟨p, _ | ⟨q, ps⟩⟩
        · exfalso
          simp only [List.head?_nil, createAndRestore, Option.isNone_some, Bool.and_false, Bool.false_eq_true, if_false, managerRestore, legacyManager] at h
          cases hlk : lacksIterator save it with
          | true => simp only [hlk, if_true] at h; cases h
          | false =>
            cases hfb : fallbackState io (some c.tag) (some rng) with
            | error e => simp only [hlk, Bool.false_eq_true, if_false, hfb] at h; cases h
            | ok fb => simp only [hlk, Bool.false_eq_true, if_false, hfb, legacyRestore, restoreAll, unpack] at h; cases h
        · simp only [List.head?_cons, createAndRestore, Option.isNone_some, Bool.and_false, Bool.false_eq_true, if_false, managerRestore, legacyManager] at h
          cases hlk : lacksIterator save it with
          | true => simp only [hlk, if_true] at h; cases h
          | false =>
            cases hfb : fallbackState io (some c.tag) (some rng) with
            | error e => simp only [hlk, Bool.false_eq_true, if_false, hfb] at h; cases h
            | ok fb =>
              by_cases hp : p = []
              · subst hp
                simp only [hlk, Bool.false_eq_true, if_false, hfb, legacyRestore, List.isEmpty_nil, if_true, restoreAll, unpack] at h
                cases h
              · have hp' : p.isEmpty = false := by simpa using hp
                simp only [hlk, Bool.false_eq_true, if_false, hfb, legacyRestore, hp', restoreAll, ← init_one io c.tag p rng it fb hfb] at h
                simp only [restoreAll]
                cases hr : initRestore1 io c.tag (some rng) it p with
                | error e => simp only [hr] at h; cases h
                | ok y =>
                  simp only [hr, unpack, Except.ok.injEq] at h
                  subst h; rfl
        · simp at hl

/-- **C123, the other direction**: when the initialiser gives a state, a training job starts with it, except for an empty path, and for a TensorFlow
checkpoint with `fallback_to_scratch` (which the manager rejects and the initialiser ignores). -/
theorem C123_initializer_conv (io : Io K M Ty Fn D S It R V ε) (d : Defaults K M Ty Fn) (w : World) (modelDir : Name) (save : Option (Save K M Ty))
    (restore : Option (TrainRestore (Restore K M Ty Fn))) (rng : R) (it : Option It) (hne : modelDir ≠ [])
    (hds : ∀ s, save = some s → s.saveDataset = true → it.isSome = true) (cfgs : List (Cfg (Restore K M Ty Fn)))
    (hc : trainCfgs ⟨.latest, [modelDir], resumeCfg d save (restore.map (·.cfg.tag))⟩ restore = .ok cfgs) (s : S) (it' : Option It)
    (h : fromCheckpointOrScratch io w cfgs rng it = .ok (s, it')) :
    (∃ b, train io d w modelDir save restore rng it false = .ok ⟨s, it', b⟩) ∨
      ∃ c ps, firstValid w cfgs = .ok (some c, ps) ∧ (ps = [] ∨ ps = [[]] ∨ ∃ p, ps = [p] ∧ io.isTf p = true ∧ c.tag.fallback = true) := by
  unfold fromCheckpointOrScratch fromCheckpoint at h
  unfold train trainSource
  simp only [hc]
  cases hv : firstValid w cfgs with
  | error e => simp only [hv] at h; cases h
  | ok x =>
    obtain ⟨c, ps⟩ := x
    simp only [hv] at h
    have hlk := lacks_false save it hds
    cases c with
    | none =>
      obtain rfl := firstValid_none w cfgs ps hv
      simp only [Except.ok.injEq, Prod.mk.injEq] at h
      obtain ⟨rfl, rfl⟩ := h
      refine Or.inl ⟨saves save, ?_⟩
      simp only [List.length_nil, gt_iff_lt, Nat.not_lt_zero, if_false, List.head?_nil, Option.isSome_none, Bool.false_or, Option.map_none]
      cases hsv : saves save with
      | false => rfl
      | true =>
        have hmd : (!(!modelDir.isEmpty) && (none : Option (Restore K M Ty Fn)).isNone) = false := by
          have : modelDir.isEmpty = false := by simpa using hne
          rw [this]; rfl
        simp only [if_true, createAndRestore, hmd, Bool.false_eq_true, if_false, managerRestore, legacyManager, hlk, fallbackState, legacyRestore]
    | some c =>
      rcases ps with _ | ⟨p, _ | ⟨q, ps⟩⟩
      · exact Or.inr ⟨c, [], rfl, Or.inl rfl⟩
      · by_cases hp : p = []
        · exact Or.inr ⟨c, [p], rfl, Or.inr (Or.inl (by rw [hp]))⟩
        · by_cases hx : io.isTf p = true ∧ c.tag.fallback = true
          · exact Or.inr ⟨c, [p], rfl, Or.inr (Or.inr ⟨p, rfl, hx⟩)⟩
          · refine Or.inl ⟨true, ?_⟩
            have hl1 : ¬ [p].length > 1 := by simp
            simp only [if_neg hl1, Option.isSome_some, Bool.true_or, if_true, Option.map_some, List.head?_cons]
            have hfb : ∃ fb, fallbackState io (some c.tag) (some rng) = .ok fb := by
              cases hb : c.tag.fallback with
              | false => exact ⟨none, by simp only [fallbackState, hb, Bool.false_eq_true, if_false]⟩
              | true =>
                have ht : io.isTf p = false := by
                  cases ht : io.isTf p with
                  | false => rfl
                  | true => exact absurd ⟨ht, hb⟩ hx
                cases hf : fallbackState io (some c.tag) (some rng) with
                | ok fb => exact ⟨fb, rfl⟩
                | error e => simp only [restoreAll, initRestore1, ht, Bool.false_eq_true, if_false, hf] at h; cases h
            obtain ⟨fb, hfb⟩ := hfb
            rw [legacy_one io save c.tag p hp (some rng) _ it hds fb hfb, ← init_one io c.tag p rng it fb hfb]
            simp only [restoreAll] at h
            cases hr : initRestore1 io c.tag (some rng) it p with
            | error e => simp only [hr] at h; cases h
            | ok y =>
              simp only [hr, Except.ok.injEq, Prod.mk.injEq] at h
              obtain ⟨rfl, rfl⟩ := h
              rfl
      · exfalso
        cases hr : restoreAll (initRestore1 io c.tag (some rng) it) (p :: q :: ps) it with
        | error e => simp only [hr] at h; cases h
        | ok y =>
          obtain ⟨ss, it2⟩ := y
          have hlen := restoreAll_length _ _ _ _ _ hr
          rcases ss with _ | ⟨a, _ | ⟨b, ss⟩⟩
          · cases hlen
          · simp at hlen
          · simp only [hr] at h; cases h

/-! ### Orbax -/

theorem ite_isSome (b : Bool) (it : Option It) : (if b = true then it else none).isSome = (b && it.isSome) := by
  cases b <;> rfl

/-- The Orbax manager with one path that is not a TensorFlow checkpoint. -/
theorem orbax_one (io : Io K M Ty Fn D S It R V ε) (save : Option (Save K M Ty)) (r : Restore K M Ty Fn) (p : Name) (hp : p ≠ []) (rng : Option R)
    (md : Bool) (it : Option It) (a : OrbaxMgr.Args V Ty M It)
    (ha : OrbaxMgr.create io.best (save.map (orbaxSave io)) (some (orbaxCfg io r)) it = .ok a) (fb : Option D)
    (hfb : fallbackState io (some r) rng = .ok fb) (ht : io.isTf p = false) :
    createAndRestore io save (some r) (some p) rng md it true =
      match lift (io.orbax a.manager a.restoreDtype a.it.isSome p r.fns fb) with
      | .error e => .error e
      | .ok (s, j) => .ok (some s, loaded it j) := by
  have h2 : p.isEmpty = false := by simpa using hp
  simp only [createAndRestore, Option.isNone_some, Bool.and_false, Bool.false_eq_true, if_false, h2, managerRestore, if_true, Option.map_some, ha, hfb,
    orbaxRestore, orbaxLoop, ht]
  cases io.orbax a.manager a.restoreDtype a.it.isSome p r.fns fb with
  | error e => rfl
  | ok x => rfl

/-- **C123, Orbax**: with `use_orbax` a job resumes from the same checkpoint with the same settings, provided the configured manager is the default
one; with any other manager every attempt to resume fails. -/
theorem C123_orbax_resume (io : Io K M Ty Fn D S It R V ε) (d : Defaults K M Ty Fn) (w : World) (modelDir : Name) (sv : Save K M Ty)
    (restore : Option (TrainRestore (Restore K M Ty Fn))) (rng : R) (it : Option It) (hd : OwnDir w modelDir) (hr : Accepted restore)
    (n : Nat) (hn : (w.steps modelDir).getLast? = some n) :
    (sv.manager ≠ d.manager → train io d w modelDir (some sv) restore rng it true = .error (.manager .managersDiffer)) ∧
    (sv.manager = d.manager → io.isTf (ckpt modelDir n) = false →
      StartsBy (io.orbax d.manager sv.dtype (sv.saveDataset && it.isSome) (ckpt modelDir n) ((transforms restore).map d.resuming) none) it
        (train io d w modelDir (some sv) restore rng it true)) := by
  have hfns : (resumeCfg d (some sv) (restore.map (·.cfg.tag))).fns = (transforms restore).map d.resuming := by
    unfold resumeCfg transforms
    cases restore <;> rfl
  rw [train_of io d w modelDir (some sv) restore rng it true _ _ (source_resume w modelDir _ restore hd hr n hn)]
  constructor
  · intro hne
    have h1 : OrbaxMgr.create io.best (some (orbaxSave io sv)) (some (orbaxCfg io (resumeCfg d (some sv) (restore.map (·.cfg.tag))))) it =
        .error .managersDiffer := by
      have hne' : (orbaxSave io sv).manager ≠ (orbaxCfg io (resumeCfg d (some sv) (restore.map (·.cfg.tag)))).manager := hne
      simp only [OrbaxMgr.create]
      rw [if_pos hne']
    simp only [createAndRestore, Option.isNone_some, Bool.and_false, Bool.false_eq_true, if_false, managerRestore, if_true, Option.map_some, h1]
  · intro heq ht
    apply startsBy_of
    have h1 : ∃ a, OrbaxMgr.create io.best ((some sv).map (orbaxSave io)) (some (orbaxCfg io (resumeCfg d (some sv) (restore.map (·.cfg.tag))))) it = .ok a ∧
        a.manager = d.manager ∧ a.restoreDtype = sv.dtype ∧ a.it.isSome = (sv.saveDataset && it.isSome) := by
      simp only [OrbaxMgr.create, Option.map_some]
      have hnn : ¬ (orbaxSave io sv).manager ≠ (orbaxCfg io (resumeCfg d (some sv) (restore.map (·.cfg.tag)))).manager := fun h => h heq
      rw [if_neg hnn]
      refine ⟨_, rfl, rfl, rfl, ?_⟩
      have : ((orbaxSave io sv).saveDataset || (orbaxCfg io (resumeCfg d (some sv) (restore.map (·.cfg.tag)))).restoreDataset) = sv.saveDataset := by
        simp only [orbaxSave, orbaxCfg, resumeCfg, Bool.or_self]
      rw [this]
      cases sv.saveDataset <;> rfl
    obtain ⟨a, h1, h2, h3, h4⟩ := h1
    rw [orbax_one io (some sv) _ _ (ckpt_ne _ _) _ _ it a h1 none rfl ht, h2, h3, h4, hfns]
    cases lift (io.orbax d.manager sv.dtype (sv.saveDataset && it.isSome) (ckpt modelDir n) ((transforms restore).map d.resuming) none) with
    | error e => rfl
    | ok x => rfl

/-- **C123, finding**: with `use_orbax` and a manager class other than the default one in `SaveCheckpointConfig`, the first start of a job works, but
no later one, whatever is configured for restoring. -/
theorem C123_never_resumes (io : Io K M Ty Fn D S It R V ε) (d : Defaults K M Ty Fn) (w w' : World) (modelDir : Name) (sv : Save K M Ty)
    (restore : Option (TrainRestore (Restore K M Ty Fn))) (rng : R) (it : Option It) (hd : OwnDir w modelDir) (hd' : OwnDir w' modelDir)
    (hr : Accepted restore) (hm : sv.manager ≠ d.manager) (hds : sv.saveDataset = true → it.isSome = true) (h0 : w.steps modelDir = [])
    (hn : ∀ x, restore = some x → x.isStr = true → NothingHere w x.cfg) (h1 : w'.steps modelDir ≠ []) :
    (∃ b, train io d w modelDir (some sv) restore rng it true = .ok ⟨io.scratch rng, it, b⟩) ∧
      train io d w' modelDir (some sv) restore rng it true = .error (.manager .managersDiffer) := by
  obtain ⟨b, hb, -⟩ := C123_scratch io d w modelDir (some sv) restore rng it true hd hr (fun s hs h => by cases hs; exact hds h) h0 hn
  obtain ⟨n, hn'⟩ : ∃ n, (w'.steps modelDir).getLast? = some n := by
    cases h : (w'.steps modelDir).getLast? with
    | none => exact absurd (List.getLast?_eq_none_iff.1 h) h1
    | some n => exact ⟨n, rfl⟩
  exact ⟨⟨b, hb⟩, (C123_orbax_resume io d w' modelDir sv restore rng it hd' hr n hn').1 hm⟩

/-- **C123, Orbax and the initial checkpoint**: it is read with the settings configured for it, but the pipeline is read if it is to be restored or to be
saved. -/
theorem C123_orbax_initial (io : Io K M Ty Fn D S It R V ε) (d : Defaults K M Ty Fn) (w : World) (modelDir : Name) (sv : Save K M Ty)
    (x : TrainRestore (Restore K M Ty Fn)) (rng : R) (it : Option It) (hd : OwnDir w modelDir) (hm : x.cfg.mode ≠ .all) (hs : x.isStr = true)
    (h0 : w.steps modelDir = []) (p : Name) (hp : Yields w x.cfg [p]) (hne : p ≠ []) (hmg : sv.manager = x.cfg.tag.manager) (ht : io.isTf p = false)
    (hf : x.cfg.tag.fallback = true → x.cfg.tag.fns ≠ []) :
    StartsBy (io.orbax x.cfg.tag.manager x.cfg.tag.dtype ((sv.saveDataset || x.cfg.tag.restoreDataset) && it.isSome) p x.cfg.tag.fns
      (fallbackOf io x.cfg.tag rng)) it (train io d w modelDir (some sv) (some x) rng it true) := by
  apply startsBy_of
  have hfb : fallbackState io (some x.cfg.tag) (some rng) = .ok (fallbackOf io x.cfg.tag rng) := by
    unfold fallbackState fallbackOf
    cases hb : x.cfg.tag.fallback with
    | false => simp only [hb, Bool.false_eq_true, if_false]
    | true =>
      have hf : x.cfg.tag.fns.isEmpty = false := by simpa using hf hb
      simp only [hb, if_true, hf, Bool.false_eq_true, if_false]
  have h1 : ∃ a, OrbaxMgr.create io.best ((some sv).map (orbaxSave io)) (some (orbaxCfg io x.cfg.tag)) it = .ok a ∧
      a.manager = x.cfg.tag.manager ∧ a.restoreDtype = x.cfg.tag.dtype ∧ a.it.isSome = ((sv.saveDataset || x.cfg.tag.restoreDataset) && it.isSome) := by
    simp only [OrbaxMgr.create, Option.map_some]
    have hnn : ¬ (orbaxSave io sv).manager ≠ (orbaxCfg io x.cfg.tag).manager := fun h => h hmg
    rw [if_neg hnn]
    refine ⟨_, rfl, rfl, rfl, ?_⟩
    exact ite_isSome _ _
  obtain ⟨a, h1, h2, h3, h4⟩ := h1
  rw [train_of io d w modelDir (some sv) (some x) rng it true _ _ (source_initial w modelDir _ x hd hm hs h0 p hp),
    orbax_one io (some sv) _ p hne _ _ it a h1 _ hfb ht, h2, h3, h4]
  cases lift (io.orbax x.cfg.tag.manager x.cfg.tag.dtype ((sv.saveDataset || x.cfg.tag.restoreDataset) && it.isSome) p x.cfg.tag.fns
      (fallbackOf io x.cfg.tag rng)) with
  | error e => rfl
  | ok y => rfl

/-- **C123, finding**: a job that saves its pipeline (`save_dataset=True`) and starts from a checkpoint of another job with
`restore_dataset=False` keeps its own pipeline with `Checkpointer`, but with Orbax it goes on with the pipeline of the other job if that saved it. -/
theorem C123_orbax_dataset (io : Io K M Ty Fn D S It R V ε) (d : Defaults K M Ty Fn) (w : World) (modelDir : Name) (sv : Save K M Ty)
    (x : TrainRestore (Restore K M Ty Fn)) (rng : R) (i : It) (hd : OwnDir w modelDir) (hm : x.cfg.mode ≠ .all) (hs : x.isStr = true)
    (h0 : w.steps modelDir = []) (p : Name) (hp : Yields w x.cfg [p]) (hne : p ≠ []) (hmg : sv.manager = x.cfg.tag.manager) (ht : io.isTf p = false)
    (hf : x.cfg.tag.fallback = true → x.cfg.tag.fns ≠ []) (h1 : sv.saveDataset = true) (h2 : x.cfg.tag.restoreDataset = false) (s s' : S) (j : It)
    (hl : io.t5x x.cfg.tag.cls x.cfg.tag.dtype false p x.cfg.tag.fns (fallbackOf io x.cfg.tag rng) = .ok (s, none))
    (ho : io.orbax x.cfg.tag.manager x.cfg.tag.dtype true p x.cfg.tag.fns (fallbackOf io x.cfg.tag rng) = .ok (s', some j)) :
    train io d w modelDir (some sv) (some x) rng (some i) false = .ok ⟨s, some i, true⟩ ∧
      train io d w modelDir (some sv) (some x) rng (some i) true = .ok ⟨s', some j, true⟩ := by
  have g1 := (C123_initial io d w modelDir (some sv) x rng (some i) hd hm hs (fun _ _ _ => rfl) h0 p hp hne).2.1 ht hf
  have g2 := C123_orbax_initial io d w modelDir sv x rng (some i) hd hm hs h0 p hp hne hmg ht hf
  rw [h2] at g1 g2
  rw [h1] at g2
  exact ⟨g1.1 s hl, g2.2.1 s' j ho⟩

/-! ### Evaluation, inference, export and the interactive model -/

/-- **C123, evaluation and inference**: the parameters are those of the checkpoint at the path, read with the configured settings, but not
strictly; missing ones are taken from the state from scratch exactly if that is asked for, which needs a random key. -/
theorem C123_eval (io : Io K M Ty Fn D S It R V ε) (r : Restore K M Ty Fn) (p : Name) (hne : p ≠ []) (rng : Option R) :
    (r.fallback = true → r.fns = [] → ∀ ob, evalState io r p rng ob = .error .fallbackNoFns) ∧
    (r.fallback = true → r.fns ≠ [] → rng = none → ∀ ob, evalState io r p rng ob = .error .fallbackNoRng) ∧
    (∀ fb : Option D, (r.fallback = true → r.fns ≠ [] ∧ ∃ k, rng = some k ∧ fb = some (io.stateDict (io.scratch k))) → (r.fallback = false → fb = none) →
      (io.isTf p = false →
        (∀ s j, io.t5x r.cls r.dtype false p r.fns fb = .ok (s, j) → evalState io r p rng false = .ok s) ∧
        (∀ e, io.t5x r.cls r.dtype false p r.fns fb = .error e → evalState io r p rng false = .error (.read e)) ∧
        (∀ s j, io.orbax r.manager r.dtype false p r.fns fb = .ok (s, j) → evalState io r p rng true = .ok s) ∧
        (∀ e, io.orbax r.manager r.dtype false p r.fns fb = .error e → evalState io r p rng true = .error (.read e))) ∧
      (io.isTf p = true → r.fns ≠ [] → ∀ ob, evalState io r p rng ob = .error .tfTransforms) ∧
      (io.isTf p = true → r.fns = [] →
        (∀ s, io.tf r.cls r.dtype p false = .ok s → evalState io r p rng false = .ok s) ∧
        (∀ s, io.orbaxTf r.manager r.dtype p false = .ok s → evalState io r p rng true = .ok s))) := by
  have hp' : p.isEmpty = false := by simpa using hne
  have hcr : OrbaxMgr.create io.best ((none : Option (Save K M Ty)).map (orbaxSave io)) (some (orbaxCfg io { r with strict := false })) (none : Option It) =
      .ok ⟨r.manager, none, none, r.dtype, none, none, OrbaxMgr.extraKwargs io.best (io.kind r.cls)⟩ := by
    simp only [OrbaxMgr.create, Option.map_none, orbaxCfg]
    cases r.restoreDataset <;> rfl
  refine ⟨fun h1 h2 ob => ?_, fun h1 h2 h3 ob => ?_, fun fb hb1 hb2 => ?_⟩
  · have hfb : fallbackState io (some { r with strict := false }) rng = .error .fallbackNoFns := by
      simp only [fallbackState, h1, if_true, h2, List.isEmpty_nil]
    cases ob with
    | false =>
      simp only [evalState, createAndRestore, Option.isNone_some, Bool.and_false, Bool.false_eq_true, if_false, managerRestore, legacyManager, lacksIterator, hfb]
    | true =>
      simp only [evalState, createAndRestore, Option.isNone_some, Bool.and_false, Bool.false_eq_true, if_false, managerRestore, if_true, Option.map_some, hcr, hfb]
  · have h2' : r.fns.isEmpty = false := by simpa using h2
    have hfb : fallbackState io (some { r with strict := false }) rng = .error .fallbackNoRng := by
      simp only [fallbackState, h1, if_true, h2', Bool.false_eq_true, if_false, h3]
    cases ob with
    | false =>
      simp only [evalState, createAndRestore, Option.isNone_some, Bool.and_false, Bool.false_eq_true, if_false, managerRestore, legacyManager, lacksIterator, hfb]
    | true =>
      simp only [evalState, createAndRestore, Option.isNone_some, Bool.and_false, Bool.false_eq_true, if_false, managerRestore, if_true, Option.map_some, hcr, hfb]
  · have hfb : fallbackState io (some { r with strict := false }) rng = .ok fb := by
      cases hb : r.fallback with
      | false => simp only [fallbackState, hb, Bool.false_eq_true, if_false]; rw [hb2 hb]
      | true =>
        obtain ⟨h2, k, h3, h4⟩ := hb1 hb
        have h2' : r.fns.isEmpty = false := by simpa using h2
        simp only [fallbackState, hb, if_true, h2', Bool.false_eq_true, if_false, h3, h4]
    have hleg : ∀ q, legacyRestore1 io ⟨some (r.cls, r.dtype, r.restoreDataset && (none : Option It).isSome), false⟩ r.fns fb p = q →
        evalState io r p rng false = match q with
          | .error e => .error e
          | .ok (s, _) => .ok s := by
      intro q hq
      unfold evalState
      rw [legacy_one io none { r with strict := false } p hne rng false none (fun s hs => by cases hs) fb hfb]
      simp only [hq]
      rcases q with e | ⟨s, j⟩ <;> rfl
    refine ⟨fun ht => ⟨fun s j h => ?_, fun e h => ?_, fun s j h => ?_, fun e h => ?_⟩, fun ht h2 ob => ?_, fun ht h2 => ⟨fun s h => ?_, fun s h => ?_⟩⟩
    · rw [hleg _ (legacy_t5x _ _ _ _ _ _ ht)]
      simp only [Option.isSome_none, Bool.and_false, h, lift]
    · rw [hleg _ (legacy_t5x _ _ _ _ _ _ ht)]
      simp only [Option.isSome_none, Bool.and_false, h, lift]
    · unfold evalState
      rw [orbax_one io none { r with strict := false } p hne rng false none _ hcr fb hfb ht]
      simp only [Option.isSome_none, h, lift]
    · unfold evalState
      rw [orbax_one io none { r with strict := false } p hne rng false none _ hcr fb hfb ht]
      simp only [Option.isSome_none, h, lift]
    · have h2' : r.fns.isEmpty = false := by simpa using h2
      cases ob with
      | false => rw [hleg (.error .tfTransforms) (by simp only [legacyRestore1, ht, h2', Bool.not_false, Bool.and_self, if_true])]
      | true =>
        simp only [evalState, createAndRestore, Option.isNone_some, Bool.and_false, Bool.false_eq_true, if_false, managerRestore, if_true, Option.map_some,
          hcr, hfb, hp', orbaxRestore, orbaxLoop, ht, h2']
    · rw [hleg (.ok (s, none)) (by
        simp only [legacyRestore1, ht, h2, List.isEmpty_nil, Bool.not_true, Bool.and_false, Bool.false_eq_true, if_false, if_true, h])]
    · have h2' : r.fns.isEmpty = true := by rw [h2]; rfl
      simp only [evalState, createAndRestore, Option.isNone_some, Bool.and_false, Bool.false_eq_true, if_false, managerRestore, if_true, Option.map_some,
        hcr, hfb, hp', orbaxRestore, orbaxLoop, ht, h2', h]

/-- **C123, export**: the exported parameters are those of the one checkpoint that the configuration stands for, read by the configured manager, strictly
if so configured; with several checkpoints or none nothing is exported. -/
theorem C123_export (io : Io K M Ty Fn D S It R V ε) (w : World) (c : Cfg (Restore K M Ty Fn)) (key0 : R) :
    (∀ p, Yields w c [p] → p ≠ [] → io.isTf p = false → (c.tag.fallback = true → c.tag.fns ≠ []) →
      (∀ s j, io.orbax c.tag.manager c.tag.dtype false p c.tag.fns (fallbackOf io c.tag key0) = .ok (s, j) → exportState io w c key0 = .ok s) ∧
      ∀ e, io.orbax c.tag.manager c.tag.dtype false p c.tag.fns (fallbackOf io c.tag key0) = .error e → exportState io w c key0 = .error (.read e)) ∧
    (∀ p, Yields w c [p] → p ≠ [] → io.isTf p = true → c.tag.fns = [] → c.tag.fallback = false →
      ∀ s, io.orbaxTf c.tag.manager c.tag.dtype p c.tag.strict = .ok s → exportState io w c key0 = .ok s) ∧
    (∀ ps, Yields w c ps → ps.length ≠ 1 → exportState io w c key0 = .error .multiple) ∧
    (NothingHere w c → exportState io w c key0 = .error .multiple) := by
  have hv : ∀ ps, Yields w c ps → firstValid w [c] = .ok (some c, ps) := fun ps h =>
    (RestoreCfg.C27_first_config w [c] c ps).2 ⟨[], [], rfl, by simp, h⟩
  have hcr : OrbaxMgr.create io.best ((none : Option (Save K M Ty)).map (orbaxSave io)) (some (orbaxCfg io c.tag)) (none : Option It) =
      .ok ⟨c.tag.manager, none, none, c.tag.dtype, none, none, OrbaxMgr.extraKwargs io.best (io.kind c.tag.cls)⟩ := by
    simp only [OrbaxMgr.create, Option.map_none, orbaxCfg]
    cases c.tag.restoreDataset <;> rfl
  have hfb : (c.tag.fallback = true → c.tag.fns ≠ []) → fallbackState io (some c.tag) (some key0) = .ok (fallbackOf io c.tag key0) := by
    intro hf
    unfold fallbackState fallbackOf
    cases hb : c.tag.fallback with
    | false => simp only [hb, Bool.false_eq_true, if_false]
    | true =>
      have hf : c.tag.fns.isEmpty = false := by simpa using hf hb
      simp only [hb, if_true, hf, Bool.false_eq_true, if_false]
  refine ⟨fun p hy hne ht hf => ?_, fun p hy hne ht h2 h3 s h => ?_, fun ps hy hl => ?_, fun hn => ?_⟩
  · have key : exportState io w c key0 = match lift (io.orbax c.tag.manager c.tag.dtype false p c.tag.fns (fallbackOf io c.tag key0)) with
        | .error e => .error e
        | .ok (s, _) => .ok s := by
      simp only [exportState, hv _ hy, Option.map_some]
      rw [orbax_one io none c.tag p hne _ false none _ hcr _ (hfb hf) ht]
      simp only [Option.isSome_none]
      rcases lift (io.orbax c.tag.manager c.tag.dtype false p c.tag.fns (fallbackOf io c.tag key0)) with e | ⟨s, j⟩ <;> rfl
    exact ⟨fun s j h => by rw [key, h]; rfl, fun e h => by rw [key, h]; rfl⟩
  · have hp' : p.isEmpty = false := by simpa using hne
    have hf : fallbackState io (some c.tag) (some key0) = .ok none := by simp only [fallbackState, h3, Bool.false_eq_true, if_false]
    simp only [exportState, hv _ hy, Option.map_some, createAndRestore, Option.isNone_some, Bool.and_false, Bool.false_eq_true, if_false, managerRestore,
      if_true, hcr, hf, hp', orbaxRestore, orbaxLoop, ht, h2, List.isEmpty_nil, h]
  · simp only [exportState, hv _ hy]
    rcases ps with _ | ⟨p, _ | ⟨q, ps⟩⟩
    · rfl
    · exact absurd rfl hl
    · rfl
  · obtain ⟨ps, h⟩ := (RestoreCfg.C27_none w [c]).2 (by simpa using hn)
    obtain rfl := firstValid_none w [c] ps h
    simp only [exportState, h]

/-- **C123, the interactive model** prefers the given checkpoint to those in its output directory.  The latter are read with the class and dtype of
the given configuration; without a given one (second part, a finding: this is what the output directory is searched for) the model cannot be made at
all if the output directory has a checkpoint. -/
theorem C123_interactive (io : Io K M Ty Fn D S It R V ε) (d : Defaults K M Ty Fn) (w : World) (outputDir : Name) (sv : Save K M Ty)
    (rng : R) (hd : OwnDir w outputDir) (hsv : sv.saveDataset = false) :
    (w.steps outputDir = [] → interactive io d w outputDir sv none rng = .ok (io.scratch rng)) ∧
    (w.steps outputDir ≠ [] → interactive io d w outputDir sv none rng = .error .noRestorer) ∧
    (∀ c p, Yields w c [p] → io.isTf p = false → (c.tag.fallback = true → c.tag.fns ≠ []) →
      (∀ s j, io.t5x c.tag.cls c.tag.dtype false p c.tag.fns (fallbackOf io c.tag rng) = .ok (s, j) → interactive io d w outputDir sv (some c) rng = .ok s) ∧
      ∀ e, io.t5x c.tag.cls c.tag.dtype false p c.tag.fns (fallbackOf io c.tag rng) = .error e →
        interactive io d w outputDir sv (some c) rng = .error (.read e)) ∧
    (∀ c n, NothingHere w c → (w.steps outputDir).getLast? = some n → io.isTf (ckpt outputDir n) = false →
      ∀ s j, io.t5x c.tag.cls c.tag.dtype false (ckpt outputDir n) (c.tag.fns.map d.resuming) none = .ok (s, j) →
        interactive io d w outputDir sv (some c) rng = .ok s) := by
  have hl : lacksIterator (some sv) (none : Option It) = false := by simp [lacksIterator, hsv]
  have hown : ∀ (t : Restore K M Ty Fn) n, (w.steps outputDir).getLast? = some n → Yields w ⟨.latest, [outputDir], t⟩ [ckpt outputDir n] := by
    intro t n hn
    refine .latest [] outputDir [] _ rfl rfl (by simp) hd.dir ?_
    unfold ckptsOf
    rw [hd.native, Option.getD_none, List.getLast?_map, hn]
    rfl
  have hempty : ∀ t : Restore K M Ty Fn, w.steps outputDir = [] → NothingHere w ⟨.latest, [outputDir], t⟩ := by
    intro t h0
    refine Or.inr ⟨Or.inl rfl, fun e he => ?_⟩
    rw [List.mem_singleton] at he
    subst he
    exact ⟨hd.dir, by unfold ckptsOf; rw [hd.native, h0]; rfl⟩
  refine ⟨fun h0 => ?_, fun h0 => ?_, fun c p hy ht hf => ?_, fun c n hn hlast ht s j h => ?_⟩
  · obtain ⟨ps, h⟩ := (RestoreCfg.C27_none w [⟨.latest, [outputDir], resumeCfg d (some sv) none⟩]).2 (by simpa using hempty _ h0)
    simp only [interactive, legacyManager, hl, Option.map_none, Bool.false_eq_true, if_false, Option.toList_none, List.nil_append, h, fallbackState,
      legacyRestore]
  · obtain ⟨n, hn⟩ : ∃ n, (w.steps outputDir).getLast? = some n := by
      cases h : (w.steps outputDir).getLast? with
      | none => exact absurd (List.getLast?_eq_none_iff.1 h) h0
      | some n => exact ⟨n, rfl⟩
    have hv := (RestoreCfg.C27_first_config w [⟨.latest, [outputDir], resumeCfg d (some sv) none⟩] _ _).2 ⟨[], [], rfl, by simp, hown _ n hn⟩
    have hfb : fallbackState io (some (resumeCfg d (some sv) none)) (some rng) = .ok none := rfl
    have hfs : (resumeCfg d (some sv) none).fns = [] := rfl
    simp only [interactive, legacyManager, hl, Option.map_none, Bool.false_eq_true, if_false, Option.toList_none, List.nil_append, hv, Option.map_some,
      hfb, hfs, legacyRestore, restoreAll, legacyRestore1]
    cases io.isTf (ckpt outputDir n) <;> rfl
  · have hv := (RestoreCfg.C27_first_config w (c :: [⟨.latest, [outputDir], resumeCfg d (some sv) (some c.tag)⟩]) c [p]).2
      ⟨[], _, rfl, by simp, hy⟩
    have hfb : fallbackState io (some c.tag) (some rng) = .ok (fallbackOf io c.tag rng) := by
      unfold fallbackState fallbackOf
      cases hb : c.tag.fallback with
      | false => simp only [hb, Bool.false_eq_true, if_false]
      | true =>
        have hf : c.tag.fns.isEmpty = false := by simpa using hf hb
        simp only [hb, if_true, hf, Bool.false_eq_true, if_false]
    have key : interactive io d w outputDir sv (some c) rng =
        match lift (io.t5x c.tag.cls c.tag.dtype false p c.tag.fns (fallbackOf io c.tag rng)) with
        | .error e => .error e
        | .ok (s, _) => .ok s := by
      simp only [interactive, legacyManager, hl, Option.map_some, Bool.false_eq_true, if_false, Option.toList_some, List.cons_append, List.nil_append, hv,
        hfb, legacyRestore, restoreAll, legacyRestore1, ht, Bool.false_and, Option.isSome_none, Bool.and_false]
      rcases lift (io.t5x c.tag.cls c.tag.dtype false p c.tag.fns (fallbackOf io c.tag rng)) with e | ⟨s, j⟩ <;> rfl
    exact ⟨fun s j h => by rw [key, h]; rfl, fun e h => by rw [key, h]; rfl⟩
  · have hv := (RestoreCfg.C27_first_config w (c :: [⟨.latest, [outputDir], resumeCfg d (some sv) (some c.tag)⟩]) _ _).2
      ⟨[c], [], rfl, by simpa using hn, hown _ n hlast⟩
    have hfb : fallbackState io (some (resumeCfg d (some sv) (some c.tag))) (some rng) = .ok none := rfl
    have hfs : (resumeCfg d (some sv) (some c.tag)).fns = c.tag.fns.map d.resuming := rfl
    simp only [interactive, legacyManager, hl, Option.map_some, Bool.false_eq_true, if_false, Option.toList_some, List.cons_append, List.nil_append, hv,
      hfb, hfs, legacyRestore, restoreAll, legacyRestore1, ht, Bool.false_and, Option.isSome_none, Bool.and_false, h, lift, unpack]

/-! ### Resuming with transformations -/

section Reading
open Verif.StateDict Verif.SaveRestore Verif.SaveRestore.Spec
open Verif.TsPath (Str)
variable {A T : Type} [DecidableEq T]

/-- A transformation that leaves the state alone when the job resumes. -/
def Spec.Resumable (f : Transform A T) : Prop := ∀ c, f (some true) c = .ok c

/-- The transformation made of an assignment map is one. -/
theorem C123_map_resumable (opt : Dict (Option (FLeaf A T))) (rules : List Rule) (requireAll : Bool) : Spec.Resumable (mapTransform opt rules requireAll) :=
  fun _ => rfl

theorem run_resuming (fns : List (Transform A T)) (h : ∀ f ∈ fns, Spec.Resumable f) (c : Dict (Option (FLeaf A T))) :
    runTransforms (fns.map bindResuming) c = .ok c := by
  induction fns with
  | nil => rfl
  | cons f fs ih =>
    have : bindResuming f none c = .ok c := h f (by simp) c
    simp only [List.map_cons, runTransforms, this]
    exact ih fun g hg => h g (by simp [hg])

theorem restoreWith_resuming (O : Ops A T) (rest : Option T) (dev : Bool) (D : Str) (dsk : TsPath.Spec → Option A) (fns : List (Transform A T))
    (h : ∀ f ∈ fns, Spec.Resumable f) (infos : Dict (Option (Info T))) (f : Dict (Option (FLeaf A T))) :
    restoreWith O rest dev D dsk (fns.map bindResuming) infos f none = restore O rest dev D dsk infos f := by
  unfold restoreWith restore
  cases convert D f with
  | error e => rfl
  | ok f' =>
    simp only [run_resuming fns h]
    rcases fill infos f' with e | w
    · rfl
    · simp only
      rcases zipT (readLeaf O rest dev D dsk) [] infos w with e | r <;> rfl

/-- **C123, fine-tuning jobs**: a job starts from a checkpoint of another model, with an assignment map and whatever else is configured for that;
it writes a checkpoint of the train state `s`, is stopped and started again.  If the transformations leave the state alone when told that the job
resumes (an assignment map does), it goes on with `s`: the map is not applied a second time, and nothing is initialised again. -/
theorem C123_finetune (O : Ops A T) (hO : Good O) (dev : Bool) (D0 Dw D1 : Str) (hDw : TsPath.Spec.Dir Dw)
    (hk : TsPath.gsPrefix.isPrefixOf D0 = TsPath.gsPrefix.isPrefixOf Dw) (ax0 ax1 : List Key → Bool) (s s0 s1 : Dict (Option A)) (hs : Clean s)
    (h0 : Like (fun _ x y => SameKind O x y ∧ x.map O.dtype = y.map O.dtype) [] s s0) (h1 : Like (fun _ => SameKind O) [] s s1)
    (hax : ∀ p, ax0 p = true → ax1 p = true ∨ dev = false)
    -- the job
    (io : Io K M T (Transform A T) (Dict (Option A)) (Dict (Option A)) It R V SaveRestore.Err) (d : Defaults K M T (Transform A T))
    (hres : d.resuming = bindResuming) (w : World) (modelDir : Name) (sv : Save K M T) (restore : Option (TrainRestore (Restore K M T (Transform A T))))
    (rng : R) (it : Option It) (hd : OwnDir w modelDir) (hr : Accepted restore) (hds : sv.saveDataset = false)
    (n : Nat) (hn : (w.steps modelDir).getLast? = some n) (hi : io.isTf (ckpt modelDir n) = false) (hdir : TsPath.Spec.Dir (ckpt modelDir n))
    (hfns : ∀ f ∈ transforms restore, Spec.Resumable f)
    -- what is saved
    (hu : Every (fun p x => ∀ a, x = some a → ax0 p = true →
      O.dtype (conv O (if p.head? = some "target".toList then sv.dtype else none) a) ≠ O.u16) [] s)
    (hsave : sv.dtype = none → ∀ p, p.head? = some "target".toList → ax0 p = true) (hrest : sv.dtype ≠ none → "target".toList ∈ s.keys) :
    ∃ o, writeState O sv.dtype Dw (parameterInfos O D0 ax0 s0) s = .ok o ∧
      ∀ ws, ws.Perm (writes o) → ∀ dsk, Moved Dw (ckpt modelDir n) (disk ws) dsk →
        (∀ cls dt fns fb, io.t5x cls dt false (ckpt modelDir n) fns fb =
          (restoreWith O dt dev (ckpt modelDir n) dsk fns (parameterInfos O D1 ax1 s1) (file o) fb).map fun r => (r, none)) →
        ∃ r, train io d w modelDir (some sv) restore rng it false = .ok ⟨r, it, true⟩ ∧
          Like (fun p x y => y = x.map fun a => if p.head? = some "target".toList then conv O sv.dtype a else a) [] s r := by
  obtain ⟨o, ho, h⟩ := C64_round_trip O hO sv.dtype sv.dtype dev D0 Dw D1 (ckpt modelDir n) hDw hdir hk ax0 ax1 s s0 s1 hs h0 h1 hax hu hsave hrest
  refine ⟨o, ho, fun ws hws dsk hm hio => ?_⟩
  obtain ⟨r, hr1, hr2⟩ := h ws hws dsk hm
  refine ⟨r, ?_, ?_⟩
  · have g := C123_resume io d w modelDir sv restore rng it hd hr (fun h => by rw [hds] at h; cases h) n hn hi
    refine g.1 r ?_
    rw [hds, hio, hres, restoreWith_resuming O sv.dtype dev _ dsk _ hfns, hr1]
    rfl
  · have hconv : ∀ a, conv O sv.dtype (conv O sv.dtype a) = conv O sv.dtype a := by
      intro a
      cases hdt : sv.dtype with
      | none => rfl
      | some t =>
        have := hO.same (O.cast t a)
        rw [hO.dtype] at this
        exact this
    simpa only [hconv] using hr2

/-- **C123, order of the transformations**: the state read from a checkpoint first goes through the assignment map, if one is configured, and then through
the configured transformations in their order; the first exception ends it. -/
theorem C123_map_first {K M Ty : Type} (map : Option (Transform A T)) (r : Restore K M Ty (Transform A T)) (c : Dict (Option (FLeaf A T))) :
    runTransforms (postInit map r).fns c = (match map with
      | some m => m none c
      | none => .ok c) >>= fun c' => r.fns.foldlM (fun x f => f none x) c' := by
  have h : ∀ (fns : List (Transform A T)) c, runTransforms fns c = fns.foldlM (fun x f => f none x) c := by
    intro fns
    induction fns with
    | nil => exact fun _ => rfl
    | cons f fs ih =>
      intro c
      rw [List.foldlM_cons]
      simp only [runTransforms]
      cases f none c with
      | error e => rfl
      | ok c' => exact ih c'
  cases map with
  | none => exact h _ _
  | some m =>
    rw [h]
    exact List.foldlM_cons

/-- The order matters: a transformation that renames what the assignment map has produced. -/
example : runTransforms (postInit (K := Nat) (M := Nat) (Ty := Nat) (some fun _ _ => .ok (.leaf "b".toList none .nil))
      ⟨true, true, none, false, 6, [fun _ c => if c.keys.contains "b".toList then .ok (.leaf "c".toList none .nil) else .error .structure], 0⟩).fns
    (.leaf "a".toList (none : Option (FLeaf Nat Nat)) .nil) = .ok (.leaf "c".toList none .nil) := rfl

/-- **C123, a limit**: a transformation that does not look at `is_resuming` is applied again at every start of the job. -/
theorem C123_twice (fns : List (Transform A T)) (f : Transform A T) (hf : ∀ b c, f b c = f none c) (hfs : ∀ g ∈ fns, Spec.Resumable g)
    (c : Dict (Option (FLeaf A T))) : runTransforms ((f :: fns).map bindResuming) c = f none c := by
  have h1 : bindResuming f none c = f none c := hf (some true) c
  simp only [List.map_cons, runTransforms, h1]
  cases f none c with
  | error e => rfl
  | ok c' => exact run_resuming fns hfs c'

end Reading

/-! ### Witnesses -/

/-- A world in which reading returns what it was called with. -/
def exIo : Io Nat Nat Nat Nat (List Nat) (List Nat) Nat Nat Nat Unit where
  isTf := fun p => p = "/tf/model.ckpt-1".toList
  t5x := fun k ty ds p fns fb => .ok ([k, ty.getD 99, p.length] ++ fns ++ fb.getD [], if ds then some 77 else none)
  tf := fun k ty p strict => .ok [k, ty.getD 99, p.length, if strict then 1 else 0]
  orbax := fun m ty ds p fns fb => .ok ([m, ty.getD 99, p.length] ++ fns ++ fb.getD [], if ds then some 78 else none)
  orbaxTf := fun m ty p strict => .ok [m, ty.getD 99, p.length, if strict then 1 else 0]
  scratch := fun r => [r]
  stateDict := fun s => 1000 :: s
  kind := fun _ => .cls false
  best := []

def exDefaults : Defaults Nat Nat Nat Nat := ⟨0, 0, 32, fun f => f + 100⟩
def exSave : Save Nat Nat Nat := ⟨some 16, some 1000, [], some 3, true, 5, 0⟩
/-- Start from `/pre/checkpoint_1` with transformations 1 and 2 (the first one an assignment map) and with missing parameters from scratch. -/
def exRestore : TrainRestore (Restore Nat Nat Nat Nat) :=
  ⟨⟨.specific, ["/pre/checkpoint_1".toList], postInit (some 1) ⟨true, true, none, false, 6, [2], 0⟩⟩, true⟩

/-- The hypotheses of `C123_resume` and `C123_orbax_resume` are met: the directory `/m` has steps 5 and 9. -/
example : OwnDir RestoreCfg.demoWorld "/m".toList ∧ Accepted (some exRestore) ∧ (RestoreCfg.demoWorld.steps "/m".toList).getLast? = some 9 ∧
    exIo.isTf (ckpt "/m".toList 9) = false :=
  ⟨⟨by decide, rfl, rfl⟩, by intro x hx; cases hx; exact ⟨by decide, Or.inl rfl⟩, by decide, by decide⟩

/-- The job resumes from step 9 with dtype 16, class 5 and the transformations bound, and its own pipeline. -/
example : train exIo exDefaults RestoreCfg.demoWorld "/m".toList (some exSave) (some exRestore) 3 (some 7) false =
    .ok ⟨[5, 16, 15, 101, 102], some 77, true⟩ := rfl

/-- In an empty directory it starts from the other checkpoint, with its transformations, a fallback state, and keeps its pipeline; with Orbax it takes
the other job's pipeline (`C123_orbax_dataset`). -/
example : train exIo exDefaults RestoreCfg.demoWorld "/e".toList (some exSave) (some exRestore) 3 (some 7) false =
    .ok ⟨[6, 99, 17, 1, 2, 1000, 3], some 7, true⟩ := rfl
example : train exIo exDefaults RestoreCfg.demoWorld "/e".toList (some exSave) (some exRestore) 3 (some 7) true =
    .ok ⟨[0, 99, 17, 1, 2, 1000, 3], some 78, true⟩ := rfl
example : Yields RestoreCfg.demoWorld exRestore.cfg ["/pre/checkpoint_1".toList] := .specific rfl
example : train exIo exDefaults RestoreCfg.demoWorld "/e".toList (some exSave) none 3 (some 7) false = .ok ⟨[3], some 7, true⟩ := rfl

/-- `C123_never_resumes`: with manager 1. -/
example : train exIo exDefaults RestoreCfg.demoWorld "/e".toList (some { exSave with manager := 1 }) none 3 (some 7) true = .ok ⟨[3], some 7, true⟩ ∧
    train exIo exDefaults RestoreCfg.demoWorld "/m".toList (some { exSave with manager := 1 }) none 3 (some 7) true = .error (.manager .managersDiffer) :=
  ⟨rfl, rfl⟩

/-- The initialiser on the same configurations. -/
example : ∃ cfgs, trainCfgs ⟨.latest, ["/e".toList], resumeCfg exDefaults (some exSave) (some exRestore.cfg.tag)⟩ (some exRestore) = .ok cfgs ∧
    fromCheckpointOrScratch exIo RestoreCfg.demoWorld cfgs 3 (some 7) = .ok ([6, 99, 17, 1, 2, 1000, 3], some 7) := ⟨_, rfl, rfl⟩

/-- The exceptions of `C123_initializer_conv` occur: an empty path, and a TensorFlow checkpoint with `fallback_to_scratch`. -/
example : train exIo exDefaults RestoreCfg.demoWorld "/e".toList (some exSave) (some ⟨⟨.specific, [[]], ⟨true, false, none, false, 6, [], 0⟩⟩, true⟩) 3 (some 7) false =
    .error .multiple := rfl
example : train exIo exDefaults RestoreCfg.demoWorld "/e".toList (some exSave)
      (some ⟨⟨.specific, ["/tf/model.ckpt-1".toList], ⟨true, true, none, false, 6, [], 0⟩⟩, true⟩) 3 (some 7) false = .error .fallbackNoFns ∧
    fromCheckpointOrScratch exIo RestoreCfg.demoWorld [⟨.specific, ["/tf/model.ckpt-1".toList], ⟨true, true, none, false, 6, [], 0⟩⟩] 3 (some 7) =
      .ok ([6, 99, 16, 1], some 7) := ⟨rfl, rfl⟩

/-- Evaluation, export and the interactive model. -/
example : evalState exIo ⟨true, false, none, true, 6, [], 0⟩ "/tf/model.ckpt-1".toList none false = .ok [6, 99, 16, 0] := rfl
example : exportState exIo RestoreCfg.demoWorld ⟨.latest, ["/m".toList], ⟨true, false, none, true, 6, [], 0⟩⟩ 0 = .ok [0, 99, 15] := rfl
example : interactive exIo exDefaults RestoreCfg.demoWorld "/m".toList { exSave with saveDataset := false } none 3 = .error .noRestorer ∧
    interactive exIo exDefaults RestoreCfg.demoWorld "/e".toList { exSave with saveDataset := false } none 3 = .ok [3] := ⟨rfl, rfl⟩
example : interactive exIo exDefaults RestoreCfg.demoWorld "/m".toList { exSave with saveDataset := false }
    (some ⟨.latest, ["/e".toList], ⟨true, false, none, false, 6, [4], 0⟩⟩) 3 = .ok [6, 99, 15, 104] := rfl

section
open Verif.StateDict Verif.SaveRestore Verif.SaveRestore.Spec

/-- Everything but the step is partitioned; the target is saved with dtype 1. -/
def exWritten : Except SaveRestore.Err (Dict (Option (Out (List Nat × Nat × Nat) Nat))) :=
  writeState exOps (some 1) (ckpt "/m".toList 9) (parameterInfos exOps "/m".toList (fun p => p.getLast? ≠ some "step".toList) (exState 0)) (exState 10)

/-- Reading the checkpoint that was written. -/
def exRead : Io Nat Nat Nat (Transform (List Nat × Nat × Nat) Nat) (Dict (Option (List Nat × Nat × Nat))) (Dict (Option (List Nat × Nat × Nat))) Nat Nat Nat
    SaveRestore.Err where
  isTf := fun _ => false
  t5x := fun _ dt _ p fns fb =>
    match exWritten with
    | .error e => .error e
    | .ok o =>
      (restoreWith exOps dt true p (disk (writes o)) fns (parameterInfos exOps "/n".toList (fun _ => true) (exState 0)) (file o) fb).map fun r => (r, none)
  tf := fun _ _ _ _ => .error .structure
  orbax := fun _ _ _ _ _ _ => .error .structure
  orbaxTf := fun _ _ _ _ => .error .structure
  scratch := fun _ => exState 0
  stateDict := fun s => s
  kind := fun _ => .cls false
  best := []

/-- An assignment map that would fail on the job's own checkpoints: every parameter from one that they do not have. -/
def exTune : TrainRestore (Restore Nat Nat Nat (Transform (List Nat × Nat × Nat) Nat)) :=
  ⟨⟨.specific, ["/pre/checkpoint_1".toList], ⟨true, false, none, false, 6, [fun r c => if r = some true then .ok c else .error .structure], 0⟩⟩, true⟩

/-- The hypotheses of `C123_finetune` are met. -/
example : ∃ r, train exRead ⟨0, 0, 0, bindResuming⟩ RestoreCfg.demoWorld "/m".toList (some ⟨some 1, some 1000, [], some 3, false, 5, 0⟩) (some exTune) 3
      (some 7) false = .ok ⟨r, some 7, true⟩ ∧
    Like (fun p x y => y = x.map fun a => if p.head? = some "target".toList then conv exOps (some 1) a else a) [] (exState 10) r := by
  obtain ⟨o, h1, h2⟩ := C123_finetune (K := Nat) (M := Nat) (It := Nat) (R := Nat) (V := Nat) exOps exOps_good true "/m".toList (ckpt "/m".toList 9)
    "/n".toList (fun h => absurd h (by decide)) (by decide) (fun p => p.getLast? ≠ some "step".toList) (fun _ => true) (exState 10) (exState 0) (exState 0)
    (by simp only [exState, Clean]; repeat' (first | exact trivial | refine And.intro ?_ ?_ | decide))
    (by simp only [exState, Like, SameKind]; decide) (by simp only [exState, Like, SameKind]; decide) (fun _ _ => Or.inl rfl)
    exRead ⟨0, 0, 0, bindResuming⟩ rfl RestoreCfg.demoWorld "/m".toList ⟨some 1, some 1000, [], some 3, false, 5, 0⟩ (some exTune) 3 (some 7)
    ⟨by decide, rfl, rfl⟩ (by intro x hx; cases hx; exact ⟨by decide, Or.inl rfl⟩) rfl 9 (by decide) rfl (fun h => absurd h (by decide))
    (by
      intro f hf c
      simp only [transforms, exTune, Option.map_some, Option.getD_some, List.mem_singleton] at hf
      subst hf
      rfl)
    (by
      simp only [exState, Every]
      refine ⟨⟨?_, trivial⟩, ⟨?_, ⟨⟨?_, ⟨?_, trivial, trivial⟩⟩, trivial⟩⟩, trivial⟩ <;>
        · intro a ha _
          cases ha <;> decide)
    (fun h => by cases h) (fun _ => by decide)
  exact h2 _ (List.Perm.refl _) _ (fun _ _ => rfl) fun cls dt fns fb => by
    have h3 : exWritten = .ok o := h1
    simp only [exRead, h3]

/-- `C123_twice`: such a transformation, and a state that it changes a second time. -/
example : ∃ (f : Transform Nat Nat) (c : Dict (Option (FLeaf Nat Nat))), (∀ b c, f b c = f none c) ∧ f none c ≠ .ok c :=
  ⟨fun _ c => .ok (.sub "new".toList c .nil), .nil, fun _ _ => rfl, by intro h; injection h with h; cases h⟩

end

end Verif.StartState
