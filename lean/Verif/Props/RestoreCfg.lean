import Verif.Model.RestoreCfg
import Verif.Lemmas.CkptDir
/-
Property C27: which checkpoint is restored.
-/
namespace Verif.RestoreCfg
open Verif Verif.Ckpt

namespace Spec
variable {τ : Type}

/-- The checkpoints of a directory: the TensorFlow ones if it is a TensorFlow
checkpoint directory, otherwise one per step, in increasing order. -/
def ckptsOf (w : World) (d : Name) : List Name :=
  (w.tfPaths d).getD ((w.steps d).map fun s => pathJoin d ("checkpoint_".toList ++ dec s))

/-- A configuration has nothing to restore: it is not `specific`, and all its paths
are directories without checkpoints (or its mode is unknown). -/
def NothingHere (w : World) (c : Cfg τ) : Prop :=
  c.mode = .other ∨ (c.mode = .latest ∨ c.mode = .all) ∧ ∀ d ∈ c.paths, w.isDir d = true ∧ ckptsOf w d = []

/-- A configuration yields the paths `ps`. -/
inductive Yields (w : World) (c : Cfg τ) : List Name → Prop
  | specific : c.mode = .specific → Yields w c c.paths
  | all (pre : List Name) (d : Name) (post : List Name) : c.mode = .all → c.paths = pre ++ d :: post →
      (∀ e ∈ pre, w.isDir e = true ∧ ckptsOf w e = []) → w.isDir d = true → ckptsOf w d ≠ [] →
      Yields w c (ckptsOf w d)
  | latest (pre : List Name) (d : Name) (post : List Name) (p : Name) : c.mode = .latest → c.paths = pre ++ d :: post →
      (∀ e ∈ pre, w.isDir e = true ∧ ckptsOf w e = []) → w.isDir d = true →
      (ckptsOf w d).getLast? = some p → Yields w c [p]
end Spec
open Spec
variable {τ : Type}

theorem dirCkpts_eq (w : World) (d : Name) : dirCkpts w d = ckptsOf w d := by
  unfold dirCkpts ckptsOf
  cases w.tfPaths d <;> rfl

theorem scan_some (w : World) (l : Bool) (ds : List Name) (ps : List Name) :
    scanDirs w l ds = .ok (some ps) ↔ ∃ pre d post, ds = pre ++ d :: post ∧
      (∀ e ∈ pre, w.isDir e = true ∧ ckptsOf w e = []) ∧ w.isDir d = true ∧ ckptsOf w d ≠ [] ∧
      ps = (if l then (ckptsOf w d).drop ((ckptsOf w d).length - 1) else ckptsOf w d) := by
  induction ds with
  | nil => simp [scanDirs]
  | cons d ds ih =>
    unfold scanDirs
    rw [dirCkpts_eq]
    cases hd : w.isDir d with
    | false =>
      simp only [Bool.not_false, if_true, reduceCtorEq, false_iff]
      rintro ⟨pre, e, post, h1, h2, h3, -⟩
      rcases pre with _ | ⟨a, pre⟩
      · simp at h1; rw [← h1.1, hd] at h3; cases h3
      · simp at h1
        have := (h2 a (by simp)).1
        rw [← h1.1, hd] at this; cases this
    | true =>
      simp only [Bool.not_true, Bool.false_eq_true, if_false]
      by_cases he : ckptsOf w d = []
      · simp only [he, List.isEmpty_nil, if_true, ih]
        constructor
        · rintro ⟨pre, e, post, h1, h2, h3⟩
          refine ⟨d :: pre, e, post, by simp [h1], ?_, h3⟩
          intro x hx
          rcases List.mem_cons.1 hx with rfl | hx
          · exact ⟨hd, he⟩
          · exact h2 x hx
        · rintro ⟨pre, e, post, h1, h2, h3, h4, h5⟩
          rcases pre with _ | ⟨a, pre⟩
          · simp at h1; rw [← h1.1] at h4; exact absurd he h4
          · simp at h1
            exact ⟨pre, e, post, h1.2, fun x hx => h2 x (List.mem_cons_of_mem _ hx), h3, h4, h5⟩
      · have : (ckptsOf w d).isEmpty = false := by simpa using he
        simp only [this, Bool.false_eq_true, if_false, Except.ok.injEq, Option.some.injEq]
        constructor
        · rintro rfl
          exact ⟨[], d, ds, rfl, by simp, hd, he, rfl⟩
        · rintro ⟨pre, e, post, h1, h2, h3, h4, h5⟩
          rcases pre with _ | ⟨a, pre⟩
          · simp at h1; rw [h5, h1.1]
          · simp at h1
            have := (h2 a (by simp)).2
            rw [← h1.1] at this
            exact absurd this he

theorem scan_none (w : World) (l : Bool) (ds : List Name) :
    scanDirs w l ds = .ok none ↔ ∀ d ∈ ds, w.isDir d = true ∧ ckptsOf w d = [] := by
  induction ds with
  | nil => simp [scanDirs]
  | cons d ds ih =>
    unfold scanDirs
    rw [dirCkpts_eq, List.forall_mem_cons]
    cases hd : w.isDir d with
    | false => simp
    | true =>
      simp only [Bool.not_true, Bool.false_eq_true, if_false]
      by_cases he : ckptsOf w d = []
      · simp [he, ih]
      · have : (ckptsOf w d).isEmpty = false := by simpa using he
        simp [this, he]

theorem last_drop {α : Type} (l : List α) (h : l ≠ []) : ∃ p, l.getLast? = some p ∧ l.drop (l.length - 1) = [p] := by
  rcases List.eq_nil_or_concat' l with rfl | ⟨t, x, rfl⟩
  · exact absurd rfl h
  · exact ⟨x, by simp, by simp⟩

/-- C27: the function returns exactly the first configuration that has something to
restore; all configurations before it must be empty, the ones after it
play no role. -/
theorem C27_first_config (w : World) (cfgs : List (Cfg τ)) (c : Cfg τ) (ps : List Name) :
    firstValid w cfgs = .ok (some c, ps) ↔
      ∃ pre post, cfgs = pre ++ c :: post ∧ (∀ x ∈ pre, NothingHere w x) ∧ Yields w c ps := by
  induction cfgs with
  | nil => simp [firstValid]
  | cons x xs ih =>
    have rest : (NothingHere w x) → ((∃ pre post, xs = pre ++ c :: post ∧ (∀ y ∈ pre, NothingHere w y) ∧ Yields w c ps) ↔
        ∃ pre post, x :: xs = pre ++ c :: post ∧ (∀ y ∈ pre, NothingHere w y) ∧ Yields w c ps) := by
      intro hx
      constructor
      · rintro ⟨pre, post, h1, h2, h3⟩
        refine ⟨x :: pre, post, by simp [h1], ?_, h3⟩
        intro y hy
        rcases List.mem_cons.1 hy with rfl | hy
        · exact hx
        · exact h2 y hy
      · rintro ⟨pre, post, h1, h2, h3⟩
        rcases pre with _ | ⟨a, pre⟩
        · exfalso
          simp at h1
          rw [h1.1] at hx
          cases h3 with
          | specific hm =>
            rcases hx with h | ⟨h | h, _⟩ <;> rw [hm] at h <;> cases h
          | all p d q hm hp _ _ hne =>
            rcases hx with h | ⟨h | h, hd⟩
            · rw [hm] at h; cases h
            · rw [hm] at h; cases h
            · exact hne (hd d (by rw [hp]; simp)).2
          | latest p d q r hm hp _ _ hne =>
            rcases hx with h | ⟨h | h, hd⟩
            · rw [hm] at h; cases h
            · rw [(hd d (by rw [hp]; simp)).2] at hne; cases hne
            · rw [hm] at h; cases h
        · simp at h1
          exact ⟨pre, post, h1.2, fun y hy => h2 y (List.mem_cons_of_mem _ hy), h3⟩
    have here : ∀ qs, ¬ NothingHere w x → (∀ p, Yields w x p ↔ p = qs) → (((some x, qs) = (some c, ps)) ↔
        ∃ pre post, x :: xs = pre ++ c :: post ∧ (∀ y ∈ pre, NothingHere w y) ∧ Yields w c ps) := by
      intro qs hne hy
      constructor
      · intro h; cases h
        exact ⟨[], xs, rfl, by simp, (hy _).2 rfl⟩
      · rintro ⟨pre, post, h1, h2, h3⟩
        rcases pre with _ | ⟨a, pre⟩
        · simp at h1
          rw [h1.1] at hy ⊢
          rw [(hy ps).1 h3]
        · simp at h1
          exact absurd (h1.1 ▸ h2 a (by simp)) hne
    unfold firstValid
    cases hm : x.mode with
    | specific =>
      simp only [Except.ok.injEq]
      refine here x.paths ?_ ?_
      · rintro (h | ⟨h | h, _⟩) <;> rw [hm] at h <;> cases h
      · intro p
        constructor
        · intro h
          cases h with
          | specific => rfl
          | all _ _ _ h => rw [hm] at h; cases h
          | latest _ _ _ _ h => rw [hm] at h; cases h
        · rintro rfl; exact .specific hm
    | other => exact ih.trans (rest (Or.inl hm))
    | latest =>
      cases hs : scanDirs w true x.paths with
      | error e =>
        simp only [reduceCtorEq, false_iff]
        rintro ⟨pre, post, h1, h2, h3⟩
        rcases pre with _ | ⟨a, pre⟩
        · simp at h1
          rw [← h1.1] at h3
          cases h3 with
          | specific h => rw [hm] at h; cases h
          | all _ _ _ h => rw [hm] at h; cases h
          | latest p d q r _ hp h4 h5 h6 =>
            have hne : ckptsOf w d ≠ [] := by intro h; rw [h] at h6; cases h6
            have := (scan_some w true x.paths _).2 ⟨p, d, q, hp, h4, h5, hne, rfl⟩
            rw [hs] at this; cases this
        · simp at h1
          have := h2 a (by simp)
          rw [← h1.1] at this
          rcases this with h | ⟨_, h⟩
          · rw [hm] at h; cases h
          · have := (scan_none w true x.paths).2 h
            rw [hs] at this; cases this
      | ok o =>
        cases o with
        | none =>
          exact ih.trans (rest (Or.inr ⟨Or.inl hm, (scan_none w true x.paths).1 hs⟩))
        | some qs =>
          simp only [Except.ok.injEq]
          obtain ⟨pre, d, post, h1, h2, h3, h4, h5⟩ := (scan_some w true x.paths qs).1 hs
          refine here qs ?_ ?_
          · rintro (h | ⟨_, h⟩)
            · rw [hm] at h; cases h
            · have := (scan_none w true x.paths).2 h
              rw [hs] at this; cases this
          · intro p
            constructor
            · intro h
              cases h with
              | specific h => rw [hm] at h; cases h
              | all _ _ _ h => rw [hm] at h; cases h
              | latest p' d' q' r _ hp h6 h7 h8 =>
                have hne : ckptsOf w d' ≠ [] := by intro h; rw [h] at h8; cases h8
                have := (scan_some w true x.paths _).2 ⟨p', d', q', hp, h6, h7, hne, rfl⟩
                rw [hs] at this
                obtain ⟨y, hy1, hy2⟩ := last_drop _ hne
                simp only [if_true, Except.ok.injEq, Option.some.injEq] at this
                rw [this, hy2]
                rw [h8] at hy1; cases hy1; rfl
            · rintro rfl
              obtain ⟨y, hy1, hy2⟩ := last_drop _ h4
              rw [h5, if_pos rfl, hy2]
              exact .latest pre d post y hm h1 h2 h3 hy1
    | all =>
      cases hs : scanDirs w false x.paths with
      | error e =>
        simp only [reduceCtorEq, false_iff]
        rintro ⟨pre, post, h1, h2, h3⟩
        rcases pre with _ | ⟨a, pre⟩
        · simp at h1
          rw [← h1.1] at h3
          cases h3 with
          | specific h => rw [hm] at h; cases h
          | latest _ _ _ _ h => rw [hm] at h; cases h
          | all p d q _ hp h4 h5 h6 =>
            have := (scan_some w false x.paths _).2 ⟨p, d, q, hp, h4, h5, h6, rfl⟩
            rw [hs] at this; cases this
        · simp at h1
          have := h2 a (by simp)
          rw [← h1.1] at this
          rcases this with h | ⟨_, h⟩
          · rw [hm] at h; cases h
          · have := (scan_none w false x.paths).2 h
            rw [hs] at this; cases this
      | ok o =>
        cases o with
        | none =>
          exact ih.trans (rest (Or.inr ⟨Or.inr hm, (scan_none w false x.paths).1 hs⟩))
        | some qs =>
          simp only [Except.ok.injEq]
          obtain ⟨pre, d, post, h1, h2, h3, h4, h5⟩ := (scan_some w false x.paths qs).1 hs
          refine here qs ?_ ?_
          · rintro (h | ⟨_, h⟩)
            · rw [hm] at h; cases h
            · have := (scan_none w false x.paths).2 h
              rw [hs] at this; cases this
          · intro p
            constructor
            · intro h
              cases h with
              | specific h => rw [hm] at h; cases h
              | latest _ _ _ _ h => rw [hm] at h; cases h
              | all p' d' q' _ hp h6 h7 h8 =>
                have := (scan_some w false x.paths _).2 ⟨p', d', q', hp, h6, h7, h8, rfl⟩
                rw [hs] at this
                simpa using this.symm
            · rintro rfl
              rw [h5, if_neg (by simp)]
              exact .all pre d post hm h1 h2 h3 h4

/-- C27: "nothing to restore" is returned exactly when every configuration is empty. -/
theorem C27_none (w : World) (cfgs : List (Cfg τ)) :
    (∃ ps, firstValid w cfgs = .ok (none, ps)) ↔ ∀ c ∈ cfgs, NothingHere w c := by
  induction cfgs with
  | nil => simp [firstValid]
  | cons x xs ih =>
    rw [List.forall_mem_cons, ← ih]
    cases hm : x.mode with
    | specific => simp [firstValid, NothingHere, hm]
    | other => simp [firstValid, NothingHere, hm]
    | latest =>
      simp only [firstValid, NothingHere, hm, reduceCtorEq, false_or, or_false, true_and, ← scan_none w true]
      cases hs : scanDirs w true x.paths with
      | error e => simp
      | ok o => cases o <;> simp
    | all =>
      simp only [firstValid, NothingHere, hm, reduceCtorEq, false_or, true_and, ← scan_none w false]
      cases hs : scanDirs w false x.paths with
      | error e => simp
      | ok o => cases o <;> simp

/-- C27 for training: if the model directory holds native checkpoints, training
resumes from its newest one whatever initial checkpoint is configured; otherwise
it starts from the configured checkpoint, and from scratch if there is none. -/
theorem C27_training (w : World) (modelDir : Name) (tag : τ) (r : Option (TrainRestore τ))
    (hd : w.isDir modelDir = true) (htf : w.tfPaths modelDir = none)
    (hr : ∀ x, r = some x → x.cfg.mode ≠ .all ∧ (x.isStr = true ∨ x.cfg.paths = [])) :
    (∀ n, (w.steps modelDir).getLast? = some n →
      trainSource w modelDir tag r =
        .ok (some ⟨.latest, [modelDir], tag⟩, some (pathJoin modelDir ("checkpoint_".toList ++ dec n)))) ∧
    (w.steps modelDir = [] →
      (r = none → trainSource w modelDir tag r = .ok (none, none)) ∧
      (∀ x p, r = some x → x.isStr = true → x.cfg.paths = [p] → x.cfg.mode = .specific →
        trainSource w modelDir tag r = .ok (some x.cfg, some p)) ∧
      (∀ x p n, r = some x → x.isStr = true → x.cfg.paths = [p] → x.cfg.mode = .latest →
        w.isDir p = true → w.tfPaths p = none → (w.steps p).getLast? = some n →
        trainSource w modelDir tag r = .ok (some x.cfg, some (pathJoin p ("checkpoint_".toList ++ dec n))))) := by
  have scanLatest : ∀ d n, w.isDir d = true → w.tfPaths d = none → (w.steps d).getLast? = some n →
      scanDirs w true [d] = .ok (some [pathJoin d ("checkpoint_".toList ++ dec n)]) := by
    intro d n h1 h2 h3
    have hck : ckptsOf w d = (w.steps d).map (fun s => pathJoin d ("checkpoint_".toList ++ dec s)) := by
      unfold ckptsOf; rw [h2]; rfl
    have hne : w.steps d ≠ [] := by intro h; rw [h] at h3; cases h3
    have hne' : ckptsOf w d ≠ [] := by rw [hck]; simpa using hne
    obtain ⟨p, hp1, hp2⟩ := last_drop _ hne'
    rw [scan_some]
    refine ⟨[], d, [], rfl, by simp, h1, hne', ?_⟩
    rw [if_pos rfl, hp2]
    rw [hck, List.getLast?_map, h3] at hp1
    cases hp1; rfl
  have key : ∃ l, trainCfgs ⟨.latest, [modelDir], tag⟩ r = .ok ((⟨.latest, [modelDir], tag⟩ : Cfg τ) :: l) ∧
      (r = none → l = []) ∧ (∀ x, r = some x → x.isStr = true → l = [x.cfg]) := by
    cases r with
    | none => exact ⟨[], rfl, fun _ => rfl, by simp⟩
    | some x =>
      obtain ⟨h1, h2⟩ := hr x rfl
      simp only [trainCfgs, if_neg h1]
      cases hs : x.isStr with
      | true => exact ⟨[x.cfg], by simp, by simp, by intro y hy; cases hy; intro; rfl⟩
      | false =>
        rcases h2 with h2 | h2
        · rw [hs] at h2; cases h2
        · refine ⟨[], by simp [h2], by simp, ?_⟩
          intro y hy; cases hy; intro h; rw [hs] at h; cases h
  obtain ⟨l, hl, hl1, hl2⟩ := key
  refine ⟨?_, ?_⟩
  · intro n hn
    unfold trainSource
    simp only [hl, firstValid, scanLatest modelDir n hd htf hn]
    rfl
  · intro he
    have hscan : scanDirs w true [modelDir] = .ok none := by
      rw [scan_none]
      intro d hdm
      rw [List.mem_singleton] at hdm
      subst hdm
      exact ⟨hd, by unfold ckptsOf; rw [htf, he]; rfl⟩
    refine ⟨?_, ?_, ?_⟩
    · intro h
      have := hl1 h
      subst this
      unfold trainSource
      simp only [hl, firstValid, hscan]
      rfl
    · intro x p hx hs hp hm
      have := hl2 x hx hs
      subst this
      unfold trainSource
      simp only [hl, firstValid, hscan, hm, hp]
      rfl
    · intro x p n hx hs hp hm h1 h2 h3
      have := hl2 x hx hs
      subst this
      unfold trainSource
      simp only [hl, firstValid, hscan, hm, hp, scanLatest p n h1 h2 h3]
      rfl

/-- C27: when choosing the source for training fails.  Mode `all` and a non-empty
sequence of paths are rejected; otherwise the model directory must be a directory, and
so must the initial checkpoint's path when the model directory is empty and the mode is
`latest`.  A path given as a string is a single path (`hr`, utils.py:944-948), so the
check for several restore paths (train.py:362-363) never fires. -/
theorem C27_training_errors (w : World) (modelDir : Name) (tag : τ) (r : Option (TrainRestore τ))
    (hr : ∀ x, r = some x → x.isStr = true → ∃ p, x.cfg.paths = [p]) :
    (trainSource w modelDir tag r = .error .modeAll ↔ ∃ x, r = some x ∧ x.cfg.mode = .all) ∧
    (trainSource w modelDir tag r = .error .multiplePaths ↔
      ∃ x, r = some x ∧ x.cfg.mode ≠ .all ∧ x.isStr = false ∧ x.cfg.paths ≠ []) ∧
    (trainSource w modelDir tag r = .error .notDirectory ↔
      (∀ x, r = some x → x.cfg.mode ≠ .all ∧ (x.isStr = true ∨ x.cfg.paths = [])) ∧
      (w.isDir modelDir = false ∨ (ckptsOf w modelDir = [] ∧ ∃ x p, r = some x ∧ x.isStr = true ∧
        x.cfg.mode = .latest ∧ x.cfg.paths = [p] ∧ w.isDir p = false))) ∧
    trainSource w modelDir tag r ≠ .error .multiple := by
  have one : ∀ d, (w.isDir d = false → scanDirs w true [d] = .error .notDirectory) ∧
      (w.isDir d = true → ckptsOf w d = [] → scanDirs w true [d] = .ok none) ∧
      (w.isDir d = true → ckptsOf w d ≠ [] → ∃ p, scanDirs w true [d] = .ok (some [p])) := by
    intro d
    refine ⟨fun h => by simp [scanDirs, h], fun h h' => by simp [scanDirs, h, dirCkpts_eq, h'], fun h h' => ?_⟩
    obtain ⟨p, _, hp⟩ := last_drop _ h'
    exact ⟨p, by simp [scanDirs, h, dirCkpts_eq, h', hp]⟩
  obtain ⟨m1, m2, m3⟩ := one modelDir
  cases r with
  | none =>
    cases hd : w.isDir modelDir with
    | false => simp [trainSource, trainCfgs, firstValid, m1 hd]
    | true =>
      by_cases hc : ckptsOf w modelDir = []
      · simp [trainSource, trainCfgs, firstValid, m2 hd hc]
      · obtain ⟨p, hp⟩ := m3 hd hc
        simp [trainSource, trainCfgs, firstValid, hp]
  | some x =>
    obtain ⟨⟨mode, paths, t⟩, isStr⟩ := x
    by_cases hm : mode = .all
    · simp [trainSource, trainCfgs, hm]
    · cases isStr with
      | false =>
        by_cases hp : paths = []
        · cases hd : w.isDir modelDir with
          | false => simp [trainSource, trainCfgs, firstValid, hm, hp, m1 hd]
          | true =>
            by_cases hc : ckptsOf w modelDir = []
            · simp [trainSource, trainCfgs, firstValid, hm, hp, m2 hd hc]
            · obtain ⟨p, hq⟩ := m3 hd hc
              simp [trainSource, trainCfgs, firstValid, hm, hp, hq]
        · simp [trainSource, trainCfgs, hm, hp]
      | true =>
        obtain ⟨p, hp⟩ := hr _ rfl rfl
        simp only at hp
        subst hp
        obtain ⟨p1, p2, p3⟩ := one p
        cases hd : w.isDir modelDir with
        | false => simp [trainSource, trainCfgs, firstValid, hm, m1 hd]
        | true =>
          by_cases hc : ckptsOf w modelDir = []
          · cases mode with
            | all => exact absurd rfl hm
            | specific => simp [trainSource, trainCfgs, firstValid, m2 hd hc]
            | other => simp [trainSource, trainCfgs, firstValid, m2 hd hc]
            | latest =>
              cases hpd : w.isDir p with
              | false => simp [trainSource, trainCfgs, firstValid, m2 hd hc, p1 hpd, hc, hpd]
              | true =>
                by_cases hpc : ckptsOf w p = []
                · simp [trainSource, trainCfgs, firstValid, m2 hd hc, p2 hpd hpc, hpd]
                · obtain ⟨q, hq⟩ := p3 hpd hpc
                  simp [trainSource, trainCfgs, firstValid, m2 hd hc, hq, hpd]
          · obtain ⟨q, hq⟩ := m3 hd hc
            simp [trainSource, trainCfgs, firstValid, hm, hq, hc]

theorem scan_error (w : World) (l : Bool) (ds : List Name) (e : Err)
    (h : scanDirs w l ds = .error e) : e = .notDirectory := by
  induction ds with
  | nil => cases h
  | cons d ds ih =>
    unfold scanDirs at h
    simp only at h
    split_ifs at h
    · cases h; rfl
    · exact ih h

theorem firstValid_error (w : World) (cfgs : List (Cfg τ)) (e : Err)
    (h : firstValid w cfgs = .error e) : e = .notDirectory := by
  induction cfgs with
  | nil => cases h
  | cons c cs ih =>
    unfold firstValid at h
    split at h
    · cases h
    · exact ih h
    · split at h
      · rename_i e' he; cases h; exact scan_error _ _ _ _ he
      · cases h
      · exact ih h
    · split at h
      · rename_i e' he; cases h; exact scan_error _ _ _ _ he
      · cases h
      · exact ih h

/-- C27: `from_checkpoint` (used by evaluation, inference and export) restores the one
checkpoint that the first non-empty configuration yields, and raises exactly when
that configuration yields several instead of silently taking one of them. -/
theorem C27_from_checkpoint (w : World) (cfgs : List (Cfg τ)) :
    (∀ (c : Cfg τ) (p : Name), fromCheckpoint w cfgs = .ok (some (c, p)) ↔
      ∃ pre post, cfgs = pre ++ c :: post ∧ (∀ x ∈ pre, NothingHere w x) ∧ Yields w c [p]) ∧
    (fromCheckpoint w cfgs = .error .multiple ↔
      ∃ (c : Cfg τ) (ps : List Name) (pre post : List (Cfg τ)), cfgs = pre ++ c :: post ∧
        (∀ x ∈ pre, NothingHere w x) ∧ Yields w c ps ∧ 1 < ps.length) := by
  constructor
  · intro c p
    rw [← C27_first_config]
    unfold fromCheckpoint
    split
    · rename_i e he; rw [he]; simp
    · rename_i he; rw [he]; simp
    · rename_i c' ps he
      rw [he]
      rcases ps with _ | ⟨q, _ | ⟨q', ps⟩⟩ <;> simp
  · have h0 : (∃ (c : Cfg τ) (ps : List Name) (pre post : List (Cfg τ)), cfgs = pre ++ c :: post ∧
        (∀ x ∈ pre, NothingHere w x) ∧ Yields w c ps ∧ 1 < ps.length) ↔
        ∃ (c : Cfg τ) (ps : List Name), firstValid w cfgs = .ok (some c, ps) ∧ 1 < ps.length := by
      constructor
      · rintro ⟨c, ps, pre, post, h1, h2, h3, h4⟩
        exact ⟨c, ps, (C27_first_config w cfgs c ps).2 ⟨pre, post, h1, h2, h3⟩, h4⟩
      · rintro ⟨c, ps, h1, h4⟩
        obtain ⟨pre, post, h1, h2, h3⟩ := (C27_first_config w cfgs c ps).1 h1
        exact ⟨c, ps, pre, post, h1, h2, h3, h4⟩
    rw [h0]
    unfold fromCheckpoint
    split
    · rename_i e he
      have := firstValid_error w cfgs e he
      subst this
      simp [he]
    · rename_i he; simp [he]
    · rename_i c' ps he
      rw [he]
      rcases ps with _ | ⟨q, _ | ⟨q', ps⟩⟩ <;> simp

/-- Limit of C27: with several directories only the first one that has checkpoints
contributes; the latest checkpoints of the others are not returned. -/
theorem C27_other_dirs_ignored (w : World) (a b : Name) (tag : τ) (ha : w.isDir a = true)
    (hca : ckptsOf w a ≠ []) :
    ∃ p, (ckptsOf w a).getLast? = some p ∧
      firstValid w [(⟨.latest, [a, b], tag⟩ : Cfg τ)] = .ok (some ⟨.latest, [a, b], tag⟩, [p]) := by
  obtain ⟨p, hp, _⟩ := last_drop _ hca
  refine ⟨p, hp, ?_⟩
  rw [C27_first_config]
  exact ⟨[], [], rfl, by simp, .latest [] a [b] p rfl rfl (by simp) ha hp⟩

/-- A model directory with steps 5 and 9, and an initial checkpoint elsewhere. -/
def demoWorld : World where
  isDir := fun _ => true
  tfPaths := fun _ => none
  steps := fun d => if d = "/m".toList then [5, 9] else if d = "/e".toList then [] else [100]

example : trainSource demoWorld "/m".toList 0 (some ⟨⟨.specific, ["/pre/checkpoint_1".toList], 1⟩, true⟩) =
    .ok (some ⟨.latest, ["/m".toList], 0⟩, some "/m/checkpoint_9".toList) := rfl
example : trainSource demoWorld "/e".toList 0 (some ⟨⟨.specific, ["/pre/checkpoint_1".toList], 1⟩, true⟩) =
    .ok (some ⟨.specific, ["/pre/checkpoint_1".toList], 1⟩, some "/pre/checkpoint_1".toList) := rfl
example : trainSource { demoWorld with isDir := fun d => d = "/e".toList } "/e".toList 0 (some ⟨⟨.latest, ["/pre".toList], 1⟩, true⟩) =
    .error .notDirectory := rfl
example : trainSource demoWorld "/m".toList 0 (some ⟨⟨.latest, ["/pre".toList], 1⟩, false⟩) = .error .multiplePaths := rfl
example : firstValid demoWorld [⟨.latest, ["/e".toList], 0⟩, ⟨.all, ["/e".toList, "/m".toList], 1⟩, ⟨.latest, ["/x".toList], 2⟩] =
    .ok (some ⟨.all, ["/e".toList, "/m".toList], 1⟩, ["/m/checkpoint_5".toList, "/m/checkpoint_9".toList]) := rfl
example : ckptsOf demoWorld "/m".toList ≠ [] := by decide
example : fromCheckpoint demoWorld [⟨.latest, ["/e".toList], 0⟩, ⟨.latest, ["/m".toList], 1⟩] =
    .ok (some (⟨.latest, ["/m".toList], 1⟩, "/m/checkpoint_9".toList)) := rfl
example : fromCheckpoint demoWorld [⟨.latest, ["/e".toList], 0⟩, ⟨.all, ["/m".toList], 1⟩] =
    .error .multiple := rfl

end Verif.RestoreCfg
