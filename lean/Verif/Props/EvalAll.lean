import Verif.Spec.EvalAll
import Verif.Lemmas.CkptName
import Verif.Props.RestoreCfg
import Mathlib.Tactic.IntervalCases
namespace Verif.EvalAll
open Verif Verif.Ckpt Verif.EvalAll.Spec

variable {env : Env} {dirs : List Name}

theorem ckptPath_eq (d : Name) (s : Nat) : pathJoin d (ckptName s) = ckptPath d s := rfl

theorem key_tail (x : Name) (s : Nat) : stepKey (x ++ '_' :: dec s) = some s := by
  have hne := dec_ne_nil s
  have hdig := dec_digits s
  have hl : (x ++ '_' :: dec s).getLast? ≠ some '/' := by
    rw [List.getLast?_append]
    cases hd : dec s using List.reverseRecOn with
    | nil => exact absurd hd hne
    | append_singleton a c _ =>
      have hc : c.isDigit = true := hdig c (by rw [hd]; simp)
      rw [show ('_' :: (a ++ [c])) = ('_' :: a) ++ [c] from rfl, List.getLast?_concat]
      simp only [Option.some_or, ne_eq, Option.some.injEq]
      rintro rfl
      exact absurd hc (by decide)
  unfold stepKey
  rw [if_neg hl]
  have hrev : (x ++ '_' :: dec s).reverse = (dec s).reverse ++ '_' :: x.reverse := by simp
  rw [hrev, takeWhile_append_all _ _ _ (by intro c hc; exact hdig c (List.mem_reverse.mp hc))]
  have : List.takeWhile Char.isDigit ('_' :: x.reverse) = [] := by
    rw [List.takeWhile_cons]
    rw [if_neg (by decide)]
  rw [this, List.append_nil, List.reverse_reverse]
  exact parseInt_dec s

theorem key_path (d : Name) (s : Nat) : stepKey (ckptPath d s) = some s := by
  unfold ckptPath pathJoin
  have e : "checkpoint_".toList = "checkpoint".toList ++ ['_'] := by decide
  split_ifs
  · have : d ++ ("checkpoint_".toList ++ Nat.toDigits 10 s) = (d ++ "checkpoint".toList) ++ '_' :: dec s := by
      rw [e]; simp [dec]
    rw [this]; exact key_tail _ _
  · have : d ++ '/' :: ("checkpoint_".toList ++ Nat.toDigits 10 s) = (d ++ '/' :: "checkpoint".toList) ++ '_' :: dec s := by
      rw [e]; simp [dec]
    rw [this]; exact key_tail _ _

theorem path_inj (d : Name) (a b : Nat) (h : ckptPath d a = ckptPath d b) : a = b := by
  have := key_path d a
  rw [h, key_path] at this
  exact (Option.some.inj this).symm

/-- A readable path: not empty, no blanks, ends in a step. -/
def Good (env : Env) (p : Name) : Prop := p ≠ [] ∧ (∀ c ∈ p, env.ws c = false) ∧ (stepKey p).isSome = true

theorem digit_cases (c : Char) (h : c.isDigit = true) : c ∈ "0123456789".toList := by
  have h2 : 48 ≤ c.toNat ∧ c.toNat ≤ 57 := by
    unfold Char.isDigit at h
    simp only [Bool.and_eq_true, decide_eq_true_eq] at h
    exact h
  have : c = Char.ofNat c.toNat := (Char.ofNat_toNat c).symm
  rw [this]
  have h3 : ∃ n, c.toNat = n := ⟨_, rfl⟩
  obtain ⟨n, hn⟩ := h3
  rw [hn] at h2 ⊢
  obtain ⟨h4, h5⟩ := h2
  interval_cases n <;> decide

theorem good_path (hs : Setting env dirs) (d : Name) (hd : d ∈ dirs) (s : Nat) : Good env (ckptPath d s) := by
  have hp : ∀ c ∈ "checkpoint_".toList ++ Nat.toDigits 10 s, env.ws c = false := by
    intro c hc
    rw [List.mem_append] at hc
    rcases hc with hc | hc
    · exact hs.plain c (List.mem_append_left (bs := "/0123456789".toList) hc)
    · exact hs.plain c (List.mem_append_right (as := "checkpoint_/".toList) (digit_cases c (dec_digits s c hc)))
  refine ⟨?_, ?_, by rw [key_path]; rfl⟩
  · unfold ckptPath pathJoin
    split_ifs <;> simp
  · intro c hc
    unfold ckptPath pathJoin at hc
    split_ifs at hc
    · rw [List.mem_append] at hc
      rcases hc with hc | hc
      · exact hs.dirs d hd c hc
      · exact hp c hc
    · rw [List.mem_append, List.mem_cons] at hc
      rcases hc with hc | rfl | hc
      · exact hs.dirs d hd c hc
      · exact hs.plain _ (by decide)
      · exact hp c hc

theorem split_words (hn : env.ws '\n' = true) : ∀ l : List Name, (∀ p ∈ l, Good env p) →
    ((List.intercalate ['\n'] l).splitOnP env.ws).filter (fun w => decide (w ≠ [])) = l := by
  intro l
  induction l with
  | nil => intro _; simp [List.intercalate]
  | cons p l ih =>
    intro h
    have hp := h p List.mem_cons_self
    have ih' := ih (fun q hq => h q (List.mem_cons_of_mem _ hq))
    cases l with
    | nil =>
      have : List.intercalate ['\n'] [p] = p := by simp [List.intercalate]
      rw [this, List.splitOnP_eq_singleton hp.2.1]
      simp [hp.1]
    | cons q l =>
      have : List.intercalate ['\n'] (p :: q :: l) = p ++ '\n' :: List.intercalate ['\n'] (q :: l) := by simp [List.intercalate]
      rw [this, List.splitOnP_append_cons_of_forall_mem hp.2.1 '\n' hn, List.filter_cons, ih']
      simp [hp.1]

theorem parse_words (hn : env.ws '\n' = true) (l : List Name) (h : ∀ p ∈ l, Good env p) (hd : l.Nodup) :
    parseRecord env (List.intercalate ['\n'] l) = l := by
  unfold parseRecord
  rw [split_words hn l h, hd.dedup]

theorem sort_some (hs : Setting env dirs) (l : List Name) (h : ∀ p ∈ l, (stepKey p).isSome = true) :
    ∃ r, sortPaths env l = some r ∧ r.Perm l ∧ r.Pairwise (fun a b => (stepKey a).getD 0 ≤ (stepKey b).getD 0) := by
  refine ⟨_, if_pos (List.all_eq_true.mpr h), (List.perm_insertionSort _ _).trans (hs.enum l), ?_⟩
  haveI : Std.Total (fun a b : Name => (stepKey a).getD 0 ≤ (stepKey b).getD 0) := ⟨fun a b => Nat.le_total _ _⟩
  haveI : IsTrans Name (fun a b : Name => (stepKey a).getD 0 ≤ (stepKey b).getD 0) := ⟨fun a b c h1 h2 => Nat.le_trans h1 h2⟩
  exact List.pairwise_insertionSort _ _

/-- The record file holds exactly the paths `R`. -/
def Holds (env : Env) (file : Option Name) (R : List Name) : Prop :=
  (file = none ∧ R = []) ∨ ∃ l, file = some (List.intercalate ['\n'] l) ∧ l.Nodup ∧ (∀ p ∈ l, Good env p) ∧ ∀ p, p ∈ l ↔ p ∈ R

theorem load_holds (hs : Setting env dirs) (file : Option Name) (R : List Name) (h : Holds env file R) :
    ∃ l, loadRecord env file = l ∧ l.Nodup ∧ (∀ p ∈ l, Good env p) ∧ ∀ p, p ∈ l ↔ p ∈ R := by
  rcases h with ⟨rfl, rfl⟩ | ⟨l, rfl, h1, h2, h3⟩
  · exact ⟨[], rfl, List.nodup_nil, by simp, by simp⟩
  · exact ⟨l, parse_words hs.newline l h2 h1, h1, h2, h3⟩

theorem newText_holds (hs : Setting env dirs) (file : Option Name) (R : List Name) (h : Holds env file R) (p : Name) (hp : Good env p) :
    ∃ t, newText env file p = some t ∧ Holds env (some t) (R ++ [p]) := by
  obtain ⟨l, h1, h2, h3, h4⟩ := load_holds hs file R h
  have key : ∀ m : List Name, m.Nodup → (∀ q ∈ m, Good env q) → (∀ q, q ∈ m ↔ q ∈ R ++ [p]) →
      ∃ t, (sortPaths env m).map (fun l => List.intercalate ['\n'] l) = some t ∧ Holds env (some t) (R ++ [p]) := by
    intro m m1 m2 m3
    obtain ⟨r, r1, r2, _⟩ := sort_some hs m (fun q hq => (m2 q hq).2.2)
    refine ⟨_, by rw [r1]; rfl, Or.inr ⟨r, rfl, r2.nodup_iff.mpr m1, fun q hq => m2 q (r2.mem_iff.mp hq), ?_⟩⟩
    intro q
    rw [r2.mem_iff, m3]
  unfold newText
  rw [h1]
  dsimp only
  by_cases hm : p ∈ l
  · rw [if_pos hm]
    refine key l h2 h3 ?_
    intro q
    rw [h4, List.mem_append, List.mem_singleton]
    constructor
    · exact Or.inl
    · rintro (h | rfl)
      · exact h
      · exact (h4 _).1 hm
  · rw [if_neg hm]
    refine key (l ++ [p]) ?_ ?_ ?_
    · rw [List.nodup_append]
      refine ⟨h2, List.nodup_singleton _, ?_⟩
      intro a ha b hb
      rw [List.mem_singleton] at hb
      rintro rfl
      exact hm (hb ▸ ha)
    · intro q hq
      rw [List.mem_append, List.mem_singleton] at hq
      rcases hq with hq | rfl
      · exact h3 q hq
      · exact hp
    · intro q
      rw [List.mem_append, List.mem_append, h4]

/-- Checkpoints evaluated and recorded. -/
def pairs (a : List Name) : List Event := a.flatMap fun p => [.evaluated p, .recorded p]

theorem loop_shape (hs : Setting env dirs) : ∀ (ps : List Name) (stop : Option (Nat × Phase)) (file : Option Name) (R : List Name),
    (∀ p ∈ ps, Good env p) → (∀ n k, stop ≠ some (n, .writing k)) → Holds env file R →
    ∃ a b tl, ps = a ++ b ∧ (loop env ps stop file).2 = pairs a ++ tl ∧ Holds env (loop env ps stop file).1 (R ++ a) ∧
      ((b = [] ∧ tl = [.finished]) ∨ tl = [.died] ∨ ∃ q b', b = q :: b' ∧ tl = [.evaluated q, .died]) := by
  intro ps
  induction ps with
  | nil =>
    intro stop file R _ _ h
    exact ⟨[], [], [.finished], rfl, rfl, by simpa [loop] using h, Or.inl ⟨rfl, rfl⟩⟩
  | cons p ps ih =>
    intro stop file R hg hq h
    obtain ⟨t, ht, hR⟩ := newText_holds hs file R h p (hg p List.mem_cons_self)
    by_cases h1 : stop = some (0, .start)
    · refine ⟨[], p :: ps, [.died], rfl, ?_, ?_, Or.inr (Or.inl rfl)⟩
      · simp only [loop, if_pos h1]; rfl
      · simp only [loop, if_pos h1, List.append_nil]; exact h
    · by_cases h2 : stop = some (0, .evaluated)
      · refine ⟨[], p :: ps, [.evaluated p, .died], rfl, ?_, ?_, Or.inr (Or.inr ⟨p, ps, rfl, rfl⟩)⟩
        · simp only [loop, if_neg h1, if_pos h2]; rfl
        · simp only [loop, if_neg h1, if_pos h2, List.append_nil]; exact h
      · have hq' : ∀ n k, stop.map (fun s => (s.1 - 1, s.2)) ≠ some (n, Phase.writing k) := by
          intro n k hx
          rw [Option.map_eq_some_iff] at hx
          obtain ⟨s, hs1, hs2⟩ := hx
          have : s = (s.1, Phase.writing k) := by
            rw [Prod.ext_iff]
            exact ⟨rfl, (Prod.ext_iff.mp hs2).2⟩
          exact hq s.1 k (by rw [hs1, ← this])
        obtain ⟨a, b, tl, e1, e2, e3, e4⟩ := ih (stop.map fun s => (s.1 - 1, s.2)) (some t) (R ++ [p])
          (fun q hq => hg q (List.mem_cons_of_mem _ hq)) hq' hR
        have hl : loop env (p :: ps) stop file =
            ((loop env ps (stop.map fun s => (s.1 - 1, s.2)) (some t)).1,
              .evaluated p :: .recorded p :: (loop env ps (stop.map fun s => (s.1 - 1, s.2)) (some t)).2) := by
          rw [loop, if_neg h1, if_neg h2, ht]
          match stop, h1, h2, hq with
          | none, _, _, _ => rfl
          | some (n + 1, ph), _, _, _ => rfl
          | some (0, .start), h1, _, _ => exact absurd rfl h1
          | some (0, .evaluated), _, h2, _ => exact absurd rfl h2
          | some (0, .writing k), _, _, hq => exact absurd rfl (hq 0 k)
        refine ⟨p :: a, b, tl, by rw [e1]; rfl, ?_, ?_, e4⟩
        · rw [hl]; dsimp only; rw [e2]; rfl
        · rw [hl]; dsimp only
          have : R ++ p :: a = R ++ [p] ++ a := by simp
          rw [this]; exact e3

theorem firstValid_all (w : RestoreCfg.World) (ht : ∀ d ∈ dirs, w.tfPaths d = none) (r : Option (RestoreCfg.Cfg Unit) × List Name)
    (h : RestoreCfg.firstValid w [⟨.all, dirs, ()⟩] = .ok r) :
    (r.2 = [] ∧ ∀ d ∈ dirs, w.steps d = []) ∨
    ∃ pre d post, dirs = pre ++ d :: post ∧ (∀ e ∈ pre, w.steps e = []) ∧ w.steps d ≠ [] ∧ r.2 = (w.steps d).map (ckptPath d) := by
  have main : ∀ ds : List Name, (∀ d ∈ ds, w.tfPaths d = none) → ∀ o, RestoreCfg.scanDirs w false ds = .ok o →
      (o = none ∧ ∀ d ∈ ds, w.steps d = []) ∨
      ∃ pre d post, ds = pre ++ d :: post ∧ (∀ e ∈ pre, w.steps e = []) ∧ w.steps d ≠ [] ∧ o = some ((w.steps d).map (ckptPath d)) := by
    intro ds
    induction ds with
    | nil => intro _ o h; simp only [RestoreCfg.scanDirs, Except.ok.injEq] at h; exact Or.inl ⟨h.symm, by simp⟩
    | cons d ds ih =>
      intro ht o h
      have hd : RestoreCfg.dirCkpts w d = (w.steps d).map (ckptPath d) := by
        unfold RestoreCfg.dirCkpts
        rw [ht d List.mem_cons_self]; rfl
      simp only [RestoreCfg.scanDirs, hd, Bool.false_eq_true, if_false] at h
      split_ifs at h with hi he
      · have hst : w.steps d = [] := by simpa using he
        rcases ih (fun x hx => ht x (List.mem_cons_of_mem _ hx)) o h with ⟨h1, h2⟩ | ⟨pre, d', post, h1, h2, h3, h4⟩
        · refine Or.inl ⟨h1, ?_⟩
          intro x hx
          rcases List.mem_cons.mp hx with rfl | hx
          · exact hst
          · exact h2 x hx
        · refine Or.inr ⟨d :: pre, d', post, by rw [h1]; rfl, ?_, h3, h4⟩
          intro x hx
          rcases List.mem_cons.mp hx with rfl | hx
          · exact hst
          · exact h2 x hx
      · refine Or.inr ⟨[], d, ds, rfl, by simp, ?_, ?_⟩
        · intro h0; rw [h0] at he; simp at he
        · simp only [Except.ok.injEq] at h; exact h.symm
  simp only [RestoreCfg.firstValid] at h
  cases hsc : RestoreCfg.scanDirs w false dirs with
  | error e => rw [hsc] at h; cases h
  | ok o =>
    rw [hsc] at h
    rcases main dirs ht o hsc with ⟨rfl, h2⟩ | ⟨pre, d, post, h1, h2, h3, rfl⟩
    · simp only [Except.ok.injEq] at h
      subst h
      exact Or.inl ⟨rfl, h2⟩
    · simp only [Except.ok.injEq] at h
      subst h
      exact Or.inr ⟨pre, d, post, h1, h2, h3, rfl⟩

/-- What is planned: distinct, existing checkpoints that are not recorded, in the order of their steps. -/
theorem planned_ok (hs : Setting env dirs) (w : RestoreCfg.World) (hw : ∀ d ∈ dirs, w.tfPaths d = none ∧ (w.steps d).Pairwise (· < ·))
    (file : Option Name) (R : List Name) (h : Holds env file R) (ps : List Name) (hp : planned env w dirs file = some ps) :
    ps.Nodup ∧ (∀ p ∈ ps, ∃ d ∈ dirs, ∃ s ∈ w.steps d, p = ckptPath d s) ∧ (∀ p ∈ ps, p ∉ R) ∧
    ps.Pairwise (fun a b => (stepKey a).getD 0 ≤ (stepKey b).getD 0) ∧
    (file ≠ none ∨ (∃ d, dirs = [d]) → ∀ d ∈ dirs, ∀ s ∈ w.steps d, ckptPath d s ∈ ps ∨ ckptPath d s ∈ R) := by
  rcases h with ⟨rfl, rfl⟩ | ⟨l, rfl, h1, h2, h3⟩
  · simp only [planned] at hp
    cases hf : RestoreCfg.firstValid w [⟨.all, dirs, ()⟩] with
    | error e => rw [hf] at hp; cases hp
    | ok r =>
      rw [hf] at hp
      simp only [Option.some.injEq] at hp
      subst hp
      rcases firstValid_all w (fun d hd => (hw d hd).1) r hf with ⟨e1, e2⟩ | ⟨pre, d, post, e1, e2, e3, e4⟩
      · rw [e1]
        refine ⟨List.nodup_nil, by simp, by simp, List.Pairwise.nil, ?_⟩
        intro _ d hd s hsd
        rw [e2 d hd] at hsd; simp at hsd
      · rw [e4]
        have hd : d ∈ dirs := by rw [e1]; simp
        refine ⟨?_, ?_, by simp, ?_, ?_⟩
        · exact List.Nodup.map (fun a b => path_inj d a b) ((hw d hd).2.imp (fun h => Nat.ne_of_lt h))
        · intro p hp
          obtain ⟨s, hs1, rfl⟩ := List.mem_map.mp hp
          exact ⟨d, hd, s, hs1, rfl⟩
        · rw [List.pairwise_map]
          refine (hw d hd).2.imp ?_
          intro a b hab
          rw [key_path, key_path]
          exact Nat.le_of_lt hab
        · rintro (h | ⟨d0, h⟩)
          · exact absurd rfl h
          · intro d' hd' s hs'
            rw [h] at hd hd'
            rw [List.mem_singleton] at hd hd'
            subst hd; subst hd'
            exact Or.inl (List.mem_map.mpr ⟨s, hs', rfl⟩)
  · simp only [planned] at hp
    split_ifs at hp with hdir
    rw [parse_words hs.newline l h2 h1] at hp
    set all := (dirs.flatMap fun d => (w.steps d).map fun s => pathJoin d (ckptName s)).dedup with hall
    have hmem : ∀ p, p ∈ all ↔ ∃ d ∈ dirs, ∃ s ∈ w.steps d, p = ckptPath d s := by
      intro p
      rw [hall, List.mem_dedup, List.mem_flatMap]
      constructor
      · rintro ⟨d, hd, hp⟩
        obtain ⟨s, hs1, rfl⟩ := List.mem_map.mp hp
        exact ⟨d, hd, s, hs1, rfl⟩
      · rintro ⟨d, hd, s, hs1, rfl⟩
        exact ⟨d, hd, List.mem_map.mpr ⟨s, hs1, rfl⟩⟩
    have hnd : all.Nodup := List.nodup_dedup _
    have hkey : ∀ p ∈ all, (stepKey p).isSome = true := by
      intro p hp
      obtain ⟨d, _, s, _, rfl⟩ := (hmem p).1 hp
      rw [key_path]; rfl
    obtain ⟨r0, q0, _, _⟩ := sort_some hs (all.filter (fun p => decide (p ∈ l))) (fun p hp => hkey p (List.mem_filter.mp hp).1)
    obtain ⟨r, q1, q2, q3⟩ := sort_some hs (all.filter (fun p => decide (p ∉ l))) (fun p hp => hkey p (List.mem_filter.mp hp).1)
    rw [q0] at hp
    dsimp only at hp
    rw [q1] at hp
    simp only [Option.some.injEq] at hp
    subst hp
    have hr : ∀ p, p ∈ r ↔ p ∈ all ∧ p ∉ R := by
      intro p
      rw [q2.mem_iff, List.mem_filter, decide_eq_true_eq, h3]
    refine ⟨q2.nodup_iff.mpr (hnd.filter _), fun p hp => (hmem p).1 ((hr p).1 hp).1, fun p hp => ((hr p).1 hp).2, q3, ?_⟩
    intro _ d hd s hs'
    by_cases hR : ckptPath d s ∈ R
    · exact Or.inr hR
    · exact Or.inl ((hr _).2 ⟨(hmem _).2 ⟨d, hd, s, hs', rfl⟩, hR⟩)

/-- Everything about one run, in terms of what was recorded before. -/
theorem run_shape (hs : Setting env dirs) (h : RestoreCfg.World × Option (Nat × Phase)) (hq : Quiet dirs h)
    (file : Option Name) (R : List Name) (hR : Holds env file R) :
    ∃ a q tl, (run env dirs h.1 h.2 file).2 = pairs a ++ (q.map Event.evaluated ++ [tl]) ∧
      Holds env (run env dirs h.1 h.2 file).1 (R ++ a) ∧ (tl = .finished ∨ tl = .died) ∧ q.length ≤ 1 ∧ (q ≠ [] → tl = .died) ∧
      (a ++ q).Nodup ∧ (∀ p ∈ a ++ q, p ∉ R) ∧ (∀ p ∈ a ++ q, ∃ d ∈ dirs, ∃ s ∈ h.1.steps d, p = ckptPath d s) ∧
      (a ++ q).Pairwise (fun a b => (stepKey a).getD 0 ≤ (stepKey b).getD 0) ∧
      (tl = .finished → file ≠ none ∨ (∃ d, dirs = [d]) → ∀ d ∈ dirs, ∀ s ∈ h.1.steps d, ckptPath d s ∈ R ++ a) := by
  unfold run
  cases hp : planned env h.1 dirs file with
  | none =>
    refine ⟨[], [], .died, rfl, by simpa using hR, Or.inr rfl, by simp, by simp, by simp, by simp, by simp, by simp, ?_⟩
    intro h; cases h
  | some ps =>
    obtain ⟨p1, p2, p3, p4, p5⟩ := planned_ok hs h.1 hq.1 file R hR ps hp
    have hg : ∀ p ∈ ps, Good env p := by
      intro p hpp
      obtain ⟨d, hd, s, _, rfl⟩ := p2 p hpp
      exact good_path hs d hd s
    obtain ⟨a, b, tl, e1, e2, e3, e4⟩ := loop_shape hs ps h.2 file R hg hq.2 hR
    dsimp only
    have sub : ∀ q : List Name, (a ++ q).Sublist ps → (a ++ q).Nodup ∧ (∀ p ∈ a ++ q, p ∉ R) ∧
        (∀ p ∈ a ++ q, ∃ d ∈ dirs, ∃ s ∈ h.1.steps d, p = ckptPath d s) ∧
        (a ++ q).Pairwise (fun a b => (stepKey a).getD 0 ≤ (stepKey b).getD 0) := fun q hsub =>
      ⟨p1.sublist hsub, fun p hp => p3 p (hsub.subset hp), fun p hp => p2 p (hsub.subset hp), p4.sublist hsub⟩
    have s0 : (a ++ []).Sublist ps := by rw [e1, List.append_nil]; exact List.sublist_append_left _ _
    rcases e4 with ⟨rfl, rfl⟩ | rfl | ⟨q, b', rfl, rfl⟩
    · obtain ⟨t1, t2, t3, t4⟩ := sub [] s0
      refine ⟨a, [], .finished, e2, e3, Or.inl rfl, by simp, by simp, t1, t2, t3, t4, ?_⟩
      intro _ hc d hd s hsd
      rw [List.append_nil] at e1
      rw [List.mem_append, ← e1]
      exact (p5 hc d hd s hsd).symm
    · obtain ⟨t1, t2, t3, t4⟩ := sub [] s0
      exact ⟨a, [], .died, e2, e3, Or.inr rfl, by simp, by simp, t1, t2, t3, t4, by intro h; cases h⟩
    · obtain ⟨t1, t2, t3, t4⟩ := sub [q] (by rw [e1]; exact List.Sublist.append_left (by simp) a)
      exact ⟨a, [q], .died, e2, e3, Or.inr rfl, by simp, fun _ => rfl, t1, t2, t3, t4, by intro h; cases h⟩

/-- What was recorded. -/
def recordings (es : List Event) : List Name := es.filterMap fun e => match e with
  | .recorded p => some p
  | _ => none

theorem recordings_append (a b : List Event) : recordings (a ++ b) = recordings a ++ recordings b := List.filterMap_append

theorem evaluations_append (a b : List Event) : evaluations (a ++ b) = evaluations a ++ evaluations b := List.filterMap_append

theorem recordings_pairs (a : List Name) : recordings (pairs a) = a := by
  induction a with
  | nil => rfl
  | cons p a ih =>
    have : pairs (p :: a) = [.evaluated p, .recorded p] ++ pairs a := rfl
    rw [this, recordings_append, ih]; rfl

theorem evaluations_pairs (a : List Name) : evaluations (pairs a) = a := by
  induction a with
  | nil => rfl
  | cons p a ih =>
    have : pairs (p :: a) = [.evaluated p, .recorded p] ++ pairs a := rfl
    rw [this, evaluations_append, ih]; rfl

theorem recordings_tail (q : List Name) (tl : Event) (h : tl = .finished ∨ tl = .died) : recordings (q.map Event.evaluated ++ [tl]) = [] := by
  rw [recordings_append]
  have h1 : recordings (q.map Event.evaluated) = [] := by
    induction q with
    | nil => rfl
    | cons p q ih => exact ih
  rw [h1]
  rcases h with rfl | rfl <;> rfl

theorem evaluations_tail (q : List Name) (tl : Event) (h : tl = .finished ∨ tl = .died) : evaluations (q.map Event.evaluated ++ [tl]) = q := by
  rw [evaluations_append]
  have h1 : evaluations (q.map Event.evaluated) = q := by
    induction q with
    | nil => rfl
    | cons p q ih =>
      have : evaluations ((p :: q).map Event.evaluated) = p :: evaluations (q.map Event.evaluated) := rfl
      rw [this, ih]
  rw [h1]
  rcases h with rfl | rfl <;> simp [evaluations]

theorem holds_history (hs : Setting env dirs) (hist : List (RestoreCfg.World × Option (Nat × Phase))) (hq : ∀ h ∈ hist, Quiet dirs h) :
    Holds env (history env dirs hist).1 (recordings (history env dirs hist).2) := by
  induction hist with
  | nil => exact Or.inl ⟨rfl, rfl⟩
  | cons h hist ih =>
    have ih' := ih (fun x hx => hq x (List.mem_cons_of_mem _ hx))
    obtain ⟨a, q, tl, e1, e2, e3, _⟩ := run_shape hs h (hq h List.mem_cons_self) _ _ ih'
    simp only [history]
    rw [recordings_append, e1, recordings_append, recordings_pairs, recordings_tail q tl e3, List.append_nil]
    exact e2

/-- Traces are made of four kinds of blocks. -/
inductive Blocks : List Event → Prop
  | nil : Blocks []
  | done (p r) : Blocks r → Blocks (.evaluated p :: .recorded p :: r)
  | lost (p r) : Blocks r → Blocks (.evaluated p :: .died :: r)
  | died (r) : Blocks r → Blocks (.died :: r)
  | finished (r) : Blocks r → Blocks (.finished :: r)

theorem Blocks.append {a b : List Event} (ha : Blocks a) (hb : Blocks b) : Blocks (a ++ b) := by
  induction ha with
  | nil => exact hb
  | done p r _ ih => exact .done p _ ih
  | lost p r _ ih => exact .lost p _ ih
  | died r _ ih => exact .died _ ih
  | finished r _ ih => exact .finished _ ih

theorem blocks_pairs (a : List Name) : Blocks (pairs a) := by
  induction a with
  | nil => exact .nil
  | cons p a ih => exact .done p _ ih

theorem blocks_history (hs : Setting env dirs) (hist : List (RestoreCfg.World × Option (Nat × Phase))) (hq : ∀ h ∈ hist, Quiet dirs h) :
    Blocks (history env dirs hist).2 := by
  induction hist with
  | nil => exact .nil
  | cons h hist ih =>
    have hq' : ∀ h ∈ hist, Quiet dirs h := fun x hx => hq x (List.mem_cons_of_mem _ hx)
    obtain ⟨a, q, tl, e1, _, e3, e4, e5, _⟩ := run_shape hs h (hq h List.mem_cons_self) _ _ (holds_history hs hist hq')
    simp only [history]
    refine (ih hq').append ?_
    rw [e1]
    refine (blocks_pairs a).append ?_
    match q, e4, e5 with
    | [], _, _ =>
      rcases e3 with rfl | rfl
      · exact .finished _ .nil
      · exact .died _ .nil
    | [p], _, e5 =>
      rw [e5 (by simp)]
      exact .lost p _ .nil
    | _ :: _ :: _, e4, _ => simp at e4

theorem blocks_eval {tr : List Event} (h : Blocks tr) : ∀ pre p post, tr = pre ++ .evaluated p :: post →
    post.head? = some (.recorded p) ∨ post.head? = some .died := by
  induction h with
  | nil => intro pre p post h; simp at h
  | done q r _ ih =>
    intro pre p post h
    match pre with
    | [] => simp only [List.nil_append, List.cons.injEq, Event.evaluated.injEq] at h; left; rw [← h.2, h.1]; rfl
    | [x] => simp at h
    | x :: y :: pre => simp only [List.cons_append, List.cons.injEq] at h; exact ih pre p post h.2.2
  | lost q r _ ih =>
    intro pre p post h
    match pre with
    | [] => simp only [List.nil_append, List.cons.injEq] at h; right; rw [← h.2]; rfl
    | [x] => simp at h
    | x :: y :: pre => simp only [List.cons_append, List.cons.injEq] at h; exact ih pre p post h.2.2
  | died r _ ih =>
    intro pre p post h
    match pre with
    | [] => simp at h
    | x :: pre => simp only [List.cons_append, List.cons.injEq] at h; exact ih pre p post h.2
  | finished r _ ih =>
    intro pre p post h
    match pre with
    | [] => simp at h
    | x :: pre => simp only [List.cons_append, List.cons.injEq] at h; exact ih pre p post h.2

theorem blocks_rec {tr : List Event} (h : Blocks tr) : ∀ pre p post, tr = pre ++ .recorded p :: post →
    pre.getLast? = some (.evaluated p) := by
  have last : ∀ (x y : Event) (l : List Event) (e : Event), l.getLast? = some e → (x :: y :: l).getLast? = some e := by
    intro x y l e h
    rw [List.getLast?_cons, List.getLast?_cons, h]; rfl
  have last1 : ∀ (x : Event) (l : List Event) (e : Event), l.getLast? = some e → (x :: l).getLast? = some e := by
    intro x l e h
    rw [List.getLast?_cons, h]; rfl
  induction h with
  | nil => intro pre p post h; simp at h
  | done q r _ ih =>
    intro pre p post h
    match pre with
    | [] => simp at h
    | [x] =>
      simp only [List.cons_append, List.nil_append, List.cons.injEq, Event.recorded.injEq] at h
      rw [← h.1, h.2.1]; rfl
    | x :: y :: pre => simp only [List.cons_append, List.cons.injEq] at h; exact last _ _ _ _ (ih pre p post h.2.2)
  | lost q r _ ih =>
    intro pre p post h
    match pre with
    | [] => simp at h
    | [x] => simp at h
    | x :: y :: pre => simp only [List.cons_append, List.cons.injEq] at h; exact last _ _ _ _ (ih pre p post h.2.2)
  | died r _ ih =>
    intro pre p post h
    match pre with
    | [] => simp at h
    | x :: pre => simp only [List.cons_append, List.cons.injEq] at h; exact last1 _ _ _ (ih pre p post h.2)
  | finished r _ ih =>
    intro pre p post h
    match pre with
    | [] => simp at h
    | x :: pre => simp only [List.cons_append, List.cons.injEq] at h; exact last1 _ _ _ (ih pre p post h.2)

/-- No evaluation after a recording of the same path. -/
def Apart (e f : Event) : Prop := ∀ p, e = .recorded p → f ≠ .evaluated p

theorem apart_history (hs : Setting env dirs) (hist : List (RestoreCfg.World × Option (Nat × Phase))) (hq : ∀ h ∈ hist, Quiet dirs h) :
    (history env dirs hist).2.Pairwise Apart := by
  induction hist with
  | nil => exact List.Pairwise.nil
  | cons h hist ih =>
    have hq' : ∀ h ∈ hist, Quiet dirs h := fun x hx => hq x (List.mem_cons_of_mem _ hx)
    obtain ⟨a, q, tl, e1, e2, e3, _, _, e6, e7, e8⟩ := run_shape hs h (hq h List.mem_cons_self) _ _ (holds_history hs hist hq')
    simp only [history]
    have mem_ev : ∀ (es : List Event) (p : Name), Event.evaluated p ∈ es → p ∈ evaluations es := fun es p h =>
      List.mem_filterMap.mpr ⟨_, h, rfl⟩
    have mem_rec : ∀ (es : List Event) (p : Name), Event.recorded p ∈ es → p ∈ recordings es := fun es p h =>
      List.mem_filterMap.mpr ⟨_, h, rfl⟩
    rw [List.pairwise_append]
    refine ⟨ih hq', ?_, ?_⟩
    · rw [e1]
      clear e1 e2 e7 e8
      induction a with
      | nil =>
        apply List.pairwise_of_forall_mem_list
        intro x hx y _ p hxp
        subst hxp
        have := mem_rec _ _ hx
        rw [recordings_append, recordings_tail q tl e3] at this
        simp [pairs, recordings] at this
      | cons p a ih2 =>
        have hnd : p ∉ a ++ q ∧ (a ++ q).Nodup := List.nodup_cons.mp e6
        have : pairs (p :: a) ++ (q.map Event.evaluated ++ [tl]) =
            .evaluated p :: .recorded p :: (pairs a ++ (q.map Event.evaluated ++ [tl])) := rfl
        rw [this, List.pairwise_cons, List.pairwise_cons]
        refine ⟨?_, ?_, ih2 hnd.2⟩
        · intro y _ p' hp'; cases hp'
        · intro y hy p' hp'
          cases hp'
          rintro rfl
          have := mem_ev _ _ hy
          rw [evaluations_append, evaluations_pairs, evaluations_tail q tl e3] at this
          exact hnd.1 this
    · intro x hx y hy p hxp hyp
      subst hxp; subst hyp
      have h1 := mem_rec _ _ hx
      have h2 := mem_ev _ _ hy
      rw [e1, evaluations_append, evaluations_pairs, evaluations_tail q tl e3] at h2
      exact e7 p h2 h1

/-- C39: over any number of runs, a checkpoint that has been recorded is never evaluated again; one is only recorded right after it was
evaluated; and one that is evaluated twice was lost in between: the process died right after the first evaluation. -/
theorem C39_once (hs : Setting env dirs) (hist : List (RestoreCfg.World × Option (Nat × Phase))) (hq : ∀ h ∈ hist, Quiet dirs h)
    (p : Name) (pre post : List Event) :
    ((history env dirs hist).2 = pre ++ .recorded p :: post → .evaluated p ∉ post ∧ pre.getLast? = some (.evaluated p)) ∧
    ((history env dirs hist).2 = pre ++ .evaluated p :: post → post.head? = some (.recorded p) ∨ post.head? = some .died) ∧
    ((history env dirs hist).2 = pre ++ .evaluated p :: post → .evaluated p ∈ post → post.head? = some .died) := by
  have ha := apart_history hs hist hq
  have hb := blocks_history hs hist hq
  refine ⟨?_, blocks_eval hb pre p post, ?_⟩
  · intro h
    refine ⟨?_, blocks_rec hb pre p post h⟩
    intro hm
    rw [h, List.pairwise_append] at ha
    exact (List.pairwise_cons.mp ha.2.1).1 _ hm p rfl rfl
  · intro h hm
    rcases blocks_eval hb pre p post h with h2 | h2
    · exfalso
      obtain ⟨post', rfl⟩ : ∃ r, post = .recorded p :: r := by
        cases post with
        | nil => simp at h2
        | cons x r => simp only [List.head?_cons, Option.some.injEq] at h2; exact ⟨r, by rw [h2]⟩
      rw [h, List.pairwise_append, List.pairwise_cons, List.pairwise_cons] at ha
      rcases List.mem_cons.mp hm with h3 | h3
      · cases h3
      · exact ha.2.1.2.1 _ h3 p rfl rfl
    · exact h2

/-- C39: every run evaluates existing checkpoints of the configured directories, in the order of their steps. -/
theorem C39_order (hs : Setting env dirs) (hist : List (RestoreCfg.World × Option (Nat × Phase))) (hq : ∀ h ∈ hist, Quiet dirs h)
    (h : RestoreCfg.World × Option (Nat × Phase)) (hh : Quiet dirs h) :
    ∃ l : List (Name × Nat), evaluations (run env dirs h.1 h.2 (history env dirs hist).1).2 = l.map (fun x => ckptPath x.1 x.2) ∧
      (∀ x ∈ l, x.1 ∈ dirs ∧ x.2 ∈ h.1.steps x.1) ∧ l.Pairwise (fun x y => x.2 ≤ y.2) ∧
      (l.map fun x => ckptPath x.1 x.2).Nodup := by
  obtain ⟨a, q, tl, e1, _, e3, _, _, e6, _, e8, e9, _⟩ := run_shape hs h hh _ _ (holds_history hs hist hq)
  have hev : evaluations (run env dirs h.1 h.2 (history env dirs hist).1).2 = a ++ q := by
    rw [e1, evaluations_append, evaluations_pairs, evaluations_tail q tl e3]
  rw [hev]
  have main : ∀ l : List Name, (∀ p ∈ l, ∃ d ∈ dirs, ∃ s ∈ h.1.steps d, p = ckptPath d s) →
      ∃ m : List (Name × Nat), l = m.map (fun x => ckptPath x.1 x.2) ∧ ∀ x ∈ m, x.1 ∈ dirs ∧ x.2 ∈ h.1.steps x.1 := by
    intro l
    induction l with
    | nil => intro _; exact ⟨[], rfl, by simp⟩
    | cons p l ih =>
      intro hl
      obtain ⟨m, h1, h2⟩ := ih (fun x hx => hl x (List.mem_cons_of_mem _ hx))
      obtain ⟨d, hd, s, hs', rfl⟩ := hl p List.mem_cons_self
      refine ⟨(d, s) :: m, by rw [h1]; rfl, ?_⟩
      intro x hx
      rcases List.mem_cons.mp hx with rfl | hx
      · exact ⟨hd, hs'⟩
      · exact h2 x hx
  obtain ⟨m, h1, h2⟩ := main _ e8
  refine ⟨m, h1, h2, ?_, h1 ▸ e6⟩
  rw [h1, List.pairwise_map] at e9
  refine e9.imp ?_
  intro x y hxy
  simpa only [key_path, Option.getD_some] using hxy

/-- C39: after a run that finishes, every checkpoint there is has been recorded (and so evaluated): in all configured directories if
there is only one or something was recorded before. -/
theorem C39_complete (hs : Setting env dirs) (hist : List (RestoreCfg.World × Option (Nat × Phase))) (hq : ∀ h ∈ hist, Quiet dirs h)
    (h : RestoreCfg.World × Option (Nat × Phase)) (hh : Quiet dirs h)
    (hf : .finished ∈ (run env dirs h.1 h.2 (history env dirs hist).1).2)
    (hc : (∃ d, dirs = [d]) ∨ ∃ p, .recorded p ∈ (history env dirs hist).2) (d : Name) (hd : d ∈ dirs) (s : Nat) (hsd : s ∈ h.1.steps d) :
    .recorded (ckptPath d s) ∈ (history env dirs (h :: hist)).2 := by
  have hH := holds_history hs hist hq
  obtain ⟨a, q, tl, e1, _, e3, _, _, _, _, _, _, e10⟩ := run_shape hs h hh _ _ hH
  have hfile : (history env dirs hist).1 ≠ none ∨ ∃ d, dirs = [d] := by
    rcases hc with h | ⟨p, hp⟩
    · exact Or.inr h
    · left
      rcases hH with ⟨_, h2⟩ | ⟨l, h1, _⟩
      · have : p ∈ recordings (history env dirs hist).2 := List.mem_filterMap.mpr ⟨_, hp, rfl⟩
        rw [h2] at this; simp at this
      · rw [h1]; simp
  have htl : tl = .finished := by
    rw [e1, List.mem_append, List.mem_append] at hf
    rcases hf with h1 | h1 | h1
    · simp [pairs] at h1
    · simp at h1
    · exact (List.mem_singleton.mp h1).symm
  have := e10 htl hfile d hd s hsd
  have hm : ckptPath d s ∈ recordings (history env dirs (h :: hist)).2 := by
    simp only [history]
    rw [recordings_append, e1, recordings_append, recordings_pairs, recordings_tail q tl e3, List.append_nil]
    exact this
  obtain ⟨e, he, h2⟩ := List.mem_filterMap.mp hm
  cases e with
  | recorded p => simp only [Option.some.injEq] at h2; rw [← h2]; exact he
  | evaluated p => cases h2
  | died => cases h2
  | finished => cases h2

/-! ### What does not hold -/

/-- Blanks are blank and newline; sets are iterated in the order they were built. -/
def demoEnv : Env := ⟨fun c => c == ' ' || c == '\n', fun l => l⟩

def demoWorld (f : Name → List Nat) : RestoreCfg.World := ⟨fun _ => true, fun _ => none, f⟩

/-- C39, not claimed: with several directories and no record yet, a run that finishes evaluates only the first directory that has
checkpoints. -/
theorem C39_first_run : (run demoEnv [['a'], ['b']] (demoWorld fun _ => [5]) none none).2 =
    [.evaluated "a/checkpoint_5".toList, .recorded "a/checkpoint_5".toList, .finished] := by decide

/-- C39, not claimed: with a blank in a directory name the job dies at the second checkpoint, in every run, without recording it. -/
theorem C39_blank : ∀ n, let hist := List.replicate (n + 1) (demoWorld fun _ => [5, 7], none)
    (history demoEnv ["my dir".toList] hist).1 = some "my dir/checkpoint_5".toList ∧
    Event.recorded "my dir/checkpoint_7".toList ∉ (history demoEnv ["my dir".toList] hist).2 := by
  intro n
  dsimp only
  induction n with
  | zero => decide
  | succ n ih =>
    rw [List.replicate_succ]
    simp only [history]
    rw [ih.1]
    constructor
    · decide
    · rw [List.mem_append, not_or]
      exact ⟨ih.2, by decide⟩

/-- C39, not claimed: if the process dies while it rewrites the record, recorded checkpoints are evaluated again, and a path that is cut
within its name keeps the job from ever recording anything again. -/
theorem C39_torn_record : ∀ n, let first := (demoWorld fun _ => [5, 7], some (1, Phase.writing 6))
    let hist := List.replicate n (demoWorld fun _ => [5, 7], none) ++ [first]
    (history demoEnv [['a']] hist).1 = some "a/chec".toList ∧
    ∃ rest, (history demoEnv [['a']] hist).2 = .evaluated "a/checkpoint_5".toList :: .recorded "a/checkpoint_5".toList ::
      .evaluated "a/checkpoint_7".toList :: .died :: rest ∧
      rest = (List.replicate n [Event.evaluated "a/checkpoint_5".toList, .died]).flatten := by
  intro n
  dsimp only
  induction n with
  | zero => exact ⟨by decide, [], by decide, rfl⟩
  | succ n ih =>
    obtain ⟨h1, rest, h2, h3⟩ := ih
    rw [List.replicate_succ, List.cons_append]
    simp only [history]
    rw [h1, h2]
    refine ⟨by decide, (List.replicate n [Event.evaluated "a/checkpoint_5".toList, .died]).flatten ++
      [Event.evaluated "a/checkpoint_5".toList, .died], ?_, ?_⟩
    · rw [h3]
      have : (run demoEnv [['a']] (demoWorld fun _ => [5, 7]) none (some "a/chec".toList)).2 =
        [Event.evaluated "a/checkpoint_5".toList, .died] := by decide
      rw [this]; rfl
    · rw [List.replicate_succ', List.flatten_append]; rfl

/-! ### Concrete cases -/

example : Setting demoEnv [['a'], ['b']] where
  enum := fun _ => List.Perm.refl _
  newline := by decide
  plain := by decide
  dirs := by decide
example : Quiet [['a'], ['b']] (demoWorld fun _ => [5, 10], some (1, .evaluated)) :=
  ⟨fun _ _ => ⟨rfl, by simp [demoWorld]⟩, by intro n k h; simp at h⟩
example : (history demoEnv [['a'], ['b']] [(demoWorld fun d => if d = ['a'] then [5, 10, 20] else [7], none),
    (demoWorld fun _ => [5, 10], some (1, .evaluated))]).2 =
    [.evaluated "a/checkpoint_5".toList, .recorded "a/checkpoint_5".toList, .evaluated "a/checkpoint_10".toList, .died,
      .evaluated "b/checkpoint_7".toList, .recorded "b/checkpoint_7".toList, .evaluated "a/checkpoint_10".toList,
      .recorded "a/checkpoint_10".toList, .evaluated "a/checkpoint_20".toList, .recorded "a/checkpoint_20".toList, .finished] := by
  decide

end Verif.EvalAll
