import Verif.Spec.TrainState
import Verif.Lemmas.MultiOpt
namespace Verif.TrainState
open Verif Verif.StateDict Verif.StateDict.Spec Verif.MultiOpt Verif.OptaxState Verif.OptaxState.Spec Verif.TrainState.Spec

variable {α : Type}

theorem base_some (k b : Key) : base k = some b ↔ k = b ++ axesSuffix := by
  unfold base
  constructor
  · intro h
    split_ifs at h with hs
    · simp only [Option.some.injEq] at h
      obtain ⟨x, rfl⟩ := List.isSuffixOf_iff_suffix.mp hs
      rw [← h]
      simp [axesSuffix]
  · rintro rfl
    rw [if_pos (List.isSuffixOf_iff_suffix.mpr ⟨b, rfl⟩)]
    simp [axesSuffix]

theorem base_none (k : Key) : base k = none ↔ ¬ ∃ b, k = b ++ axesSuffix := by
  cases h : base k with
  | none =>
    simp only [true_iff]
    rintro ⟨b, hb⟩
    rw [(base_some k b).2 hb] at h; cases h
  | some b => simp only [reduceCtorEq, false_iff, not_not]; exact ⟨b, (base_some k b).1 h⟩

theorem join_cons (k k2 : Key) (ks : List Key) : join (k :: k2 :: ks) = k ++ '/' :: join (k2 :: ks) := by
  simp [join, List.intercalate]

theorem join_one (k : Key) : join [k] = k := by simp [join, List.intercalate]

theorem join_axesPath : ∀ p : List Key, p ≠ [] → join (axesPath p) = join p ++ axesSuffix := by
  intro p
  induction p with
  | nil => intro h; exact absurd rfl h
  | cons k p ih =>
    intro _
    cases p with
    | nil => simp only [axesPath, join_one]; rfl
    | cons k2 ks =>
      have h1 := ih (by simp)
      simp only [axesPath]
      have : ∃ a l, axesPath (k2 :: ks) = a :: l := by
        cases ks with
        | nil => exact ⟨_, _, rfl⟩
        | cons _ _ => exact ⟨_, _, rfl⟩
      obtain ⟨a, l, ha⟩ := this
      rw [ha] at h1 ⊢
      rw [join_cons, join_cons, h1]
      simp

theorem axesPath_named (p : List Key) (h : Named p) : Named (axesPath p) := by
  induction p with
  | nil => exact h
  | cons k p ih =>
    cases p with
    | nil =>
      refine ⟨by simp [axesPath], ?_⟩
      intro x hx
      simp only [axesPath, List.mem_singleton] at hx
      subst hx
      simp only [List.mem_append, not_or]
      exact ⟨h.2 k List.mem_cons_self, by decide⟩
    | cons k2 ks =>
      obtain ⟨h1, h2⟩ := ih ⟨by simp, fun x hx => h.2 x (List.mem_cons_of_mem _ hx)⟩
      refine ⟨by simp [axesPath], ?_⟩
      intro x hx
      simp only [axesPath, List.mem_cons] at hx
      rcases hx with rfl | hx
      · exact h.2 _ List.mem_cons_self
      · exact h2 x hx

theorem suffix_join : ∀ p : List Key, p ≠ [] → ((∃ x, join p = x ++ axesSuffix) ↔ ∃ q k, p = q ++ [k ++ axesSuffix]) := by
  intro p
  induction p with
  | nil => intro h; exact absurd rfl h
  | cons k p ih =>
    intro _
    cases p with
    | nil =>
      rw [join_one]
      constructor
      · rintro ⟨x, rfl⟩; exact ⟨[], x, rfl⟩
      · rintro ⟨q, x, h⟩
        cases q with
        | nil => simp only [List.nil_append, List.cons.injEq, and_true] at h; exact ⟨x, h⟩
        | cons a q => have := congrArg List.length h; simp at this
    | cons k2 ks =>
      have ih' := ih (by simp)
      rw [join_cons]
      constructor
      · rintro ⟨x, h⟩
        have hJ : ∃ y, join (k2 :: ks) = y ++ axesSuffix := by
          rw [List.append_eq_append_iff] at h
          rcases h with ⟨a, _, h2⟩ | ⟨a, _, h2⟩
          · cases a with
            | nil => simp only [List.nil_append] at h2; exact absurd h2 (by simp [axesSuffix])
            | cons c a => simp only [List.cons_append, List.cons.injEq] at h2; exact ⟨a, h2.2⟩
          · exfalso
            have : '/' ∈ axesSuffix := by rw [h2]; simp
            exact absurd this (by decide)
        obtain ⟨q, y, hq⟩ := ih'.1 hJ
        exact ⟨k :: q, y, by rw [hq]; rfl⟩
      · rintro ⟨q, y, h⟩
        cases q with
        | nil => have := congrArg List.length h; simp at this
        | cons a q =>
          simp only [List.cons_append, List.cons.injEq] at h
          obtain ⟨z, hz⟩ := ih'.2 ⟨q, y, h.2⟩
          exact ⟨k ++ '/' :: z, by rw [hz]; simp⟩

theorem validate_iff (ax t : Dict α) (ha : ProperDict ax) (ht : ProperDict t) : validate ax t = true ↔ Covers ax t := by
  have leaf : ∀ (d : Dict α) (_ : ProperDict d) (p : List Key), arrayAt d p ≠ none ↔ ∃ e ∈ items d, e.1 = p := by
    intro d hd p
    constructor
    · intro h
      obtain ⟨a, h⟩ := Option.ne_none_iff_exists'.mp h
      exact ⟨(p, a), (mem_items d hd p a).2 h, rfl⟩
    · rintro ⟨e, he, rfl⟩
      rw [(mem_items d hd e.1 e.2).1 he]; simp
  have key : ∀ p, Named p → (join p ∈ axisNames ax ↔ HasAxes ax p) := by
    intro p hp
    unfold axisNames HasAxes
    rw [List.mem_map, leaf ax ha, leaf ax ha]
    constructor
    · rintro ⟨e, he, h⟩
      have hne := items_named ax ha e he
      unfold stripAxes at h
      cases hb : base (join e.1) with
      | some b =>
        rw [hb] at h
        simp only [Option.getD_some] at h
        rw [base_some] at hb
        rw [h, ← join_axesPath p hp.1] at hb
        have hx := axesPath_named p hp
        exact Or.inl ⟨e, he, join_inj _ _ hne.1 hx.1 hne.2 hx.2 hb⟩
      | none =>
        rw [hb] at h
        simp only [Option.getD_none] at h
        have hep := join_inj _ _ hne.1 hp.1 hne.2 hp.2 h
        refine Or.inr ⟨⟨e, he, hep⟩, ?_⟩
        rw [base_none, hep] at hb
        intro h'
        exact hb ((suffix_join p hp.1).2 h')
    · rintro (⟨e, he, h⟩ | ⟨⟨e, he, h⟩, hn⟩)
      · refine ⟨e, he, ?_⟩
        unfold stripAxes
        rw [(base_some (join e.1) (join p)).2 (by rw [h, join_axesPath p hp.1])]
        rfl
      · refine ⟨e, he, ?_⟩
        unfold stripAxes
        rw [(base_none (join e.1)).2 (by
          rw [h]
          intro h'
          exact hn ((suffix_join p hp.1).1 h')), h]
        rfl
  unfold validate Covers
  rw [List.all_eq_true]
  constructor
  · intro h p hp
    obtain ⟨e, he, rfl⟩ := (leaf t ht p).1 hp
    have := h e he
    rw [List.contains_iff_mem] at this
    exact (key e.1 (items_named t ht e he)).1 this
  · intro h e he
    rw [List.contains_iff_mem]
    exact (key e.1 (items_named t ht e he)).2 (h e.1 ((leaf t ht e.1).2 ⟨e, he, rfl⟩))

theorem splitLoop_ok (all : Collections α) (hall : ∀ kt ∈ all, ProperDict kt.2) : ∀ (l : Collections α), (∀ kt ∈ l, ProperDict kt.2) →
    PyDict.WF l → ∀ vars axes : Collections α,
    ((∃ r, splitLoop all l (vars, axes) = .ok r) ↔
      ∀ b ax, PyDict.get l (b ++ axesSuffix) = some ax → ∃ t, PyDict.get all b = some t ∧ Covers ax t) ∧
    ∀ r, splitLoop all l (vars, axes) = .ok r →
      (∀ k, PyDict.get r.1 k = if base k = none then (PyDict.get l k).or (PyDict.get vars k) else PyDict.get vars k) ∧
      ∀ b, PyDict.get r.2 b = (PyDict.get l (b ++ axesSuffix)).or (PyDict.get axes b) := by
  intro l
  induction l with
  | nil =>
    intro _ _ vars axes
    refine ⟨⟨fun _ b ax h => by simp [PyDict.get] at h, fun _ => ⟨_, rfl⟩⟩, ?_⟩
    intro r h
    simp only [splitLoop, Except.ok.injEq] at h
    subst h
    exact ⟨fun k => by simp [PyDict.get], fun b => by simp [PyDict.get]⟩
  | cons kv l ih =>
    obtain ⟨k, v⟩ := kv
    intro hpl hwf vars axes
    have hkl : PyDict.get l k = none := by
      rw [PyDict.get_eq_none_iff]
      unfold PyDict.WF PyDict.keys at hwf
      simp only [List.map_cons, List.nodup_cons] at hwf
      exact hwf.1
    have hwl : PyDict.WF l := by
      unfold PyDict.WF PyDict.keys at hwf ⊢
      simp only [List.map_cons, List.nodup_cons] at hwf
      exact hwf.2
    have hpl' : ∀ kt ∈ l, ProperDict kt.2 := fun x hx => hpl x (List.mem_cons_of_mem _ hx)
    simp only [splitLoop]
    cases hb : base k with
    | none =>
      dsimp only
      obtain ⟨i1, i2⟩ := ih hpl' hwl (PyDict.set vars k v) axes
      have hne : ∀ b, k ≠ b ++ axesSuffix := fun b h => (base_none k).1 hb ⟨b, h⟩
      constructor
      · rw [i1]
        simp only [PyDict.get, if_neg (hne _)]
      · intro r hr
        obtain ⟨j1, j2⟩ := i2 r hr
        constructor
        · intro k'
          rw [j1, PyDict.get_set]
          simp only [PyDict.get]
          by_cases hk : k = k'
          · subst hk
            rw [if_pos hb, if_pos hb, if_pos rfl, if_pos rfl, hkl]; rfl
          · rw [if_neg hk, if_neg hk]
        · intro b
          rw [j2]
          simp only [PyDict.get, if_neg (hne b)]
    | some b =>
      dsimp only
      have hkb := (base_some k b).1 hb
      cases hg : PyDict.get all b with
      | none =>
        dsimp only
        constructor
        · constructor
          · rintro ⟨r, h⟩; cases h
          · intro h
            obtain ⟨t, h1, _⟩ := h b v (by simp [PyDict.get, hkb])
            rw [hg] at h1; cases h1
        · intro r h; cases h
      | some t =>
        dsimp only
        have hvt := validate_iff v t (hpl (k, v) List.mem_cons_self) (hall (b, t) (PyDict.mem_of_get _ _ _ hg))
        by_cases hv : validate v t = true
        · rw [if_pos hv]
          obtain ⟨i1, i2⟩ := ih hpl' hwl vars (PyDict.set axes b v)
          have app : ∀ b', (k = b' ++ axesSuffix) ↔ b = b' := by
            intro b'
            rw [hkb, List.append_left_inj]
          constructor
          · rw [i1]
            constructor
            · intro h b' ax hax
              simp only [PyDict.get] at hax
              by_cases hbb : k = b' ++ axesSuffix
              · rw [if_pos hbb] at hax
                cases hax
                have := (app b').1 hbb
                subst this
                exact ⟨t, hg, hvt.1 hv⟩
              · rw [if_neg hbb] at hax
                exact h b' ax hax
            · intro h b' ax hax
              refine h b' ax ?_
              simp only [PyDict.get]
              rw [if_neg]
              · exact hax
              · intro hbb
                rw [← hbb, hkl] at hax; cases hax
          · intro r hr
            obtain ⟨j1, j2⟩ := i2 r hr
            constructor
            · intro k'
              rw [j1]
              simp only [PyDict.get]
              by_cases hk : k = k'
              · subst hk
                rw [hb]; simp
              · rw [if_neg hk]
            · intro b'
              rw [j2, PyDict.get_set]
              simp only [PyDict.get]
              by_cases hbb : k = b' ++ axesSuffix
              · rw [if_pos hbb, if_pos ((app b').1 hbb), ← hbb, hkl]; rfl
              · rw [if_neg hbb, if_neg (fun h => hbb ((app b').2 h))]
        · rw [if_neg hv]
          constructor
          · constructor
            · rintro ⟨r, h⟩; cases h
            · intro h
              obtain ⟨t', h1, h2⟩ := h b v (by simp [PyDict.get, hkb])
              rw [hg] at h1; cases h1
              exact absurd (hvt.2 h2) hv
          · intro r h; cases h

theorem orNone_getD (c : Collections α) : (orNone c).getD [] = c := by
  unfold orNone
  cases c <;> rfl

theorem orNone_ne (c : Collections α) : orNone c ≠ some [] := by
  unfold orNone
  cases c <;> simp

open Classical in
/-- C52: `create` accepts model variables exactly if there are parameters, the parameters' axes (if there are any, and they must be
there if the optimizer wants them) cover all parameters, and all other axes belong to a collection and cover it.  It then separates
parameters, mutables and their axes: every collection ends up in exactly one place, unchanged. -/
theorem C52_create (wants : Bool) (vars : Collections α) (hw : PyDict.WF vars) (hv : ∀ kt ∈ vars, ProperDict kt.2) :
    ((∃ r, create wants vars = .ok r) ↔ Accepts wants vars) ∧
    ∀ r, create wants vars = .ok r →
      PyDict.get vars "params".toList = some r.params ∧ r.paramsAxes = PyDict.get vars "params_axes".toList ∧
      (∀ k, PyDict.get r.mutables k = if k = "params".toList ∨ (∃ b, k = b ++ "_axes".toList) then none else PyDict.get vars k) ∧
      (∀ b, PyDict.get (r.mutablesAxes.getD []) b = if b = "params".toList then none else PyDict.get vars (b ++ "_axes".toList)) ∧
      r.mutablesAxes ≠ some [] := by
  have hsfx : "_axes".toList = axesSuffix := rfl
  have hpa : "params_axes".toList = "params".toList ++ axesSuffix := by decide
  have hpp : "params".toList ≠ "params_axes".toList := by decide
  have hbp : ¬ ∃ b, "params".toList = b ++ axesSuffix := by
    rw [← base_none]; decide
  rw [hsfx]
  unfold Accepts
  rw [hsfx]
  unfold create
  cases hg : PyDict.get vars "params".toList with
  | none =>
    constructor
    · constructor
      · rintro ⟨r, h⟩; cases h
      · rintro ⟨⟨p, h, _⟩, _⟩; cases h
    · intro r h; cases h
  | some params =>
    have hprop : ∀ k t, PyDict.get vars k = some t → ProperDict t := fun k t h => hv (k, t) (PyDict.mem_of_get _ _ _ h)
    have hpr := hprop _ _ hg
    dsimp only
    have hg2 : PyDict.get (PyDict.pop vars "params".toList) "params_axes".toList = PyDict.get vars "params_axes".toList := by
      rw [PyDict.get_pop, if_neg hpp]
    rw [hg2]
    have hw1 := PyDict.wf_pop vars hw "params".toList
    -- the two ways to the split
    have step : ∀ (other : Collections α) (pa : Option (Dict α)), PyDict.WF other → (∀ kt ∈ other, ProperDict kt.2) →
        (∀ k, PyDict.get other k = if k = "params".toList ∨ k = "params_axes".toList then none else PyDict.get vars k) →
        pa = PyDict.get vars "params_axes".toList →
        (∀ ax, PyDict.get vars "params_axes".toList = some ax → Covers ax params) →
        let res : Except Err (Parts α) := match splitVars other with
          | .error e => .error e
          | .ok (mutables, axes) => if wants = true ∧ pa = none then .error .noAxes else .ok ⟨params, pa, mutables, orNone axes⟩
        ((∃ r, res = .ok r) ↔ ((∃ p, some params = some p ∧ ∀ ax, PyDict.get vars "params_axes".toList = some ax → Covers ax p) ∧
          (wants = true → PyDict.get vars "params_axes".toList ≠ none) ∧
          ∀ b ax, b ≠ "params".toList → PyDict.get vars (b ++ axesSuffix) = some ax →
            b ≠ "params_axes".toList ∧ ∃ t, PyDict.get vars b = some t ∧ Covers ax t)) ∧
        ∀ r, res = .ok r → some params = some r.params ∧ r.paramsAxes = PyDict.get vars "params_axes".toList ∧
          (∀ k, PyDict.get r.mutables k = if k = "params".toList ∨ (∃ b, k = b ++ axesSuffix) then none else PyDict.get vars k) ∧
          (∀ b, PyDict.get (r.mutablesAxes.getD []) b = if b = "params".toList then none else PyDict.get vars (b ++ axesSuffix)) ∧
          r.mutablesAxes ≠ some [] := by
      intro other pa hwo hpo hget hpa' hcov res
      obtain ⟨s1, s2⟩ := splitLoop_ok other hpo other hpo hwo [] []
      have hcond : (∀ b ax, PyDict.get other (b ++ axesSuffix) = some ax → ∃ t, PyDict.get other b = some t ∧ Covers ax t) ↔
          ∀ b ax, b ≠ "params".toList → PyDict.get vars (b ++ axesSuffix) = some ax →
            b ≠ "params_axes".toList ∧ ∃ t, PyDict.get vars b = some t ∧ Covers ax t := by
        have h1 : ∀ b, PyDict.get other (b ++ axesSuffix) = if b = "params".toList then none else PyDict.get vars (b ++ axesSuffix) := by
          intro b
          rw [hget]
          by_cases hb : b = "params".toList
          · rw [if_pos hb, if_pos (Or.inr (by rw [hb, hpa]))]
          · rw [if_neg hb, if_neg]
            rintro (h | h)
            · exact hbp ⟨b, h.symm⟩
            · rw [hpa, List.append_left_inj] at h; exact hb h
        constructor
        · intro h b ax hb hax
          obtain ⟨t, h2, h3⟩ := h b ax (by rw [h1, if_neg hb]; exact hax)
          rw [hget] at h2
          split_ifs at h2 with hc
          push Not at hc
          exact ⟨hc.2, t, h2, h3⟩
        · intro h b ax hax
          rw [h1] at hax
          split_ifs at hax with hb
          obtain ⟨h2, t, h3, h4⟩ := h b ax hb hax
          refine ⟨t, ?_, h4⟩
          rw [hget, if_neg (by push Not; exact ⟨hb, h2⟩)]
          exact h3
      cases hs : splitVars other with
      | error e =>
        have hno : ¬ ∃ r, splitLoop other other ([], []) = .ok r := by
          rintro ⟨r, h⟩
          unfold splitVars at hs
          rw [h] at hs; cases hs
        simp only [res, hs]
        refine ⟨⟨?_, ?_⟩, ?_⟩
        · rintro ⟨r, h⟩; cases h
        · rintro ⟨_, _, h⟩
          exact absurd (s1.2 (hcond.2 h)) hno
        · intro r h; cases h
      | ok ma =>
        obtain ⟨m, a⟩ := ma
        have hyes : splitLoop other other ([], []) = .ok (m, a) := hs
        obtain ⟨g1, g2⟩ := s2 _ hyes
        simp only [res, hs]
        by_cases hwn : wants = true ∧ pa = none
        · rw [if_pos hwn]
          refine ⟨⟨?_, ?_⟩, ?_⟩
          · rintro ⟨r, h⟩; cases h
          · rintro ⟨_, h, _⟩
            exact absurd (hpa' ▸ hwn.2) (h hwn.1)
          · intro r h; cases h
        · rw [if_neg hwn]
          refine ⟨⟨?_, fun _ => ⟨_, rfl⟩⟩, ?_⟩
          · intro _
            refine ⟨⟨params, rfl, hcov⟩, ?_, hcond.1 (s1.1 ⟨_, hyes⟩)⟩
            intro hwt hn
            exact hwn ⟨hwt, hpa'.trans hn⟩
          · intro r h
            simp only [Except.ok.injEq] at h
            subst h
            refine ⟨rfl, hpa', ?_, ?_, orNone_ne _⟩
            · intro k
              rw [g1]
              simp only [PyDict.get, Option.or_none]
              rw [hget]
              cases hbk : base k with
              | none =>
                have hnb := (base_none k).1 hbk
                simp only [if_true]
                by_cases hk : k = "params".toList
                · rw [if_pos (Or.inl hk), if_pos (Or.inl hk)]
                · rw [if_neg, if_neg]
                  · rintro (h | h)
                    · exact hk h
                    · exact hnb h
                  · rintro (h | h)
                    · exact hk h
                    · exact hnb ⟨"params".toList, by rw [h, hpa]⟩
              | some b =>
                simp only [reduceCtorEq, if_false]
                rw [if_pos (Or.inr ⟨b, (base_some k b).1 hbk⟩)]
            · intro b
              rw [orNone_getD, g2]
              simp only [PyDict.get, Option.or_none]
              rw [hget]
              by_cases hb : b = "params".toList
              · rw [if_pos hb, if_pos (Or.inr (by rw [hb, hpa]))]
              · rw [if_neg hb, if_neg]
                rintro (h | h)
                · exact hbp ⟨b, h.symm⟩
                · rw [hpa, List.append_left_inj] at h; exact hb h
    cases hax : PyDict.get vars "params_axes".toList with
    | none =>
      dsimp only
      have := step (PyDict.pop vars "params".toList) none hw1 (fun kt h => hv kt (List.mem_of_mem_filter h)) (by
        intro k
        rw [PyDict.get_pop]
        by_cases h1 : k = "params".toList
        · rw [if_pos h1.symm, if_pos (Or.inl h1)]
        · rw [if_neg (Ne.symm h1)]
          by_cases h2 : k = "params_axes".toList
          · rw [if_pos (Or.inr h2), h2, hax]
          · rw [if_neg (by push Not; exact ⟨h1, h2⟩)]) hax.symm (by rw [hax]; intro ax h; cases h)
      rw [hax] at this
      exact this
    | some ax =>
      dsimp only
      have hvi := validate_iff ax params (hprop _ _ hax) hpr
      by_cases hval : validate ax params = true
      · rw [if_pos hval]
        dsimp only
        have := step (PyDict.pop (PyDict.pop vars "params".toList) "params_axes".toList) (some ax)
          (PyDict.wf_pop _ hw1 _) (fun kt h => hv kt (List.mem_of_mem_filter (List.mem_of_mem_filter h))) (by
          intro k
          rw [PyDict.get_pop, PyDict.get_pop]
          by_cases h1 : k = "params".toList
          · rw [if_pos (Or.inl h1), if_pos h1.symm, ite_self]
          · rw [if_neg (Ne.symm h1)]
            by_cases h2 : k = "params_axes".toList
            · rw [if_pos (Or.inr h2), if_pos h2.symm]
            · rw [if_neg (Ne.symm h2), if_neg (by push Not; exact ⟨h1, h2⟩)]) hax.symm (by
          intro ax' h
          rw [hax] at h; cases h
          exact hvi.1 hval)
        rw [hax] at this
        exact this
      · rw [if_neg hval]
        dsimp only
        refine ⟨⟨?_, ?_⟩, ?_⟩
        · rintro ⟨r, h⟩; cases h
        · rintro ⟨⟨p, h1, h2⟩, _⟩
          cases h1
          exact absurd (hvi.2 (h2 ax rfl)) hval
        · intro r h; cases h

/-! ### Saving and restoring -/

theorem optState_proper (x : α) (ps : Dict α) (h : ProperDict ps) : ProperDict (optState x ps) :=
  ⟨by decide, by simp [Dict.keys], by decide, by simp [Dict.keys], Or.inr h, trivial⟩

theorem optState_shape (x y : α) (ps qs : Dict α) (h : SameShape ps qs) : SameShape (optState x ps) (optState y qs) :=
  ⟨rfl, rfl, h, trivial⟩

theorem readState_optState (x : α) (ps : Dict α) : readState (optState x ps) = some (x, ps) := rfl

/-- C52: restoring the state dict of a train state into any train state of the same structure gives back parameters, step, parameter
states and mutables; the axes are those of the template. -/
theorem C52_round_trip (kind : Kind) (t u : TState α) (hp : Template u.params t.params) (hs : Template u.paramStates t.paramStates) :
    ∃ sd, stateDict kind t = some sd ∧
      restoreState kind u sd = .ok { t with paramsAxes := u.paramsAxes, mutablesAxes := u.mutablesAxes } := by
  have hshape := optState_shape u.step t.step _ _ hs.1
  have hprop := optState_proper t.step _ hs.2
  cases kind with
  | plain =>
    refine ⟨_, rfl, ?_⟩
    simp only [restoreState, plainStateDict, plainRestore, fromStateDict_self _ _ hp.1 hp.2, fromStateDict_self _ _ hshape hprop,
      readState_optState, orNone_getD]
  | optax =>
    refine ⟨⟨t.params, prune (optState t.step t.paramStates), orNone t.mutables⟩, ?_, ?_⟩
    · simp only [stateDict, optaxStateDict, stateDict_eq _ hprop, Option.map_some]
    · simp only [restoreState, optaxRestore, fromStateDict_self _ _ hp.1 hp.2, restoreState_prune _ _ hshape hprop,
        readState_optState, orNone_getD]

theorem sameShape_refl (d : Dict α) : SameShape d d := by
  induction d with
  | nil => trivial
  | leaf k a r ih => exact ⟨rfl, ih⟩
  | sub k d r ih1 ih2 => exact ⟨rfl, ih1, ih2⟩

/-- C52: `replace_step` changes the step and nothing else. -/
theorem C52_replace_step (kind : Kind) (t : TState α) (x : α) (hp : ProperDict t.params) (hs : ProperDict t.paramStates) :
    replaceStep kind t x = .ok { t with step := x } := by
  have hshape := optState_shape t.step x _ _ (sameShape_refl t.paramStates)
  have hprop := optState_proper t.step _ hs
  have hprop' := optState_proper x _ hs
  cases kind with
  | plain =>
    have hset : (optState t.step t.paramStates).set "step".toList (.arr x) = optState x t.paramStates := rfl
    simp only [replaceStep, stateDict, plainStateDict, hset, restoreState, plainRestore,
      fromStateDict_self _ _ (sameShape_refl _) hp, fromStateDict_self _ _ hshape hprop', readState_optState, orNone_getD]
  | optax =>
    have hset : (prune (optState t.step t.paramStates)).set "step".toList (.arr x) = prune (optState x t.paramStates) := rfl
    simp only [replaceStep, stateDict, optaxStateDict, stateDict_eq _ hprop, Option.map_some, hset, restoreState, optaxRestore,
      fromStateDict_self _ _ (sameShape_refl _) hp, restoreState_prune _ _ hshape hprop', readState_optState, orNone_getD]

/-- C52: an inference state round-trips, and also takes parameters, step and mutables from the state dict of a train state. -/
theorem C52_inference (kind : Kind) (t : TState α) (v u : IState α) (hs : ProperDict t.paramStates) :
    iRestore u (iStateDict v) = .ok { v with paramsAxes := u.paramsAxes, mutablesAxes := u.mutablesAxes } ∧
    ∃ sd, stateDict kind t = some sd ∧
      iRestore u sd = .ok ⟨t.step, t.params, u.paramsAxes, t.mutables, u.mutablesAxes⟩ := by
  have hprop := optState_proper t.step _ hs
  constructor
  · simp only [iRestore, iStateDict, Dict.get, if_true, orNone_getD]
  · cases kind with
    | plain =>
      refine ⟨⟨t.params, optState t.step t.paramStates, orNone t.mutables⟩, rfl, ?_⟩
      have : (optState t.step t.paramStates).get "step".toList = some (.arr t.step) := rfl
      simp only [iRestore, this, orNone_getD]
    | optax =>
      refine ⟨⟨t.params, prune (optState t.step t.paramStates), orNone t.mutables⟩, ?_, ?_⟩
      · simp only [stateDict, optaxStateDict, stateDict_eq _ hprop, Option.map_some]
      · have : (prune (optState t.step t.paramStates)).get "step".toList = some (.arr t.step) := rfl
        simp only [iRestore, this, orNone_getD]

open Classical in
/-- C52: in the logical axes every mutable variable whose collection has axes is named. -/
theorem C52_logical (wants : Bool) (vars : Collections α) (hw : PyDict.WF vars) (hv : ∀ kt ∈ vars, ProperDict kt.2) (r : Parts α)
    (hr : create wants vars = .ok r) (c : Key) (hc : '/' ∉ c) (t ax : Dict α) (ht : PyDict.get r.mutables c = some t)
    (hax : PyDict.get vars (c ++ "_axes".toList) = some ax) (p : List Key) (hp : arrayAt t p ≠ none) :
    join (c :: p) ∈ logicalMutables r.mutablesAxes := by
  obtain ⟨h1, h2⟩ := C52_create wants vars hw hv
  obtain ⟨q1, q2, q3, q4, q5⟩ := h2 r hr
  obtain ⟨_, _, acc⟩ := h1.1 ⟨r, hr⟩
  have hcp : c ≠ "params".toList := by
    rintro rfl
    rw [q3, if_pos (Or.inl rfl)] at ht; cases ht
  have htv : PyDict.get vars c = some t := by
    rw [q3] at ht
    split_ifs at ht
    exact ht
  obtain ⟨_, t', ht', hcov⟩ := acc c ax hcp hax
  rw [htv] at ht'; cases ht'
  have hpt : ProperDict t := hv (c, t) (PyDict.mem_of_get _ _ _ htv)
  have hpa : ProperDict ax := hv (_, ax) (PyDict.mem_of_get _ _ _ hax)
  have hval := (validate_iff ax t hpa hpt).2 hcov
  have hin : (c, ax) ∈ r.mutablesAxes.getD [] := by
    apply PyDict.mem_of_get
    rw [q4, if_neg hcp]; exact hax
  obtain ⟨a, ha⟩ := Option.ne_none_iff_exists'.mp hp
  have hmem := (mem_items t hpt p a).2 ha
  have hpn := items_named t hpt _ hmem
  unfold validate at hval
  rw [List.all_eq_true] at hval
  have := hval _ hmem
  rw [List.contains_iff_mem] at this
  unfold axisNames at this
  obtain ⟨e, he, hj⟩ := List.mem_map.mp this
  have hen := items_named ax hpa e he
  unfold logicalMutables
  rw [List.mem_flatMap]
  refine ⟨(c, ax), hin, ?_⟩
  rw [List.mem_map]
  refine ⟨e, he, ?_⟩
  have jc : ∀ q : List Key, q ≠ [] → join (c :: q) = c ++ '/' :: join q := by
    intro q hq
    cases q with
    | nil => exact absurd rfl hq
    | cons k ks => exact join_cons c k ks
  rw [jc _ hpn.1]
  dsimp only at hj ⊢
  rw [jc _ hen.1]
  unfold stripAxes at hj ⊢
  cases hb : base (join e.1) with
  | some b =>
    rw [hb] at hj
    simp only [Option.getD_some] at hj
    have hb' := (base_some _ _).1 hb
    have : base (c ++ '/' :: join e.1) = some (c ++ '/' :: b) := by rw [base_some, hb']; simp
    rw [this, ← hj]; rfl
  | none =>
    rw [hb] at hj
    simp only [Option.getD_none] at hj
    have : base (c ++ '/' :: join e.1) = none := by
      rw [base_none]
      rintro ⟨x, hx⟩
      rw [List.append_eq_append_iff] at hx
      rcases hx with ⟨a', _, h2⟩ | ⟨a', _, h2⟩
      · cases a' with
        | nil => simp only [List.nil_append] at h2; exact absurd h2 (by simp [axesSuffix])
        | cons ch a' =>
          simp only [List.cons_append, List.cons.injEq] at h2
          exact (base_none _).1 hb ⟨a', h2.2⟩
      · have : '/' ∈ axesSuffix := by rw [h2]; simp
        exact absurd this (by decide)
    rw [this, ← hj]; rfl

/-- C52, not claimed any more: a mutable collection without axes is accepted, and is then missing from the logical axes. -/
theorem C52_unnamed_mutables : ∃ (vars : Collections Nat) (r : Parts Nat), create true vars = .ok r ∧
    r.mutables = [("cache".toList, .leaf ['x'] 1 .nil)] ∧ logicalMutables r.mutablesAxes = [] :=
  ⟨[("params".toList, .leaf ['w'] 0 .nil), ("params_axes".toList, .leaf "w_axes".toList 7 .nil), ("cache".toList, .leaf ['x'] 1 .nil)],
    ⟨.leaf ['w'] 0 .nil, some (.leaf "w_axes".toList 7 .nil), [("cache".toList, .leaf ['x'] 1 .nil)], none⟩, by decide, rfl, rfl⟩

/-! ### Concrete cases -/

example : create false [("params".toList, .leaf ['w'] 0 .nil), ("cache_axes".toList, .leaf "x_axes".toList 5 .nil), ("cache".toList, .leaf ['x'] 1 .nil)] =
    .ok ⟨.leaf ['w'] 0 .nil, none, [("cache".toList, .leaf ['x'] 1 .nil)], some [("cache".toList, .leaf "x_axes".toList 5 .nil)]⟩ := by decide
example : create true [("params".toList, .leaf ['w'] (0 : Nat) .nil)] = .error .noAxes := by decide
example : create false [("params".toList, .leaf ['w'] (0 : Nat) .nil), ("cache_axes".toList, .leaf "x_axes".toList 5 .nil)] = .error .keyError := by decide
example : create false [("params".toList, .leaf ['w'] 0 .nil), ("cache_axes".toList, .leaf "y_axes".toList 5 .nil), ("cache".toList, .leaf ['x'] 1 .nil)] =
    .error .missingAxes := by decide
example : let t : TState Nat := ⟨.leaf ['w'] 3 .nil, 10, .sub ['0'] .nil (.leaf ['v'] 4 .nil), none, [], none⟩
    ProperDict t.params ∧ ProperDict t.paramStates ∧ replaceStep .optax t 11 = .ok { t with step := 11 } :=
  ⟨⟨by decide, by decide, trivial⟩, ⟨by decide, by decide, Or.inr trivial, by decide, by decide, trivial⟩, by decide⟩
example : Template (.sub ['0'] .nil (.leaf ['v'] (4 : Nat) .nil)) (.sub ['0'] .nil (.leaf ['v'] 9 .nil)) :=
  ⟨⟨rfl, trivial, rfl, trivial⟩, ⟨by decide, by decide, Or.inr trivial, by decide, by decide, trivial⟩⟩
example : PyDict.WF [("params".toList, (.leaf ['w'] 0 .nil : Dict Nat)), ("cache_axes".toList, .leaf "x_axes".toList 5 .nil),
    ("cache".toList, .leaf ['x'] 1 .nil)] ∧ logicalMutables (some [("cache".toList, (.leaf "x_axes".toList 5 .nil : Dict Nat))]) = ["cache/x".toList] ∧
    arrayAt (.leaf ['x'] 1 .nil : Dict Nat) [['x']] ≠ none := by
  refine ⟨by unfold PyDict.WF; decide, by decide, by decide⟩

end Verif.TrainState
