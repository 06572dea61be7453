import Verif.Spec.AdafactorAxes
import Verif.Props.Adafactor
/-
C81: the axes of the Adafactor state follow the parameters, also for experts.
-/
namespace Verif.AdafactorAxes
open Verif.Adafactor Verif.AdafactorAxes.Spec

variable {V : Type}

/-! The filter -/

theorem startsWith_iff : ∀ (p s : Name), startsWith p s = true ↔ ∃ b, s = p ++ b
  | [], s => by simp [startsWith]
  | a :: p, [] => by simp [startsWith]
  | a :: p, b :: s => by
    rw [startsWith, Bool.and_eq_true, startsWith_iff p s]
    constructor
    · rintro ⟨h, c, rfl⟩
      exact ⟨c, by rw [eq_of_beq h]; rfl⟩
    · rintro ⟨c, h⟩
      injection h with h1 h2
      exact ⟨by rw [h1]; simp, c, h2⟩

theorem searchThen_iff (p : Name) (k : Name → Bool) : ∀ (s : Name), searchThen p k s = true ↔ ∃ a b, s = a ++ p ++ b ∧ k b = true
  | [] => by
    rw [searchThen, Bool.and_eq_true, startsWith_iff]
    constructor
    · rintro ⟨⟨b, hb⟩, hk⟩
      exact ⟨[], [], by
        have : p = [] := (List.append_eq_nil_iff.1 hb.symm).1
        simp [this], hk⟩
    · rintro ⟨a, b, h, hk⟩
      have h' := List.append_eq_nil_iff.1 h.symm
      have h'' := List.append_eq_nil_iff.1 h'.1
      rw [h'.2] at hk
      exact ⟨⟨[], by simp [h''.2]⟩, hk⟩
  | c :: s => by
    rw [searchThen, Bool.or_eq_true, Bool.and_eq_true, startsWith_iff, searchThen_iff p k s]
    constructor
    · rintro (⟨⟨b, hb⟩, hk⟩ | ⟨a, b, h, hk⟩)
      · refine ⟨[], b, by simpa using hb, ?_⟩
        rw [hb, List.drop_left] at hk
        exact hk
      · exact ⟨c :: a, b, by rw [h]; rfl, hk⟩
    · rintro ⟨a, b, h, hk⟩
      cases a with
      | nil =>
        have h : c :: s = p ++ b := h
        refine Or.inl ⟨⟨b, h⟩, ?_⟩
        rw [h, List.drop_left]
        exact hk
      | cons x a =>
        injection h with h1 h2
        exact Or.inr ⟨a, b, h2, hk⟩

theorem expertFilter_iff (s : Name) : expertFilter s = true ↔ OddName s := by
  unfold expertFilter OddName
  rw [searchThen_iff]
  constructor
  · rintro ⟨a, r, h, hk⟩
    obtain ⟨b, c, h', _⟩ := (searchThen_iff _ _ r).1 hk
    exact ⟨a, b, c, by rw [h, h']; simp [List.append_assoc]⟩
  · rintro ⟨a, b, c, h⟩
    exact ⟨a, b ++ "/kernel/v_".toList ++ c, by rw [h]; simp [List.append_assoc], (searchThen_iff _ _ _).2 ⟨b, c, rfl, rfl⟩⟩

/-- What a field name contributes to a match. -/
theorem odd_field (p F : Name) (h : OddName (p ++ F)) :
    OddName p ∨ ∃ F1 c, F = F1 ++ c ∧ F1.getLast? = some '_' ∧ ∃ a b, p ++ F1 = a ++ "expert".toList ++ b ++ "/kernel/v_".toList := by
  obtain ⟨a, b, c, h⟩ := h
  rcases List.append_eq_append_iff.1 h with ⟨F1, h1, h2⟩ | ⟨c', h1, _⟩
  · by_cases hF : F1 = []
    · subst hF
      rw [List.append_nil] at h1
      exact Or.inl ⟨a, b, [], by rw [List.append_nil]; exact h1.symm⟩
    · refine Or.inr ⟨F1, c, h2, ?_, a, b, h1.symm⟩
      have := congrArg List.getLast? h1
      rw [List.getLast?_append_of_ne_nil _ hF] at this
      rw [← this, List.getLast?_append_of_ne_nil _ (by decide)]
      rfl
  · exact Or.inl ⟨a, b, c', h1⟩

theorem filter_v {p : Name} (h : ¬ OddName p) : expertFilter (p ++ '/' :: "v".toList) = false := by
  rw [Bool.eq_false_iff]
  intro hc
  rcases odd_field p _ ((expertFilter_iff _).1 hc) with h' | ⟨F1, c, hF, hl, _⟩
  · exact h h'
  · match F1, hF, hl with
    | [], _, hl => cases hl
    | [x], hF, hl => injection hF with h1 h2; subst h1; exact absurd hl (by decide)
    | [x, y], hF, hl =>
      injection hF with h1 h2
      have h2 : ['v'] = y :: c := h2
      injection h2 with h2 h3
      subst h2
      exact absurd hl (by simp)
    | x :: y :: z :: r, hF, _ =>
      have := congrArg List.length hF
      simp at this

theorem filter_m {p : Name} (h : ¬ OddName p) : expertFilter (p ++ '/' :: "m".toList) = false := by
  rw [Bool.eq_false_iff]
  intro hc
  rcases odd_field p _ ((expertFilter_iff _).1 hc) with h' | ⟨F1, c, hF, hl, _⟩
  · exact h h'
  · match F1, hF, hl with
    | [], _, hl => cases hl
    | [x], hF, hl => injection hF with h1 h2; subst h1; exact absurd hl (by decide)
    | [x, y], hF, hl =>
      injection hF with h1 h2
      have h2 : ['m'] = y :: c := h2
      injection h2 with h2 h3
      subst h2
      exact absurd hl (by simp)
    | x :: y :: z :: r, hF, _ =>
      have := congrArg List.length hF
      simp at this

/-- A field name `/v_` followed by something without an underscore. -/
theorem filter_factor {p w : Name} (hw : '_' ∉ w) (h : ¬ OddName p) : expertFilter (p ++ '/' :: 'v' :: '_' :: w) = true ↔ ExpertKernel p := by
  rw [expertFilter_iff]
  constructor
  · intro hc
    rcases odd_field p _ hc with h' | ⟨F1, c, hF, hl, a, b, hab⟩
    · exact absurd h' h
    · have hF1 : F1 = ['/', 'v', '_'] := by
        match F1, hF, hl with
        | [], _, hl => cases hl
        | [x], hF, hl => injection hF with h1 h2; subst h1; exact absurd hl (by decide)
        | [x, y], hF, hl =>
          injection hF with h1 h2
          have h2 : 'v' :: '_' :: w = y :: c := h2
          injection h2 with h2 h3
          subst h2
          exact absurd hl (by simp)
        | [x, y, z], hF, hl =>
          injection hF with h1 h2
          injection h2 with h2 h3
          injection h3 with h3 h4
          rw [← h1, ← h2, ← h3]
        | x :: y :: z :: u :: r, hF, hl =>
          exfalso
          injection hF with h1 h2
          injection h2 with h2 h3
          injection h3 with h3 h4
          have h4 : w = u :: r ++ c := h4
          have hl : (u :: r).getLast? = some '_' := by simpa using hl
          exact hw (by rw [h4]; exact List.mem_append_left _ (List.mem_of_getLast? hl))
      subst hF1
      refine ⟨a, b, ?_⟩
      have e : "/kernel/v_".toList = "/kernel".toList ++ ['/', 'v', '_'] := by decide
      rw [e, ← List.append_assoc] at hab
      exact List.append_cancel_right hab
  · rintro ⟨a, b, rfl⟩
    exact ⟨a, b, w, by
      have e : "/kernel/v_".toList = "/kernel".toList ++ ['/', 'v', '_'] := by decide
      rw [e]
      simp [List.append_assoc]⟩

/-- **C81** (which arrays).  The inferred filter picks, among the four arrays of a parameter's state, exactly `v_row` and `v_col`, and these
exactly for expert kernels. -/
theorem C81_filter (p : Name) (h : ¬ OddName p) :
    (expertFilter (p ++ "/v_row".toList) = true ↔ ExpertKernel p) ∧ (expertFilter (p ++ "/v_col".toList) = true ↔ ExpertKernel p) ∧
    expertFilter (p ++ "/v".toList) = false ∧ expertFilter (p ++ "/m".toList) = false :=
  ⟨filter_factor (w := "row".toList) (by decide) h, filter_factor (w := "col".toList) (by decide) h, filter_v h, filter_m h⟩

example : ExpertKernel "encoder/expert/wi/kernel".toList ∧ ¬ OddName "encoder/expert/wi/kernel".toList :=
  ⟨⟨"encoder/".toList, "/wi".toList, by decide⟩, fun h => by
    have := (expertFilter_iff _).2 h
    revert this
    decide⟩

/-! The optimizer -/

/-- **C81** (which optimizers).  The overrides apply exactly to a factored Adafactor, also if it is used for all parts of a non-empty
`MultiOptimizer`; no override is made for optax, for an unfactored Adafactor, for multi optimizers consisting of one of these only, and
for an empty one; every other optimizer is rejected. -/
theorem C81_infer (o : OptDef) :
    (inferFilter o = .ok true ↔ o = .adafactor true ∨ ∃ s ss, o = .multi (s :: ss) ∧ ∀ x ∈ s :: ss, x = .adafactor true) ∧
    (inferFilter o = .ok false ↔ o = .optax ∨ o = .adafactor false ∨ ∃ ss, o = .multi ss ∧
      ((∀ x ∈ ss, x = .optax) ∨ (∀ x ∈ ss, x = .adafactor false))) := by
  have same : ∀ x f, sameType x (.adafactor f) = true ↔ ∃ g, x = .adafactor g := by
    intro x f; cases x <;> simp [sameType]
  have sameO : ∀ x, sameType x .optax = true ↔ x = .optax := by
    intro x; cases x <;> simp [sameType]
  have key : ∀ (ss : List OptDef) (f : Bool), (∀ x ∈ ss, ∃ g, x = OptDef.adafactor g) → ((∀ x ∈ ss, isFactored x = f) ↔ ∀ x ∈ ss, x = OptDef.adafactor f) := by
    intro ss f h
    constructor
    · intro h' x hx
      obtain ⟨g, rfl⟩ := h x hx
      rw [show g = f from h' _ hx]
    · intro h' x hx
      rw [h' x hx]; rfl
  cases o with
  | optax => simp [inferFilter, inferSingle]
  | adafactor f => cases f <;> simp [inferFilter, inferSingle]
  | other c => simp [inferFilter, inferSingle]
  | multi l =>
    cases l with
    | nil => simp [inferFilter]
    | cons o os =>
      cases o with
      | optax =>
        simp only [inferFilter, inferSingle]
        by_cases h : (OptDef.optax :: os).all (fun x => sameType x .optax) = true
        · rw [h]
          have h' : ∀ x ∈ OptDef.optax :: os, x = .optax := fun x hx => (sameO x).1 (List.all_eq_true.1 h x hx)
          refine ⟨⟨fun e => by simp at e, ?_⟩, ⟨fun _ => Or.inr (Or.inr ⟨_, rfl, Or.inl h'⟩), fun _ => rfl⟩⟩
          rintro (e | ⟨s, ss, e, hs⟩)
          · cases e
          · injection e with e
            injection e with e1 e2
            subst e1
            have := hs _ List.mem_cons_self
            cases this
        · rw [Bool.not_eq_true] at h
          rw [h]
          refine ⟨⟨fun e => by simp at e, ?_⟩, ⟨fun e => by simp at e, ?_⟩⟩
          · rintro (e | ⟨s, ss, e, hs⟩)
            · cases e
            · injection e with e
              injection e with e1 e2
              subst e1
              have := hs _ List.mem_cons_self
              cases this
          · rintro (e | e | ⟨ss, e, hs⟩)
            · cases e
            · cases e
            · injection e with e
              subst e
              rcases hs with hs | hs
              · exfalso
                rw [← Bool.not_eq_true] at h
                exact h (List.all_eq_true.2 fun x hx => (sameO x).2 (hs x hx))
              · have := hs _ List.mem_cons_self
                cases this
      | adafactor f =>
        simp only [inferFilter, inferSingle]
        by_cases h : (OptDef.adafactor f :: os).all (fun x => sameType x (.adafactor f)) = true
        · rw [h]
          have h' : ∀ x ∈ OptDef.adafactor f :: os, ∃ g, x = .adafactor g := fun x hx => (same x f).1 (List.all_eq_true.1 h x hx)
          by_cases hf : (OptDef.adafactor f :: os).all (fun x => isFactored x == f) = true
          · rw [hf]
            have hf' := (key _ f h').1 (fun x hx => eq_of_beq (List.all_eq_true.1 hf x hx))
            cases f with
            | true =>
              refine ⟨⟨fun _ => Or.inr ⟨_, _, rfl, hf'⟩, fun _ => rfl⟩, ⟨fun e => by simp at e, ?_⟩⟩
              rintro (e | e | ⟨ss, e, hs⟩)
              · cases e
              · cases e
              · injection e with e
                subst e
                rcases hs with hs | hs
                · have := hs _ List.mem_cons_self
                  cases this
                · have := hs _ List.mem_cons_self
                  cases this
            | false =>
              refine ⟨⟨fun e => by simp at e, ?_⟩, ⟨fun _ => Or.inr (Or.inr ⟨_, rfl, Or.inr hf'⟩), fun _ => rfl⟩⟩
              rintro (e | ⟨s, ss, e, hs⟩)
              · cases e
              · injection e with e
                injection e with e1 e2
                subst e1
                have := hs _ List.mem_cons_self
                cases this
          · rw [Bool.not_eq_true] at hf
            rw [hf]
            have hne : ∀ g, ¬ ∀ x ∈ OptDef.adafactor f :: os, x = .adafactor g := by
              intro g hg
              have e := hg _ List.mem_cons_self
              injection e with e
              subst e
              rw [← Bool.not_eq_true] at hf
              exact hf (List.all_eq_true.2 fun x hx => by rw [hg x hx]; simp [isFactored])
            refine ⟨⟨fun e => by simp at e, ?_⟩, ⟨fun e => by simp at e, ?_⟩⟩
            · rintro (e | ⟨s, ss, e, hs⟩)
              · cases e
              · injection e with e
                rw [← e] at hs
                exact absurd hs (hne _)
            · rintro (e | e | ⟨ss, e, hs⟩)
              · cases e
              · cases e
              · injection e with e
                subst e
                rcases hs with hs | hs
                · have := hs _ List.mem_cons_self
                  cases this
                · exact absurd hs (hne _)
        · rw [Bool.not_eq_true] at h
          rw [h]
          have hne : ∀ g, ¬ ∀ x ∈ OptDef.adafactor f :: os, x = .adafactor g := by
            intro g hg
            rw [← Bool.not_eq_true] at h
            exact h (List.all_eq_true.2 fun x hx => (same x f).2 ⟨g, hg x hx⟩)
          refine ⟨⟨fun e => by simp at e, ?_⟩, ⟨fun e => by simp at e, ?_⟩⟩
          · rintro (e | ⟨s, ss, e, hs⟩)
            · cases e
            · injection e with e
              rw [← e] at hs
              exact absurd hs (hne _)
          · rintro (e | e | ⟨ss, e, hs⟩)
            · cases e
            · cases e
            · injection e with e
              subst e
              rcases hs with hs | hs
              · have := hs _ List.mem_cons_self
                cases this
              · exact absurd hs (hne _)
      | other c =>
        simp only [inferFilter, inferSingle]
        refine ⟨⟨fun e => by split_ifs at e, ?_⟩, ⟨fun e => by split_ifs at e, ?_⟩⟩
        · rintro (e | ⟨s, ss, e, hs⟩)
          · cases e
          · injection e with e
            rw [← e] at hs
            have := hs _ List.mem_cons_self
            cases this
        · rintro (e | e | ⟨ss, e, hs⟩)
          · cases e
          · cases e
          · injection e with e
            subst e
            rcases hs with hs | hs
            · have := hs _ List.mem_cons_self
              cases this
            · have := hs _ List.mem_cons_self
              cases this
      | multi l' =>
        simp only [inferFilter, inferSingle]
        refine ⟨⟨fun e => by split_ifs at e, ?_⟩, ⟨fun e => by split_ifs at e, ?_⟩⟩
        · rintro (e | ⟨s, ss, e, hs⟩)
          · cases e
          · injection e with e
            rw [← e] at hs
            have := hs _ List.mem_cons_self
            cases this
        · rintro (e | e | ⟨ss, e, hs⟩)
          · cases e
          · cases e
          · injection e with e
            subst e
            rcases hs with hs | hs
            · have := hs _ List.mem_cons_self
              cases this
            · have := hs _ List.mem_cons_self
              cases this

example : inferFilter (.multi [.adafactor true, .adafactor true]) = .ok true ∧ inferFilter (.multi [.adafactor true, .adafactor false]) = .error .mixedFactoring ∧
    inferFilter (.multi [.adafactor true, .optax]) = .error .mixedTypes := ⟨rfl, rfl, rfl⟩

/-! The axes -/

theorem follows_self (shape : List Nat) (axes : Axes) (h : axes.length = shape.length) : Follows shape axes shape (some axes) := by
  rintro s ⟨⟩
  refine ⟨le_of_eq h, List.range shape.length, List.Sublist.refl _, ?_, ?_⟩
  · apply List.ext_getElem (by simp)
    intro i h1 h2
    simp [List.getD_eq_getElem?_getD, List.getElem?_eq_getElem h1]
  · intro i n hi
    have hlt : i < shape.length := by
      by_contra hc
      rw [List.getElem?_eq_none (by omega)] at hi
      cases hi
    exact ⟨i, by simp [hlt], hi⟩

theorem follows_none (shape : List Nat) (axes : Axes) (arr : List Nat) : Follows shape axes arr none := by
  intro s e; cases e

/-- The shapes of the initial state of a parameter. -/
theorem init_shapes {O : Ops V} {D : Def} {momentum : Bool} {p : Name} {s : List Nat} {st : PState V} (h : initParam O D momentum p s = .ok st) :
    (st.v.shape = s ∨ st.v.shape = [1]) ∧ st.m.shape = (if momentum then s else [1]) := by
  unfold initParam at h
  cases hd : dimsFor D p s with
  | error e => rw [hd] at h; cases h
  | ok x =>
    obtain ⟨avg, d⟩ := x
    rw [hd] at h
    cases d with
    | dims d1 d0 =>
      simp only [Except.ok.injEq] at h
      rw [← h]
      exact ⟨Or.inr rfl, by cases momentum <;> rfl⟩
    | unfactored =>
      simp only [Except.ok.injEq] at h
      rw [← h]
      exact ⟨Or.inl rfl, by cases momentum <;> rfl⟩
    | heuristic =>
      simp only [Except.ok.injEq] at h
      rw [← h]
      exact ⟨Or.inl rfl, by cases momentum <;> rfl⟩

theorem initState_get {O : Ops V} {D : Def} {momentum : Bool} : ∀ {params : List (Name × List Nat)} {sts : List (Name × PState V)},
    initState O D momentum params = .ok sts → sts.length = params.length ∧
      ∀ (i : Nat) (p : Name) (s : List Nat), params[i]? = some (p, s) → ∃ st, sts[i]? = some (p, st) ∧ initParam O D momentum p s = .ok st
  | [], sts, h => by
    simp only [initState, Except.ok.injEq] at h
    rw [← h]
    exact ⟨rfl, fun i p s hi => by simp at hi⟩
  | (p, s) :: rest, sts, h => by
    simp only [initState] at h
    cases h1 : initParam O D momentum p s with
    | error e => rw [h1] at h; cases h
    | ok st =>
      rw [h1] at h
      cases h2 : initState O D momentum rest with
      | error e => rw [h2] at h; cases h
      | ok r =>
        rw [h2] at h
        simp only [Except.ok.injEq] at h
        rw [← h]
        obtain ⟨l, g⟩ := initState_get h2
        refine ⟨by simp [l], ?_⟩
        intro i q t hi
        cases i with
        | zero =>
          simp at hi
          obtain ⟨rfl, rfl⟩ := hi
          exact ⟨st, rfl, h1⟩
        | succ i => exact g i q t hi

theorem initState_names {O : Ops V} {D : Def} {momentum : Bool} {params : List (Name × List Nat)} {sts : List (Name × PState V)}
    (h : initState O D momentum params = .ok sts) : sts.map (·.1) = params.map (·.1) := by
  obtain ⟨l, g⟩ := initState_get h
  apply List.ext_getElem (by simp [l])
  intro i h1 h2
  have hi : i < params.length := by simpa using h2
  obtain ⟨st, hs, _⟩ := g i params[i].1 params[i].2 (List.getElem?_eq_getElem hi)
  have hi' : i < sts.length := by omega
  rw [List.getElem?_eq_getElem hi'] at hs
  injection hs with hs
  rw [List.getElem_map, List.getElem_map, hs]

theorem derive_ok (beta1 : Bool) : ∀ (axes : List (Name × Axes)) (sts : List (Name × PState V)), axes.map (·.1) = sts.map (·.1) →
    deriveAxes beta1 axes sts = .ok (List.zipWith (fun a st => (a.1, leafAxes beta1 a.2 st.2)) axes sts)
  | [], [], _ => rfl
  | (p, a) :: as, (q, st) :: sts, h => by
    simp only [List.map_cons, List.cons.injEq] at h
    obtain ⟨rfl, h⟩ := h
    simp only [deriveAxes, ne_eq, not_true_eq_false, if_false, derive_ok beta1 as sts h, List.zipWith_cons_cons]
  | [], _ :: _, h => by simp at h
  | _ :: _, [], h => by simp at h

/-- **C81** (derived axes).  The axes of the Adafactor state are derived for every set of parameters with axis names: for every parameter,
`v` and, with momentum, `m` get the parameter's own axes whenever they have its shape (one-element arrays excepted), the factored
accumulators and the placeholders are replicated, and no array gets axes that do not fit it. -/
theorem C81_derive (O : Ops V) (D : Def) (momentum : Bool) (params : List (Name × List Nat)) (axes : List (Name × Axes))
    (sts : List (Name × PState V)) (hi : initState O D momentum params = .ok sts) (hn : axes.map (·.1) = params.map (·.1))
    (hr : ∀ (i : Nat) (p q : Name) (s : List Nat) (a : Axes), params[i]? = some (p, s) → axes[i]? = some (q, a) → a.length = s.length) :
    ∃ r, deriveAxes momentum axes sts = .ok r ∧ r.map (·.1) = params.map (·.1) ∧
      ∀ (i : Nat) (p : Name) (s : List Nat) (a : Axes), params[i]? = some (p, s) → axes[i]? = some (p, a) →
        ∃ st x, sts[i]? = some (p, st) ∧ r[i]? = some (p, x) ∧
          x.vRow = none ∧ x.vCol = none ∧
          (st.v.shape = s ∧ s ≠ [1] → x.v = some a) ∧ (st.v.shape ≠ s → x.v = none) ∧
          (momentum = true → st.m.shape = s ∧ x.m = some a) ∧ (momentum = false → x.m = none) ∧
          Follows s a st.v.shape x.v ∧ Follows s a st.m.shape x.m := by
  have hns := initState_names hi
  have hlen : axes.length = sts.length := by
    have := congrArg List.length (hn.trans hns.symm)
    simpa using this
  refine ⟨_, derive_ok momentum axes sts (hn.trans hns.symm), ?_, ?_⟩
  · rw [← hn]
    apply List.ext_getElem (by simp [hlen])
    intro i h1 h2
    simp
  · intro i p s a hp ha
    obtain ⟨st, hst, hini⟩ := (initState_get hi).2 i p s hp
    obtain ⟨hv, hm⟩ := init_shapes hini
    refine ⟨st, leafAxes momentum a st, hst, by rw [List.getElem?_zipWith, ha, hst], rfl, rfl, ?_, ?_, ?_, ?_, ?_, ?_⟩
    · rintro ⟨h1, h2⟩
      simp only [leafAxes, h1]
      rw [if_pos h2]
    · intro h
      have : st.v.shape = [1] := hv.resolve_left h
      simp [leafAxes, this]
    · rintro rfl
      exact ⟨hm, rfl⟩
    · rintro rfl
      rfl
    · by_cases h : st.v.shape = [1]
      · simp only [leafAxes, h]
        exact follows_none _ _ _
      · rw [hv.resolve_right h]
        simp only [leafAxes]
        rw [if_pos h]
        exact follows_self _ _ (hr i p p s a hp ha)
    · cases momentum with
      | true =>
        rw [hm]
        exact follows_self _ _ (hr i p p s a hp ha)
      | false => exact follows_none _ _ _

/-- **C81** (limit: momentum of zero).  With `beta1 = 0.0` the state has a momentum of the parameter's shape, but it gets no axes: it is
kept whole on every device. -/
theorem C81_beta1_zero (O : Ops V) (D : Def) (p : Name) (s : List Nat) (a : Axes) (st : PState V) (h : initParam O D true p s = .ok st) :
    st.m.shape = s ∧ (leafAxes false a st).m = none := ⟨(init_shapes h).2, rfl⟩

/-! Experts -/

theorem axisRules_get {lower : Name → Name} {rules : List (Name × FVal)} : ∀ {a : Axes} {l : List FactorDim},
    axisRules lower rules a = .ok l → l.length = a.length ∧
      ∀ (k : Nat) (x : Option Name), a[k]? = some x → ∃ v d, lookupRule rules x = some v ∧ factorNameToFactorDim lower v = .ok d ∧ l[k]? = some d
  | [], l, h => by
    simp only [axisRules, Except.ok.injEq] at h
    rw [← h]
    exact ⟨rfl, fun k x hk => by simp at hk⟩
  | y :: a, l, h => by
    simp only [axisRules] at h
    cases h1 : lookupRule rules y with
    | none => rw [h1] at h; cases h
    | some v =>
      simp only [h1] at h
      cases h2 : factorNameToFactorDim lower v with
      | error e => rw [h2] at h; cases h
      | ok d =>
        simp only [h2] at h
        cases h3 : axisRules lower rules a with
        | error e => rw [h3] at h; cases h
        | ok ds =>
          simp only [h3, Except.ok.injEq] at h
          rw [← h]
          obtain ⟨l1, g⟩ := axisRules_get h3
          refine ⟨by simp [l1], ?_⟩
          intro k x hk
          cases k with
          | zero =>
            simp at hk
            subst hk
            exact ⟨v, d, h1, h2, rfl⟩
          | succ k => exact g k x hk

theorem factorMap_get {lower : Name → Name} {rules : List (Name × FVal)} : ∀ {axes : List (Name × Axes)} {m : List (Name × List FactorDim)},
    factorMapOf lower rules axes = .ok m → (axes.map (·.1)).Nodup → ∀ (p : Name) (a : Axes), (p, a) ∈ axes →
      ∃ r, applyRulesTo lower rules a = .ok r ∧ m.find? (fun e => e.1 = p) = some (p, r)
  | [], m, _, _, p, a, ha => by cases ha
  | (q, b) :: rest, m, h, hnd, p, a, ha => by
    simp only [factorMapOf] at h
    cases h1 : applyRulesTo lower rules b with
    | error e => rw [h1] at h; cases h
    | ok r =>
      simp only [h1] at h
      cases h2 : factorMapOf lower rules rest with
      | error e => rw [h2] at h; cases h
      | ok m' =>
        simp only [h2, Except.ok.injEq] at h
        rw [← h]
        rw [List.map_cons, List.nodup_cons] at hnd
        rcases List.mem_cons.1 ha with e | ha
        · injection e with e1 e2
          subst e1; subst e2
          exact ⟨r, h1, by simp⟩
        · obtain ⟨r', hr', hf⟩ := factorMap_get h2 hnd.2 p a ha
          refine ⟨r', hr', ?_⟩
          have hne : q ≠ p := by
            rintro rfl
            exact hnd.1 (List.mem_map.2 ⟨(q, a), ha, rfl⟩)
          rw [List.find?_cons_of_neg (by simpa using hne)]
          exact hf

/-- Deleting other dimensions keeps the first. -/
theorem del_zero {dims s : List Nat} {x : Nat} {rest : List Nat} (hs : s = x :: rest) (h : 0 ∉ dims) :
    ∃ ks : List Nat, (0 :: ks).Sublist (List.range s.length) ∧ del dims s = (0 :: ks).map (fun k => s.getD k 0) := by
  subst hs
  refine ⟨((List.range rest.length).map Nat.succ).filter (fun k => !dims.contains k), ?_, ?_⟩
  · rw [List.length_cons, List.range_succ_eq_map]
    exact List.Sublist.cons₂ 0 List.filter_sublist
  · unfold del
    rw [List.length_cons, List.range_succ_eq_map, List.filter_cons_of_pos (by simpa using h)]

theorem follows_expert {s : List Nat} {a : Axes} {dims : List Nat} {x : Nat} {rest : List Nat} (hs : s = x :: rest) (h : 0 ∉ dims)
    (ha : a[0]? = some (some "expert".toList)) : Follows s a (del dims s) (some [some "expert".toList]) := by
  obtain ⟨ks, h1, h2⟩ := del_zero hs h
  rintro t ⟨⟩
  refine ⟨by rw [h2]; simp, 0 :: ks, h1, h2, ?_⟩
  intro i n hi
  cases i with
  | zero =>
    simp only [List.getElem?_cons_zero, Option.some.injEq] at hi
    subst hi
    exact ⟨0, rfl, ha⟩
  | succ i => simp at hi

/-- **C81** (experts).  Let the factor rules treat the axis `expert` as BATCH and let the optimizer be a factored Adafactor.  Then the
accumulators `v_row` and `v_col` of every expert kernel whose first axis is `expert` and that has row and column axes are split along
`expert` on their first dimension, which is the one of the experts; all other axes are the derived ones. -/
theorem C81_experts (O : Ops V) (D0 D : Def) (lower : Name → Name) (rules : List (Name × FVal)) (momentum : Bool)
    (params : List (Name × List Nat)) (axes : List (Name × Axes)) (sts : List (Name × PState V)) (base r : List (Name × StateAxes)) (opt : OptDef)
    (hD : setParamAxes lower (some rules) D0 axes = .ok D) (hfac : D0.factored = true) (hnd : (axes.map (·.1)).Nodup)
    (hi : initState O D momentum params = .ok sts) (hb : deriveAxes momentum axes sts = .ok base)
    (hopt : inferFilter opt = .ok true) (hm : moeAxes none opt base = .ok r)
    (i : Nat) (p : Name) (s : List Nat) (a : Axes) (hp : params[i]? = some (p, s)) (ha : axes[i]? = some (p, a)) (hra : a.length = s.length)
    (hodd : ¬ OddName p) :
    ∃ st x y, sts[i]? = some (p, st) ∧ base[i]? = some (p, x) ∧ r[i]? = some (p, y) ∧ y.v = x.v ∧ y.m = x.m ∧
      (¬ ExpertKernel p → y = x) ∧
      (ExpertKernel p → y.vRow = some [some "expert".toList] ∧ y.vCol = some [some "expert".toList]) ∧
      (ExpertKernel p → (∃ v, lookupRule rules (some "expert".toList) = some v ∧ factorNameToFactorDim lower v = .ok .batch) →
        a[0]? = some (some "expert".toList) →
        (∃ n v, some n ∈ a ∧ lookupRule rules (some n) = some v ∧ factorNameToFactorDim lower v = .ok .row) →
        (∃ n v, some n ∈ a ∧ lookupRule rules (some n) = some v ∧ factorNameToFactorDim lower v = .ok .column) →
        Follows s a st.vRow.shape y.vRow ∧ Follows s a st.vCol.shape y.vCol) := by
  have hns := initState_names hi
  obtain ⟨st, hst, hini⟩ := (initState_get hi).2 i p s hp
  have hnames : axes.map (·.1) = sts.map (·.1) := by
    clear hD hp ha hst hnd hns hm
    induction axes generalizing sts base params with
    | nil =>
      cases sts with
      | nil => rfl
      | cons _ _ => simp [deriveAxes] at hb
    | cons e axes ih =>
      cases sts with
      | nil => simp [deriveAxes] at hb
      | cons t sts =>
        simp only [deriveAxes] at hb
        by_cases he : e.1 = t.1
        · cases hd : deriveAxes momentum axes sts with
          | error _ => rw [hd] at hb; split_ifs at hb
          | ok r' =>
            cases params with
            | nil =>
              simp only [initState, Except.ok.injEq] at hi
              cases hi
            | cons q params =>
              obtain ⟨q1, q2⟩ := q
              simp only [initState] at hi
              cases h1 : initParam O D momentum q1 q2 with
              | error e => rw [h1] at hi; cases hi
              | ok u =>
                rw [h1] at hi
                cases h2 : initState O D momentum params with
                | error e => rw [h2] at hi; cases hi
                | ok w =>
                  simp only [h2, Except.ok.injEq, List.cons.injEq] at hi
                  obtain ⟨_, rfl⟩ := hi
                  rw [List.map_cons, List.map_cons, he, ih params w r' h2 hd]
        · rw [if_pos he] at hb
          cases hb
  have hbase := derive_ok momentum axes sts hnames
  rw [hbase] at hb
  injection hb with hb
  have hx : base[i]? = some (p, leafAxes momentum a st) := by rw [← hb, List.getElem?_zipWith, ha, hst]
  simp only [moeAxes, hopt, Except.ok.injEq] at hm
  have hy : r[i]? = some (p, moeLeaf expertFilter p (leafAxes momentum a st)) := by rw [← hm, List.getElem?_map, hx]; rfl
  obtain ⟨f1, f2, f3, f4⟩ := C81_filter p hodd
  have g1 : expertFilter (p ++ '/' :: "v_row".toList) = true ↔ ExpertKernel p := f1
  have g2 : expertFilter (p ++ '/' :: "v_col".toList) = true ↔ ExpertKernel p := f2
  have g3 : expertFilter (p ++ '/' :: "v".toList) = false := f3
  have g4 : expertFilter (p ++ '/' :: "m".toList) = false := f4
  have e3 : (moeLeaf expertFilter p (leafAxes momentum a st)).v = (leafAxes momentum a st).v := by
    simp only [moeLeaf]
    rw [if_neg (by rw [g3]; decide)]
  have e4 : (moeLeaf expertFilter p (leafAxes momentum a st)).m = (leafAxes momentum a st).m := by
    simp only [moeLeaf]
    rw [if_neg (by rw [g4]; decide)]
  have e1 : ExpertKernel p → (moeLeaf expertFilter p (leafAxes momentum a st)).vRow = some [some "expert".toList] := by
    intro h
    simp only [moeLeaf]
    rw [if_pos (g1.2 h)]
    rfl
  have e2 : ExpertKernel p → (moeLeaf expertFilter p (leafAxes momentum a st)).vCol = some [some "expert".toList] := by
    intro h
    simp only [moeLeaf]
    rw [if_pos (g2.2 h)]
    rfl
  refine ⟨st, _, _, hst, hx, hy, e3, e4, ?_, fun h => ⟨e1 h, e2 h⟩, ?_⟩
  · intro h
    simp only [moeLeaf]
    rw [if_neg (fun e => h (g1.1 e)), if_neg (fun e => h (g2.1 e)), if_neg (by rw [g3]; decide), if_neg (by rw [g4]; decide)]
  · rintro hk ⟨ve, hve, hvb⟩ ha0 ⟨nr, vr, hnr, hvr, hdr⟩ ⟨nc, vc, hnc, hvc, hdc⟩
    rw [e1 hk, e2 hk]
    simp only [setParamAxes] at hD
    cases hmap : factorMapOf lower rules axes with
    | error e => rw [hmap] at hD; cases hD
    | ok m =>
      obtain ⟨ru, hru, hfind⟩ := factorMap_get hmap hnd p a (List.mem_of_getElem? ha)
      cases m with
      | nil => cases hfind
      | cons m0 ms =>
        simp only [hmap, Except.ok.injEq] at hD
        have hDf : D.factored = true := by rw [← hD]; exact hfac
        have hDm : D.factorMap = some (fun p => ((m0 :: ms).find? (fun e => e.1 = p)).map fun e => Rule.dims e.2) := by rw [← hD]
        simp only [applyRulesTo] at hru
        cases hax : axisRules lower rules a with
        | error e => rw [hax] at hru; cases hru
        | ok l =>
          simp only [hax] at hru
          obtain ⟨hll, hlg⟩ := axisRules_get hax
          have memOf : ∀ n v d, some n ∈ a → lookupRule rules (some n) = some v → factorNameToFactorDim lower v = .ok d → d ∈ l := by
            intro n v d hn hv hd
            obtain ⟨k, hk, hke⟩ := List.mem_iff_getElem.1 hn
            obtain ⟨v', d', h1, h2, h3⟩ := hlg k (some n) (by rw [List.getElem?_eq_getElem hk, hke])
            rw [hv] at h1
            injection h1 with h1
            subst h1
            rw [hd] at h2
            injection h2 with h2
            subst h2
            exact List.mem_of_getElem? h3
          have hrow := memOf nr vr .row hnr hvr hdr
          have hcol := memOf nc vc .column hnc hvc hdc
          have hl0 : l[0]? = some FactorDim.batch := by
            obtain ⟨v', d', h1, h2, h3⟩ := hlg 0 _ ha0
            rw [hve] at h1
            injection h1 with h1
            subst h1
            rw [hvb] at h2
            injection h2 with h2
            subst h2
            exact h3
          cases har : applyRules l with
          | error e => rw [har] at hru; cases hru
          | ok ru' =>
            simp only [har, Except.ok.injEq] at hru
            subst hru
            obtain ⟨_, hax2⟩ := C48_axis_rules l
            obtain ⟨_, _, hsame, _⟩ := hax2 ru' har
            obtain ⟨rfl, _⟩ := hsame ⟨hrow, hcol⟩
            have hdims := dims_explicit D p s ru' _ hDf hDm (by rw [hfind]; rfl) (hll.trans hra) (Or.inl (List.mem_of_getElem? hl0))
            rw [if_neg (fun h => h.1 hrow)] at hdims
            have hst' := hini
            simp only [initParam, hdims, Except.ok.injEq] at hst'
            obtain ⟨x, rest, hsx⟩ : ∃ x rest, s = x :: rest := by
              cases s with
              | nil =>
                have : a = [] := List.length_eq_zero_iff.1 hra
                rw [this] at ha0
                cases ha0
              | cons x rest => exact ⟨x, rest, rfl⟩
            have h0 : ∀ d, d ≠ FactorDim.batch → 0 ∉ positions ru' d := by
              intro d hd hc
              have := (mem_positions ru' d 0).1 hc
              rw [hl0] at this
              injection this with this
              exact hd this.symm
            rw [← hst']
            exact ⟨follows_expert hsx (h0 _ (by decide)) ha0, follows_expert hsx (h0 _ (by decide)) ha0⟩

/-- `expert` is put before the axes that were there. -/
def Prepended (x y : Option Axes) : Prop := y = some (some "expert".toList :: x.getD [])

/-- **C81** (filters).  Without need (optax, unfactored Adafactor) the derived axes are left as they are; with a filter of the user's own exactly the
fields whose path name passes it get `expert` before their axes. -/
theorem C81_filter_use (opt : OptDef) (base : List (Name × StateAxes)) :
    (inferFilter opt = .ok false → moeAxes none opt base = .ok base) ∧
    ∀ f, ∃ r, moeAxes (some f) opt base = .ok r ∧ r.length = base.length ∧ ∀ (i : Nat) (p : Name) (x : StateAxes), base[i]? = some (p, x) →
      ∃ y, r[i]? = some (p, y) ∧
        (if f (p ++ "/v_row".toList) then Prepended x.vRow y.vRow else y.vRow = x.vRow) ∧
        (if f (p ++ "/v_col".toList) then Prepended x.vCol y.vCol else y.vCol = x.vCol) ∧
        (if f (p ++ "/v".toList) then Prepended x.v y.v else y.v = x.v) ∧
        (if f (p ++ "/m".toList) then Prepended x.m y.m else y.m = x.m) := by
  have hp : ∀ x, Prepended x (prependExpert x) := by
    intro x
    cases x with
    | none => rfl
    | some l => cases l <;> rfl
  constructor
  · intro h
    unfold moeAxes
    rw [h]
  · intro f
    refine ⟨_, rfl, by rw [List.length_map], ?_⟩
    intro i p x hx
    refine ⟨moeLeaf f p x, by rw [List.getElem?_map, hx]; rfl, ?_⟩
    unfold moeLeaf
    dsimp only
    refine ⟨?_, ?_, ?_, ?_⟩
    · rw [show p ++ "/v_row".toList = p ++ '/' :: "v_row".toList from rfl]
      split_ifs
      · exact hp _
      · rfl
    · rw [show p ++ "/v_col".toList = p ++ '/' :: "v_col".toList from rfl]
      split_ifs
      · exact hp _
      · rfl
    · rw [show p ++ "/v".toList = p ++ '/' :: "v".toList from rfl]
      split_ifs
      · exact hp _
      · rfl
    · rw [show p ++ "/m".toList = p ++ '/' :: "m".toList from rfl]
      split_ifs
      · exact hp _
      · rfl

/-- **C81** (limit: expert kernels without factoring).  If an expert kernel is not factored (no rule, or not both row and column axes), its
`v_row` and `v_col` are placeholders with one element, which nevertheless get the axis `expert`. -/
theorem C81_placeholder (O : Ops V) (D : Def) (momentum : Bool) (p : Name) (s : List Nat) (a : Axes) (avg : List Nat) (st : PState V)
    (hd : dimsFor D p s = .ok (avg, .unfactored)) (hi : initParam O D momentum p s = .ok st) (hp : ExpertKernel p) (ho : ¬ OddName p) :
    st.vRow.shape = [1] ∧ st.vCol.shape = [1] ∧ (moeLeaf expertFilter p (leafAxes momentum a st)).vRow = some [some "expert".toList] ∧
      (moeLeaf expertFilter p (leafAxes momentum a st)).vCol = some [some "expert".toList] := by
  obtain ⟨f1, f2, _, _⟩ := C81_filter p ho
  have g1 : expertFilter (p ++ '/' :: "v_row".toList) = true := f1.2 hp
  have g2 : expertFilter (p ++ '/' :: "v_col".toList) = true := f2.2 hp
  simp only [initParam, hd, Except.ok.injEq] at hi
  rw [← hi]
  refine ⟨rfl, rfl, ?_, ?_⟩
  · simp only [moeLeaf]; rw [if_pos g1]; rfl
  · simp only [moeLeaf]; rw [if_pos g2]; rfl

/-- **C81** (number of model partitions).  The result agrees with both arguments as far as they are given; it fails exactly if none is given
or they contradict each other. -/
theorem C81_partitions (n : Option Nat) (m : Option (List Nat)) :
    (∀ r, computeNumModelPartitions n m = .ok r → (∀ k, n = some k → r = k) ∧ (∀ l, m = some l → r = l.prod)) ∧
    ((∃ e, computeNumModelPartitions n m = .error e) ↔ (n = none ∧ m = none) ∨ ∃ k l, n = some k ∧ m = some l ∧ k ≠ l.prod) := by
  cases n with
  | none =>
    cases m with
    | none =>
      refine ⟨fun r h => (by cases h), ⟨fun _ => Or.inl ⟨rfl, rfl⟩, fun _ => ⟨_, rfl⟩⟩⟩
    | some l =>
      refine ⟨fun r h => ?_, ⟨fun ⟨e, h⟩ => (by cases h), ?_⟩⟩
      · simp only [computeNumModelPartitions, Except.ok.injEq] at h
        exact ⟨fun k e => (by cases e), fun l' e => (by cases e; exact h.symm)⟩
      · rintro (⟨_, e⟩ | ⟨k, l', e, _⟩)
        · cases e
        · cases e
  | some k =>
    cases m with
    | none =>
      refine ⟨fun r h => ?_, ⟨fun ⟨e, h⟩ => (by cases h), ?_⟩⟩
      · simp only [computeNumModelPartitions, Except.ok.injEq] at h
        exact ⟨fun k' e => (by cases e; exact h.symm), fun l' e => (by cases e)⟩
      · rintro (⟨e, _⟩ | ⟨k', l', _, e, _⟩)
        · cases e
        · cases e
    | some l =>
      simp only [computeNumModelPartitions]
      by_cases h : k = l.prod
      · rw [if_neg (by simpa using h)]
        refine ⟨fun r hr => ?_, ⟨fun ⟨e, h⟩ => (by cases h), ?_⟩⟩
        · injection hr with hr
          exact ⟨fun k' e => (by cases e; exact hr.symm), fun l' e => (by cases e; rw [← hr]; exact h)⟩
        · rintro (⟨e, _⟩ | ⟨k', l', e1, e2, hne⟩)
          · cases e
          · cases e1; cases e2
            exact absurd h hne
      · rw [if_pos h]
        refine ⟨fun r hr => (by cases hr), ⟨fun _ => Or.inr ⟨k, l, rfl, rfl, h⟩, fun _ => ⟨_, rfl⟩⟩⟩

example : computeNumModelPartitions (some 4) (some [2, 2, 1, 1]) = .ok 4 ∧ computeNumModelPartitions (some 4) (some [2, 1, 1, 1]) = .error .inconsistent := ⟨rfl, rfl⟩

/-- **C81** (data specs).  The resources passed to `partition` keep their number and order; exactly the specs that split data along `data`
alone, given directly or as an element of the sequence, are replaced by a split along `expert` and `data`. -/
theorem C81_override {τ : Type} (l : List (Res τ)) :
    overrideSpecs (.spec [.axis "data".toList] : Res τ) = .spec [.tuple ["expert".toList, "data".toList]] ∧
    (∀ s, s ≠ [.axis "data".toList] → overrideSpecs (.spec s : Res τ) = .spec s) ∧
    ∃ l', overrideSpecs (.seq l) = .seq l' ∧ l'.length = l.length ∧ ∀ (i : Nat) (x : Res τ), l[i]? = some x →
      (x = .spec [.axis "data".toList] → l'[i]? = some (.spec [.tuple ["expert".toList, "data".toList]])) ∧
      (x ≠ .spec [.axis "data".toList] → l'[i]? = some x) := by
  refine ⟨rfl, ?_, l.map maybeOverride, rfl, by simp, ?_⟩
  · intro s h
    simp only [overrideSpecs, maybeOverride]
    rw [if_neg h]
  · intro i x hx
    rw [List.getElem?_map, hx]
    refine ⟨fun e => by subst e; rfl, fun h => ?_⟩
    cases x with
    | spec s =>
      have h' : s ≠ [.axis "data".toList] := fun e => h (by rw [e])
      simp only [Option.map_some, maybeOverride]
      rw [if_neg h']
    | seq l => rfl
    | other t => rfl

/-! A concrete model: an expert kernel and an ordinary bias, with the factor rules of the mixture-of-experts code. -/

namespace Example

def params : List (Name × List Nat) := [("enc/expert/wi/kernel".toList, [8, 4, 16]), ("enc/norm/scale".toList, [4])]
def axes : List (Name × Axes) :=
  [("enc/expert/wi/kernel".toList, [some "expert".toList, some "embed".toList, some "expert_mlp".toList]), ("enc/norm/scale".toList, [some "embed".toList])]
def D0 : Def := ⟨true, none, 128, fun l => List.range l.length⟩

/-- C81_experts: the hypotheses hold, with the expected result -/
example (O : Ops V) : ∃ D sts base r, setParamAxes id (some moeRules) D0 axes = .ok D ∧ initState O D true params = .ok sts ∧
    deriveAxes true axes sts = .ok base ∧ moeAxes none (.adafactor true) base = .ok r ∧
    sts.map (fun e => (e.2.vRow.shape, e.2.vCol.shape, e.2.v.shape)) = [([8, 4], [8, 16], [1]), ([1], [1], [4])] ∧
    r.map (fun e => (e.2.vRow, e.2.vCol)) = [(some [some "expert".toList], some [some "expert".toList]), (none, none)] :=
  ⟨_, _, _, _, rfl, rfl, rfl, rfl, rfl, rfl⟩

/-- C81_filter_use: no filter for unfactored Adafactor -/
example : inferFilter (.adafactor false) = .ok false := rfl

/-- C81_placeholder: without an `embed` axis the kernel is not factored; the one-element placeholder does not follow the parameter -/
example : applyRulesTo id moeRules [some "expert".toList, some "unmodeled".toList, some "expert_mlp".toList] = .ok [.batch, .none, .none] ∧
    dimsFor ⟨true, some fun _ => some (.dims [.batch, .none, .none]), 128, fun l => l⟩ "expert/kernel".toList [8, 4, 16] = .ok ([1, 2], .unfactored) :=
  ⟨rfl, rfl⟩

example : ¬ Follows [8, 4, 16] [some "expert".toList, some "unmodeled".toList, some "expert_mlp".toList] [1] (some [some "expert".toList]) := by
  intro h
  obtain ⟨_, dims, hs, he, hn⟩ := h _ rfl
  obtain ⟨k, hk, ha⟩ := hn 0 _ rfl
  match dims, he, hk with
  | _ :: _ :: _, he, _ => simp at he
  | [d], he, hk =>
    simp at hk
    subst hk
    simp at he
    match d, he, ha with
    | 0, he, _ => simp at he
    | 1, _, ha => exact absurd ha (by decide)
    | 2, _, ha => exact absurd ha (by decide)
    | d + 3, _, ha => simp at ha

/-- C81_derive: its hypotheses hold for this model -/
example : axes.map (·.1) = params.map (·.1) := rfl

end Example

end Verif.AdafactorAxes
