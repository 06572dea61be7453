import Verif.Lemmas.MultiOpt
namespace Verif.MultiOpt
open Verif Verif.StateDict Verif.StateDict.Spec Verif.OptaxState Verif.OptaxState.Spec Spec

variable {P S H : Type}

theorem part_of_subtree {β : Type} (o : Sub P S H) (d : Dict β) (hd : ProperDict d) :
    ∃ s, subtree o.focus d = some s ∧ Part o s d := by
  obtain ⟨s, h1, h2, h3⟩ := subtree_spec o.focus d hd
  refine ⟨s, h1, h2, ?_, ?_⟩
  · intro p hp
    apply Option.ext
    intro a
    rw [h3]
    exact ⟨fun h => h.1, fun h => ⟨h, hp⟩⟩
  · intro p hp
    cases h : arrayAt s p with
    | none => rfl
    | some a => exact absurd ((h3 p a).1 h).2 hp

theorem samePaths_treeMap {β γ : Type} (f : β → γ) (d : Dict β) : SamePaths (treeMap f d) d := by
  intro p; rw [arrayAt_treeMap]; cases arrayAt d p <;> rfl

/-- One write-back: the new tree holds the update where the optimizer owns a parameter and the old value elsewhere. -/
theorem write_back {β : Type} (o : Sub P S H) (params : Dict P) (ps : Dict P) (hps : Part o ps params) (acc upd : Dict β)
    (ha : ProperDict acc) (hap : SamePaths acc params) (hu : ProperDict upd) (hup : SamePaths upd ps) :
    ∃ acc', updateSubtree o.focus acc upd = some acc' ∧ ProperDict acc' ∧ SamePaths acc' params ∧
      (∀ p, ¬ Owns o p → arrayAt acc' p = arrayAt acc p) ∧
      (∀ p, Owns o p → arrayAt params p ≠ none → arrayAt acc' p = arrayAt upd p) := by
  have hsome : ∀ p, arrayAt upd p ≠ none → arrayAt params p ≠ none ∧ Owns o p := by
    intro p h
    have h1 := hup p
    obtain ⟨a, ha⟩ := Option.ne_none_iff_exists'.mp h
    rw [ha] at h1
    by_cases ho : Owns o p
    · refine ⟨?_, ho⟩
      rw [hps.2.1 p ho] at h1
      intro h'; rw [h'] at h1; cases h1
    · rw [hps.2.2 p ho] at h1; cases h1
  have hacc : ∀ p, arrayAt params p ≠ none → arrayAt acc p ≠ none := by
    intro p h h'
    have := hap p
    rw [h'] at this
    obtain ⟨a, ha⟩ := Option.ne_none_iff_exists'.mp h
    rw [ha] at this; cases this
  obtain ⟨acc', h1, h2, h3⟩ := updateSubtree_spec o.focus acc upd ha hu (fun p _ h => hacc p (hsome p h).1)
  refine ⟨acc', h1, h2, ?_, ?_, ?_⟩
  · intro p
    rw [h3 p, ← hap p]
    split_ifs
    · cases hc : arrayAt upd p with
      | none => rfl
      | some a =>
        have := hacc p (hsome p (by rw [hc]; simp)).1
        obtain ⟨b, hb⟩ := Option.ne_none_iff_exists'.mp this
        rw [hb]; rfl
    · rfl
  · intro p ho
    rw [h3 p]; exact if_neg ho
  · intro p ho hp
    rw [h3 p]
    refine (if_pos ho).trans ?_
    have h4 := hup p
    rw [hps.2.1 p ho] at h4
    obtain ⟨a, ha⟩ := Option.ne_none_iff_exists'.mp hp
    rw [ha] at h4
    cases hc : arrayAt upd p with
    | none => rw [hc] at h4; cases h4
    | some b => rfl

theorem applyLoop_spec (params : Dict P) (state : Nat × Dict (Option S)) (grads : Dict P)
    (hp : ProperDict params) (hs : ProperDict state.2) (hg : ProperDict grads) :
    ∀ (L : List (Sub P S H × H)), (∀ x ∈ L, Lawful x.1) → ∀ acc : Dict P × Dict (Cell S),
      ProperDict acc.1 → ProperDict acc.2 → SamePaths acc.1 params → SamePaths acc.2 params →
      ∃ r, applyLoop params state grads L acc = some r ∧
        (∀ p, (∀ x ∈ L, ¬ Owns x.1 p) → arrayAt r.1 p = arrayAt acc.1 p ∧ arrayAt r.2 p = arrayAt acc.2 p) ∧
        ∀ (i : Nat) (o : Sub P S H) (hp : H), L[i]? = some (o, hp) → ∃ ps gs ss, Part o ps params ∧ Part o gs grads ∧ Part o ss state.2 ∧
          ∀ p, Owns o p → arrayAt params p ≠ none → (∀ (j : Nat) (x : Sub P S H × H), i < j → L[j]? = some x → ¬ Owns x.1 p) →
            arrayAt r.1 p = arrayAt (o.apply hp ps (state.1, ss) gs).1 p ∧
            arrayAt r.2 p = (arrayAt (o.apply hp ps (state.1, ss) gs).2.2 p).map Cell.val := by
  intro L
  induction L with
  | nil =>
    intro _ acc _ _ _ _
    exact ⟨acc, rfl, fun p _ => ⟨rfl, rfl⟩, by intro i o hp h; simp at h⟩
  | cons x L ih =>
    obtain ⟨o, h⟩ := x
    intro hl acc a1 a2 a3 a4
    obtain ⟨ps, e1, p1⟩ := part_of_subtree o params hp
    obtain ⟨gs, e2, p2⟩ := part_of_subtree o grads hg
    obtain ⟨ss, e3, p3⟩ := part_of_subtree o state.2 hs
    have hlaw := (hl (o, h) List.mem_cons_self).apply h ps (state.1, ss) gs p1.1
    obtain ⟨b1, c1, c2, c3, c4, c5⟩ := write_back o params ps p1 acc.1 _ a1 a3 hlaw.1.1 hlaw.1.2
    obtain ⟨b2, d1, d2, d3, d4, d5⟩ := write_back o params ps p1 acc.2
      (treeMap Cell.val (o.apply h ps (state.1, ss) gs).2.2) a2 a4 (treeMap_proper _ _ hlaw.2.1)
      (fun p => (samePaths_treeMap _ _ p).trans (hlaw.2.2 p))
    obtain ⟨r, r1, r2, r3⟩ := ih (fun x hx => hl x (List.mem_cons_of_mem _ hx)) (b1, b2) c2 d2 c3 d3
    refine ⟨r, ?_, ?_, ?_⟩
    · simp only [applyLoop, e1, e2, e3, c1, d1]
      exact r1
    · intro p hno
      have h1 := r2 p (fun x hx => hno x (List.mem_cons_of_mem _ hx))
      have h2 := hno (o, h) List.mem_cons_self
      exact ⟨h1.1.trans (c4 p h2), h1.2.trans (d4 p h2)⟩
    · intro i o' h' hi
      cases i with
      | zero =>
        simp only [List.getElem?_cons_zero, Option.some.injEq, Prod.mk.injEq] at hi
        obtain ⟨rfl, rfl⟩ := hi
        refine ⟨ps, gs, ss, p1, p2, p3, ?_⟩
        intro p ho hpp hlast
        have hno : ∀ x ∈ L, ¬ Owns x.1 p := by
          intro x hx
          obtain ⟨j, hj, e⟩ := List.getElem_of_mem hx
          exact hlast (j + 1) x (Nat.succ_pos _) (by simp [← e])
        have h1 := r2 p hno
        refine ⟨h1.1.trans (c5 p ho hpp), ?_⟩
        rw [h1.2]
        exact (d5 p ho hpp).trans (arrayAt_treeMap _ _ _)
      | succ i =>
        simp only [List.getElem?_cons_succ] at hi
        obtain ⟨ps', gs', ss', q1, q2, q3, q4⟩ := r3 i o' h' hi
        refine ⟨ps', gs', ss', q1, q2, q3, ?_⟩
        intro p ho hpp hlast
        exact q4 p ho hpp (fun j x hj hx => hlast (j + 1) x (Nat.succ_lt_succ hj) (by simpa using hx))

/-- **C47.** One gradient step with non-overlapping traversals: every selected parameter gets exactly the update of its own
optimizer, computed from the original parameters, gradients and states that this optimizer selects and with its own hyper
parameters; every other parameter is unchanged and has state `None`; the step advances by one. -/
theorem C47_apply (os : List (Sub P S H)) (hps : List H) (params grads : Dict P) (state : Nat × Dict (Option S))
    (hlen : hps.length = os.length) (hlaw : ∀ o ∈ os, Lawful o)
    (hp : ProperDict params) (hs : ProperDict state.2) (hg : ProperDict grads) (hd : Spec.Disjoint os params) :
    ∃ r, applyGradient os hps params state grads = some r ∧ r.2.1 = state.1 + 1 ∧
      (∀ p, Unowned os p → arrayAt r.1 p = arrayAt params p ∧ (arrayAt params p ≠ none → arrayAt r.2.2 p = some none)) ∧
      ∀ (i : Nat) (o : Sub P S H) (hp : H), os[i]? = some o → hps[i]? = some hp →
        ∃ ps gs ss, Part o ps params ∧ Part o gs grads ∧ Part o ss state.2 ∧
          ∀ p, Owns o p → arrayAt params p ≠ none →
            arrayAt r.1 p = arrayAt (o.apply hp ps (state.1, ss) gs).1 p ∧
            arrayAt r.2.2 p = arrayAt (o.apply hp ps (state.1, ss) gs).2.2 p := by
  obtain ⟨r, h1, h2, h3⟩ := applyLoop_spec params state grads hp hs hg (os.zip hps)
    (fun x hx => hlaw x.1 (List.of_mem_zip hx).1) (params, treeMap (fun _ => Cell.marker) params)
    hp (treeMap_proper _ _ hp) (fun _ => rfl) (samePaths_treeMap _ _)
  refine ⟨(r.1, (state.1 + 1, treeMap Cell.toState r.2)), by simp only [applyGradient, h1], rfl, ?_, ?_⟩
  · intro p hno
    have := h2 p (fun x hx => hno x.1 (List.of_mem_zip hx).1)
    refine ⟨this.1, fun hpp => ?_⟩
    rw [arrayAt_treeMap, this.2, arrayAt_treeMap]
    obtain ⟨a, ha⟩ := Option.ne_none_iff_exists'.mp hpp
    rw [ha]; rfl
  · intro i o h' hi hh
    obtain ⟨ps, gs, ss, p1, p2, p3, h4⟩ := h3 i o h' (by rw [List.getElem?_zip_eq_some]; exact ⟨hi, hh⟩)
    refine ⟨ps, gs, ss, p1, p2, p3, ?_⟩
    intro p ho hpp
    have h5 := h4 p ho hpp (by
      rintro j ⟨x1, x2⟩ hij hx hox
      rw [List.getElem?_zip_eq_some] at hx
      exact absurd (hd p hpp i j o x1 hi hx.1 ho hox) (Nat.ne_of_lt hij))
    refine ⟨h5.1, ?_⟩
    rw [arrayAt_treeMap, h5.2, Option.map_map]
    cases arrayAt (o.apply h' ps (state.1, ss) gs).2.2 p <;> rfl

theorem initLoop_spec (params : Dict P) (hp : ProperDict params) :
    ∀ (L : List (Sub P S H)), (∀ x ∈ L, Lawful x) → ∀ acc : Dict (Cell S), ProperDict acc → SamePaths acc params →
      ∃ r, initLoop params L acc = some r ∧
        (∀ p, (∀ x ∈ L, ¬ Owns x p) → arrayAt r p = arrayAt acc p) ∧
        ∀ (i : Nat) (o : Sub P S H), L[i]? = some o → ∃ ps, Part o ps params ∧
          ∀ p, Owns o p → arrayAt params p ≠ none → (∀ (j : Nat) (x : Sub P S H), i < j → L[j]? = some x → ¬ Owns x p) →
            arrayAt r p = (arrayAt (o.init ps).2 p).map Cell.val := by
  intro L
  induction L with
  | nil =>
    intro _ acc _ _
    exact ⟨acc, rfl, fun p _ => rfl, by intro i o h; simp at h⟩
  | cons o L ih =>
    intro hl acc a2 a4
    obtain ⟨ps, e1, p1⟩ := part_of_subtree o params hp
    have hlaw := (hl o List.mem_cons_self).init ps p1.1
    obtain ⟨b2, d1, d2, d3, d4, d5⟩ := write_back o params ps p1 acc
      (treeMap Cell.val (o.init ps).2) a2 a4 (treeMap_proper _ _ hlaw.1)
      (fun p => (samePaths_treeMap _ _ p).trans (hlaw.2 p))
    obtain ⟨r, r1, r2, r3⟩ := ih (fun x hx => hl x (List.mem_cons_of_mem _ hx)) b2 d2 d3
    refine ⟨r, ?_, ?_, ?_⟩
    · simp only [initLoop, e1, d1]
      exact r1
    · intro p hno
      exact (r2 p (fun x hx => hno x (List.mem_cons_of_mem _ hx))).trans (d4 p (hno o List.mem_cons_self))
    · intro i o' hi
      cases i with
      | zero =>
        simp only [List.getElem?_cons_zero, Option.some.injEq] at hi
        obtain rfl := hi
        refine ⟨ps, p1, ?_⟩
        intro p ho hpp hlast
        have hno : ∀ x ∈ L, ¬ Owns x p := by
          intro x hx
          obtain ⟨j, hj, e⟩ := List.getElem_of_mem hx
          exact hlast (j + 1) x (Nat.succ_pos _) (by simp [← e])
        rw [r2 p hno]
        exact (d5 p ho hpp).trans (arrayAt_treeMap _ _ _)
      | succ i =>
        simp only [List.getElem?_cons_succ] at hi
        obtain ⟨ps', q1, q4⟩ := r3 i o' hi
        refine ⟨ps', q1, ?_⟩
        intro p ho hpp hlast
        exact q4 p ho hpp (fun j x hj hx => hlast (j + 1) x (Nat.succ_lt_succ hj) (by simpa using hx))

/-- How often a path is selected. -/
def hits (L : List (Sub P S H)) (p : List Key) : Nat := (L.filter fun o => o.focus ('/' :: join p)).length

theorem markAll_spec : ∀ (L : List (Sub P S H)) (idx : Nat) (st : List (List Key × List Nat) × Bool),
    (∀ e ∈ st.1, 1 < e.2.length → st.2 = true) →
    ((markAll idx L st).2 = true ↔ st.2 = true ∨ ∃ e ∈ st.1, 1 < e.2.length + hits L e.1) := by
  intro L
  induction L with
  | nil =>
    intro idx st h
    simp only [markAll, hits, List.filter_nil, List.length_nil, Nat.add_zero]
    constructor
    · exact Or.inl
    · rintro (h' | ⟨e, he, hl⟩)
      · exact h'
      · exact h e he hl
  | cons o L ih =>
    intro idx st h
    simp only [markAll]
    rw [ih]
    · have hh : ∀ p, hits (o :: L) p = (if o.focus ('/' :: join p) then 1 else 0) + hits L p := by
        intro p
        unfold hits
        rw [List.filter_cons]
        split_ifs <;> simp <;> omega
      simp only [markStep, Bool.or_eq_true, List.any_eq_true, Bool.and_eq_true, decide_eq_true_eq, List.mem_map]
      constructor
      · rintro ((h1 | ⟨e, ⟨x, hx, rfl⟩, hf, hl⟩) | ⟨e, ⟨x, hx, rfl⟩, hl⟩)
        · exact Or.inl h1
        · by_cases hfx : o.focus ('/' :: join x.1) = true
          · rw [if_pos hfx] at hl
            refine Or.inr ⟨x, hx, ?_⟩
            rw [hh, if_pos hfx]
            simp only [List.length_append, List.length_singleton] at hl
            omega
          · rw [if_neg hfx] at hf
            exact absurd hf hfx
        · refine Or.inr ⟨x, hx, ?_⟩
          rw [hh]
          by_cases hfx : o.focus ('/' :: join x.1) = true
          · rw [if_pos hfx] at hl ⊢
            simp only [List.length_append, List.length_singleton] at hl
            omega
          · rw [if_neg hfx] at hl ⊢
            omega
      · rintro (h1 | ⟨x, hx, hl⟩)
        · exact Or.inl (Or.inl h1)
        · refine Or.inr ⟨_, ⟨x, hx, rfl⟩, ?_⟩
          rw [hh] at hl
          by_cases hfx : o.focus ('/' :: join x.1) = true
          · rw [if_pos hfx] at hl ⊢
            simp only [List.length_append, List.length_singleton]
            omega
          · rw [if_neg hfx] at hl ⊢
            omega
    · intro e he hl
      simp only [markStep, List.mem_map] at he
      obtain ⟨x, hx, rfl⟩ := he
      simp only [markStep, Bool.or_eq_true, List.any_eq_true, Bool.and_eq_true, decide_eq_true_eq, List.mem_map]
      by_cases hfx : o.focus ('/' :: join x.1) = true
      · refine Or.inr ⟨_, ⟨x, hx, rfl⟩, ?_, hl⟩
        rw [if_pos hfx]; exact hfx
      · rw [if_neg hfx] at hl
        exact Or.inl (h x hx hl)

theorem hits_le_one (L : List (Sub P S H)) (p : List Key) : hits L p ≤ 1 ↔
    ∀ (i j : Nat) (oi oj : Sub P S H), L[i]? = some oi → L[j]? = some oj → Owns oi p → Owns oj p → i = j := by
  induction L with
  | nil => simp [hits]
  | cons o L ih =>
    have hh : hits (o :: L) p = (if o.focus ('/' :: join p) then 1 else 0) + hits L p := by
      unfold hits
      rw [List.filter_cons]
      split_ifs <;> simp <;> omega
    rw [hh]
    constructor
    · intro h i j oi oj hi hj h1 h2
      have hz : ∀ (k : Nat) ok, L[k]? = some ok → Owns ok p → o.focus ('/' :: join p) = true → False := by
        intro k ok hk hok ho
        rw [if_pos ho] at h
        have h0 : hits L p = 0 := by omega
        unfold hits at h0
        rw [List.length_eq_zero_iff, List.filter_eq_nil_iff] at h0
        exact h0 ok (List.mem_of_getElem? hk) hok
      have hL := ih.1 (by omega)
      match i, j with
      | 0, 0 => rfl
      | 0, j + 1 =>
        simp only [List.getElem?_cons_zero, Option.some.injEq] at hi
        simp only [List.getElem?_cons_succ] at hj
        subst hi
        exact (hz j oj hj h2 h1).elim
      | i + 1, 0 =>
        simp only [List.getElem?_cons_zero, Option.some.injEq] at hj
        simp only [List.getElem?_cons_succ] at hi
        subst hj
        exact (hz i oi hi h1 h2).elim
      | i + 1, j + 1 =>
        simp only [List.getElem?_cons_succ] at hi hj
        rw [hL i j oi oj hi hj h1 h2]
    · intro h
      have hL := ih.2 (fun i j oi oj hi hj h1 h2 =>
        Nat.succ.inj (h (i + 1) (j + 1) oi oj (by simpa using hi) (by simpa using hj) h1 h2))
      split_ifs with ho
      · have h0 : hits L p = 0 := by
          unfold hits
          rw [List.length_eq_zero_iff, List.filter_eq_nil_iff]
          intro x hx hox
          obtain ⟨k, hk, e⟩ := List.getElem_of_mem hx
          have := h 0 (k + 1) o x rfl (by simp [← e]) ho hox
          omega
        omega
      · omega

/-- **C47.** Creating the state raises exactly when some parameter is selected by two of the traversals. -/
theorem C47_overlap (os : List (Sub P S H)) (params : Dict P) (hp : ProperDict params) :
    initState os params = .error .overlap ↔ ¬ Spec.Disjoint os params := by
  have key : (markAll 0 os ((items params).map fun e => (e.1, []), false)).2 = true ↔ ¬ Spec.Disjoint os params := by
    rw [markAll_spec os 0 _ (by
      intro e he hl
      obtain ⟨x, hx, rfl⟩ := List.mem_map.mp he
      simp at hl)]
    unfold Spec.Disjoint
    push Not
    constructor
    · rintro (h | ⟨e, he, hl⟩)
      · cases h
      · obtain ⟨x, hx, rfl⟩ := List.mem_map.mp he
        simp only [List.length_nil, Nat.zero_add] at hl
        refine ⟨x.1, by rw [(mem_items params hp x.1 x.2).1 hx]; simp, ?_⟩
        have := mt (hits_le_one os x.1).2 (by omega)
        push Not at this
        exact this
    · rintro ⟨p, hpp, h⟩
      right
      obtain ⟨a, ha⟩ := Option.ne_none_iff_exists'.mp hpp
      refine ⟨(p, []), List.mem_map.mpr ⟨(p, a), (mem_items params hp p a).2 ha, rfl⟩, ?_⟩
      by_contra hlt
      simp only [List.length_nil, Nat.zero_add, not_lt] at hlt
      obtain ⟨i, j, oi, oj, h1, h2, h3, h4, h5⟩ := h
      exact h5 ((hits_le_one os p).1 hlt i j oi oj h1 h2 h3 h4)
  rw [← key]
  unfold initState
  constructor
  · intro h
    by_contra hc
    rw [if_neg hc] at h
    split at h <;> cases h
  · intro h; rw [if_pos h]

/-- **C47.** With non-overlapping traversals the initial state of every selected parameter is the one its optimizer creates for
the selected parameters, every other parameter has state `None`, and the step is zero. -/
theorem C47_init (os : List (Sub P S H)) (params : Dict P) (hlaw : ∀ o ∈ os, Lawful o) (hp : ProperDict params)
    (hd : Spec.Disjoint os params) :
    ∃ st, initState os params = .ok (0, st) ∧
      (∀ p, Unowned os p → arrayAt params p ≠ none → arrayAt st p = some none) ∧
      ∀ (i : Nat) (o : Sub P S H), os[i]? = some o → ∃ ps, Part o ps params ∧
        ∀ p, Owns o p → arrayAt params p ≠ none → arrayAt st p = arrayAt (o.init ps).2 p := by
  obtain ⟨r, h1, h2, h3⟩ := initLoop_spec params hp os hlaw (treeMap (fun _ => Cell.marker) params)
    (treeMap_proper _ _ hp) (samePaths_treeMap _ _)
  have hno : ¬ (markAll 0 os ((items params).map fun e => (e.1, []), false)).2 = true := by
    intro h
    have := (C47_overlap os params hp).1 (by unfold initState; rw [if_pos h])
    exact this hd
  refine ⟨treeMap Cell.toState r, by simp only [initState, if_neg hno, h1], ?_, ?_⟩
  · intro p hu hpp
    rw [arrayAt_treeMap, h2 p hu, arrayAt_treeMap]
    obtain ⟨a, ha⟩ := Option.ne_none_iff_exists'.mp hpp
    rw [ha]; rfl
  · intro i o hi
    obtain ⟨ps, p1, h4⟩ := h3 i o hi
    refine ⟨ps, p1, ?_⟩
    intro p ho hpp
    rw [arrayAt_treeMap, h4 p ho hpp (fun j x hij hx hox => absurd (hd p hpp i j o x hi hx ho hox) (Nat.ne_of_lt hij)), Option.map_map]
    cases arrayAt (o.init ps).2 p <;> rfl

/-- **C47.** Overrides reach the hyper parameters of every optimizer; a given list replaces the defaults. -/
theorem C47_hyper (own : List H) (given : Option (List H)) (override : Option (H → H)) (i : Nat) :
    (updateHyper own given override)[i]? = ((given.getD own)[i]?).map fun h => (override.getD id) h := by
  unfold updateHyper
  cases override with
  | none => simp
  | some f => simp

/-- **C47, limit.** If the given list of hyper parameters is too short, the remaining optimizers are silently skipped: their
parameters keep their values and lose their states. -/
theorem C47_short_hyper (os : List (Sub P S H)) (hps : List H) (params grads : Dict P) (state : Nat × Dict (Option S))
    (hlaw : ∀ o ∈ os, Lawful o) (hp : ProperDict params) (hs : ProperDict state.2) (hg : ProperDict grads)
    (p : List Key) (hpp : arrayAt params p ≠ none) (hu : Unowned (os.take hps.length) p) :
    ∃ r, applyGradient os hps params state grads = some r ∧ arrayAt r.1 p = arrayAt params p ∧ arrayAt r.2.2 p = some none := by
  obtain ⟨r, h1, h2, h3⟩ := applyLoop_spec params state grads hp hs hg (os.zip hps)
    (fun x hx => hlaw x.1 (List.of_mem_zip hx).1) (params, treeMap (fun _ => Cell.marker) params)
    hp (treeMap_proper _ _ hp) (fun _ => rfl) (samePaths_treeMap _ _)
  refine ⟨(r.1, (state.1 + 1, treeMap Cell.toState r.2)), by simp only [applyGradient, h1], ?_⟩
  have := h2 p (by
    intro x hx
    apply hu x.1
    obtain ⟨i, hi, e⟩ := List.getElem_of_mem hx
    have hz : (os.zip hps)[i]? = some x := by rw [← e]; exact List.getElem?_eq_getElem hi
    have hz' : (os.zip hps)[i]? = some (x.1, x.2) := hz
    rw [List.getElem?_zip_eq_some] at hz'
    have hi' : i < hps.length := (List.getElem?_eq_some_iff.mp hz'.2).1
    exact List.mem_of_getElem? (i := i) (by rw [List.getElem?_take, if_pos hi']; exact hz'.1))
  refine ⟨this.1, ?_⟩
  rw [arrayAt_treeMap, this.2, arrayAt_treeMap]
  obtain ⟨a, ha⟩ := Option.ne_none_iff_exists'.mp hpp
  rw [ha]; rfl

/-! Two optimizers on `a/w` and `b/w` of a tree with a third, unselected parameter. -/

/-- Gradient descent with an integer rate, counting updates in its states. -/
def exSub (focus : Key → Bool) : Sub Int Nat Int :=
  { focus
    init := fun ps => (0, treeMap (fun _ => some 0) ps)
    apply := fun hp ps st _ => (treeMap (fun x => x - hp) ps, (st.1 + 1, treeMap (fun _ => some (st.1 + 1)) ps)) }

def exParams : Dict Int :=
  .sub ['a'] (.leaf ['w'] 10 .nil) (.sub ['b'] (.leaf ['w'] 20 (.leaf ['c'] 30 .nil)) .nil)
def exOs : List (Sub Int Nat Int) := [exSub (fun p => p = "/a/w".toList), exSub (fun p => p = "/b/w".toList)]

theorem exLawful (f : Key → Bool) : Lawful (exSub f) where
  init := fun ps h => ⟨treeMap_proper _ _ h, samePaths_treeMap _ _⟩
  apply := fun hp ps st gs h => ⟨⟨treeMap_proper _ _ h, samePaths_treeMap _ _⟩, ⟨treeMap_proper _ _ h, samePaths_treeMap _ _⟩⟩

theorem exProper : ProperDict exParams := by
  simp [ProperDict, StateDict.Spec.Proper, exParams, Dict.keys]

def exRun (hps : List Int) : Option (Dict Int × (Nat × Dict (Option Nat))) :=
  applyGradient exOs hps exParams (4, treeMap (fun _ => none) exParams) exParams
example : (exRun [1, 2]).map (fun r => (r.2.1, arrayAt r.1 ["a".toList, "w".toList])) = some (5, some 9) := by decide +kernel
example : (exRun [1, 2]).map (fun r => arrayAt r.1 ["b".toList, "w".toList]) = some (some 18) := by decide +kernel
example : (exRun [1, 2]).map (fun r => arrayAt r.1 ["b".toList, "c".toList]) = some (some 30) := by decide +kernel
example : (exRun [1, 2]).map (fun r => arrayAt r.2.2 ["b".toList, "c".toList]) = some (some none) := by decide +kernel
example : (exRun [1, 2]).map (fun r => arrayAt r.2.2 ["a".toList, "w".toList]) = some (some (some 5)) := by decide +kernel
example : ∃ r, applyGradient exOs [1] exParams (4, treeMap (fun _ => none) exParams) exParams = some r ∧
    arrayAt r.1 ["b".toList, "w".toList] = some 20 ∧ arrayAt r.2.2 ["b".toList, "w".toList] = some none :=
  C47_short_hyper exOs [1] exParams exParams (4, treeMap (fun _ => none) exParams) (by
    intro o ho
    simp only [exOs, List.mem_cons, List.not_mem_nil, or_false] at ho
    rcases ho with rfl | rfl <;> exact exLawful _) exProper (treeMap_proper _ _ exProper) exProper _ (by decide) (by
    intro o ho
    simp only [exOs, List.length_singleton, List.take_succ_cons, List.take_zero, List.mem_singleton] at ho
    subst ho
    unfold Owns exSub
    decide)
theorem exOs_lawful : ∀ o ∈ exOs, Lawful o := by
  intro o ho
  simp only [exOs, List.mem_cons, List.not_mem_nil, or_false] at ho
  rcases ho with rfl | rfl <;> exact exLawful _
theorem exDisjoint : Spec.Disjoint exOs exParams := by
  by_contra h
  rw [← C47_overlap exOs exParams exProper] at h
  have h2 : (markAll 0 exOs ((items exParams).map fun e => (e.1, []), false)).2 = false := by decide +kernel
  unfold initState at h
  rw [if_neg (by rw [h2]; simp)] at h
  split at h <;> cases h
example : ∃ st, initState exOs exParams = .ok (0, st) :=
  (C47_init exOs exParams exOs_lawful exProper exDisjoint).imp fun _ h => h.1
example : ∃ r, applyGradient exOs [1, 2] exParams (4, treeMap (fun _ => none) exParams) exParams = some r ∧ r.2.1 = 5 :=
  (C47_apply exOs [1, 2] exParams exParams (4, treeMap (fun _ => none) exParams) rfl exOs_lawful exProper
    (treeMap_proper _ _ exProper) exProper exDisjoint).imp fun _ h => ⟨h.1, h.2.1⟩
example : initState (exSub (fun _ => true) :: exOs) exParams = .error .overlap := by
  unfold initState
  rw [if_pos (by decide +kernel)]

end Verif.MultiOpt
