import Verif.Props.MultiOpt
import Verif.Spec.MultiRun
import Verif.Lemmas.SaveRestore
import Verif.Lemmas.Fallback
import Verif.Spec.Train
namespace Verif.MultiRun
open Verif Verif.StateDict Verif.MultiOpt Verif.MultiOpt.Spec Verif.MultiRun.Spec
open Verif.OptaxState.Spec (arrayAt ProperDict)

variable {P S H : Type}

theorem applyLoop_keeps (params : Dict P) (state : Nat × Dict (Option S)) (grads : Dict P)
    (hp : ProperDict params) (hs : ProperDict state.2) (hg : ProperDict grads) :
    ∀ (L : List (Sub P S H × H)), (∀ x ∈ L, Lawful x.1) → ∀ acc r : Dict P × Dict (Cell S),
      ProperDict acc.1 → ProperDict acc.2 → SamePaths acc.1 params → SamePaths acc.2 params → applyLoop params state grads L acc = some r →
      ProperDict r.1 ∧ ProperDict r.2 ∧ SamePaths r.1 params ∧ SamePaths r.2 params := by
  intro L
  induction L with
  | nil =>
    intro _ acc r a1 a2 a3 a4 h
    cases h
    exact ⟨a1, a2, a3, a4⟩
  | cons x L ih =>
    obtain ⟨o, h⟩ := x
    intro hl acc r a1 a2 a3 a4 hr
    obtain ⟨ps, e1, p1⟩ := part_of_subtree o params hp
    obtain ⟨gs, e2, p2⟩ := part_of_subtree o grads hg
    obtain ⟨ss, e3, p3⟩ := part_of_subtree o state.2 hs
    have hlaw := (hl (o, h) List.mem_cons_self).apply h ps (state.1, ss) gs p1.1
    obtain ⟨b1, c1, c2, c3, -⟩ := write_back o params ps p1 acc.1 _ a1 a3 hlaw.1.1 hlaw.1.2
    obtain ⟨b2, d1, d2, d3, -⟩ := write_back o params ps p1 acc.2
      (treeMap Cell.val (o.apply h ps (state.1, ss) gs).2.2) a2 a4 (treeMap_proper _ _ hlaw.2.1)
      (fun p => (samePaths_treeMap _ _ p).trans (hlaw.2.2 p))
    simp only [applyLoop, e1, e2, e3, c1, d1] at hr
    exact ih (fun x hx => hl x (List.mem_cons_of_mem _ hx)) (b1, b2) r c2 d2 c3 d3 hr

theorem initLoop_keeps (params : Dict P) (hp : ProperDict params) :
    ∀ (L : List (Sub P S H)), (∀ x ∈ L, Lawful x) → ∀ acc r : Dict (Cell S), ProperDict acc → SamePaths acc params →
      initLoop params L acc = some r → ProperDict r ∧ SamePaths r params := by
  intro L
  induction L with
  | nil => intro _ acc r a1 a2 h; cases h; exact ⟨a1, a2⟩
  | cons o L ih =>
    intro hl acc r a2 a4 hr
    obtain ⟨ps, e1, p1⟩ := part_of_subtree o params hp
    have hlaw := (hl o List.mem_cons_self).init ps p1.1
    obtain ⟨b2, d1, d2, d3, -⟩ := write_back o params ps p1 acc
      (treeMap Cell.val (o.init ps).2) a2 a4 (treeMap_proper _ _ hlaw.1)
      (fun p => (samePaths_treeMap _ _ p).trans (hlaw.2 p))
    simp only [initLoop, e1, d1] at hr
    exact ih (fun x hx => hl x (List.mem_cons_of_mem _ hx)) b2 r d2 d3 hr

/-- Parameters and states are trees with leaves where the initial parameters have theirs. -/
def Inv (params : Dict P) (s : St P S) : Prop := ProperDict s.1 ∧ ProperDict s.2.2 ∧ SamePaths s.1 params ∧ SamePaths s.2.2 params

theorem apply_inv {os : List (Sub P S H)} {hps : List H} {params : Dict P} {s r : St P S} {grads : Dict P} (hlaw : ∀ o ∈ os, Lawful o)
    (hg : ProperDict grads) (hi : Inv params s) (h : applyGradient os hps s.1 s.2 grads = some r) : Inv params r := by
  unfold applyGradient at h
  split at h
  · cases h
  · rename_i p c hl
    cases h
    obtain ⟨i1, i2, i3, i4⟩ := hi
    obtain ⟨k1, k2, k3, k4⟩ := applyLoop_keeps s.1 s.2 grads i1 i2 hg (os.zip hps) (fun x hx => hlaw x.1 (List.of_mem_zip hx).1)
      (s.1, treeMap (fun _ => Cell.marker) s.1) (p, c) i1 (treeMap_proper _ _ i1) (fun _ => rfl) (samePaths_treeMap _ _) hl
    exact ⟨k1, treeMap_proper _ _ k2, fun q => (k3 q).trans (i3 q), fun q => ((samePaths_treeMap _ _ q).trans (k4 q)).trans (i3 q)⟩

theorem init_inv {os : List (Sub P S H)} {params : Dict P} (hlaw : ∀ o ∈ os, Lawful o) (hp : ProperDict params) {st : Nat × Dict (Option S)}
    (h : initState os params = .ok st) (n : Nat) : Inv params (params, (n, st.2)) := by
  unfold initState at h
  split_ifs at h
  split at h
  · cases h
  · rename_i c hl
    cases h
    obtain ⟨k1, k2⟩ := initLoop_keeps params hp os hlaw _ c (treeMap_proper _ _ hp) (samePaths_treeMap _ _) hl
    exact ⟨hp, treeMap_proper _ _ k1, fun _ => rfl, fun q => (samePaths_treeMap _ _ q).trans (k2 q)⟩

theorem samePaths_none {β γ : Type} {d : Dict β} {e : Dict γ} (h : SamePaths d e) {p : List Key} : arrayAt d p = none ↔ arrayAt e p = none := by
  have := h p
  cases h1 : arrayAt d p <;> cases h2 : arrayAt e p <;> simp_all

theorem disjoint_of_paths {os : List (Sub P S H)} {params p : Dict P} (h : SamePaths p params) (hd : MultiOpt.Spec.Disjoint os params) :
    MultiOpt.Spec.Disjoint os p := by
  intro q hq
  exact hd q (mt (samePaths_none h).2 hq)

theorem part_unique {β : Type} {o : Sub P S H} {s s' d : Dict β} (h : Part o s d) (h' : Part o s' d) : SameTree s s' := by
  intro p
  by_cases ho : Owns o p
  · rw [h.2.1 p ho, h'.2.1 p ho]
  · rw [h.2.2 p ho, h'.2.2 p ho]

/-- The optimizer's own state is its part of the common one. -/
def Linked (o : Sub P S H) (s a : St P S) : Prop := Part o a.1 s.1 ∧ Part o a.2.2 s.2.2 ∧ a.2.1 = s.2.1

theorem step_linked {os : List (Sub P S H)} {hps : List H} {params : Dict P} {s : St P S} {grads : Dict P}
    (hlen : hps.length = os.length) (hlaw : ∀ o ∈ os, Lawful o) (hd : MultiOpt.Spec.Disjoint os params)
    (hg : ProperDict grads) (hi : Inv params s) :
    ∃ r, applyGradient os hps s.1 s.2 grads = some r ∧ Inv params r ∧ r.2.1 = s.2.1 + 1 ∧
      (∀ p, Unowned os p → arrayAt r.1 p = arrayAt s.1 p ∧ (arrayAt params p ≠ none → arrayAt r.2.2 p = some none)) ∧
      ∀ (i : Nat) (o : Sub P S H) (hp : H) (g : Dict P) (a : St P S), os[i]? = some o → hps[i]? = some hp → Regular o → Part o g grads → Linked o s a →
        Linked o r (o.apply hp a.1 a.2 g) := by
  obtain ⟨r, h1, h2, h3, h4⟩ := C47_apply os hps s.1 grads s.2 hlen hlaw hi.1 hi.2.1 hg (disjoint_of_paths hi.2.2.1 hd)
  have hr := apply_inv hlaw hg hi h1
  refine ⟨r, h1, hr, h2, fun p hp => ⟨(h3 p hp).1, fun hq => (h3 p hp).2 (mt (samePaths_none hi.2.2.1).1 hq)⟩, ?_⟩
  intro i o hp g a ho hh hreg hgp hl
  obtain ⟨ps, gs, ss, p1, p2, p3, h5⟩ := h4 i o hp ho hh
  have hlo := hlaw o (List.mem_of_getElem? ho)
  obtain ⟨l1, l2, l3⟩ := hl
  have hlaw' := hlo.apply hp a.1 a.2 g l1.1
  obtain ⟨e1, e2⟩ := hreg.apply hp ps a.1 s.2.1 ss a.2.2 gs g p1.1 l1.1 (part_unique p1 l1) (part_unique p3 l2) (part_unique p2 hgp)
  have ha : a.2 = (s.2.1, a.2.2) := by rw [← l3]
  rw [ha] at hlaw' ⊢
  have hnone : ∀ p, (¬ Owns o p ∨ arrayAt s.1 p = none) → arrayAt a.1 p = none := by
    intro p h
    by_cases hop : Owns o p
    · rw [l1.2.1 p hop]; exact h.resolve_left (not_not.2 hop)
    · exact l1.2.2 p hop
  refine ⟨⟨hlaw'.1.1, ?_, ?_⟩, ⟨hlaw'.2.1, ?_, ?_⟩, ?_⟩
  · intro p hop
    by_cases hn : arrayAt s.1 p = none
    · rw [(samePaths_none hlaw'.1.2).2 (hnone p (.inr hn)), (samePaths_none hr.2.2.1).2 ((samePaths_none hi.2.2.1).1 hn)]
    · rw [(h5 p hop hn).1, e1 p]
  · intro p hop
    exact (samePaths_none hlaw'.1.2).2 (hnone p (.inl hop))
  · intro p hop
    by_cases hn : arrayAt s.1 p = none
    · rw [(samePaths_none hlaw'.2.2).2 (hnone p (.inr hn)), (samePaths_none hr.2.2.2).2 ((samePaths_none hi.2.2.1).1 hn)]
    · rw [(h5 p hop hn).2, e2 p]
  · intro p hop
    exact (samePaths_none hlaw'.2.2).2 (hnone p (.inl hop))
  · rw [hreg.step, h2]

theorem run_linked {os : List (Sub P S H)} {params : Dict P} (hlaw : ∀ o ∈ os, Lawful o) (hd : MultiOpt.Spec.Disjoint os params)
    (L : List (List H × Dict P)) (hL : ∀ x ∈ L, x.1.length = os.length ∧ ProperDict x.2) (s : St P S) (hi : Inv params s) :
    ∃ r, runMulti os L s = some r ∧ Inv params r ∧ r.2.1 = s.2.1 + L.length ∧
      (∀ p, Unowned os p → arrayAt r.1 p = arrayAt s.1 p ∧ (arrayAt params p ≠ none → arrayAt s.2.2 p = some none → arrayAt r.2.2 p = some none)) ∧
      ∀ (i : Nat) (o : Sub P S H) (M : List (H × Dict P)) (a : St P S), os[i]? = some o → Regular o → Share i o L M → Linked o s a →
        Linked o r (alone o M a) := by
  induction L generalizing s with
  | nil =>
    refine ⟨s, rfl, hi, rfl, fun p _ => ⟨rfl, fun _ h => h⟩, ?_⟩
    intro i o M a _ _ hs hl
    cases hs
    exact hl
  | cons x L ih =>
    obtain ⟨hps, g⟩ := x
    obtain ⟨hlen, hg⟩ := hL (hps, g) List.mem_cons_self
    obtain ⟨s', h1, h2, h3, h4, h5⟩ := step_linked hlen hlaw hd hg hi
    obtain ⟨r, r1, r2, r3, r4, r5⟩ := ih (fun x hx => hL x (List.mem_cons_of_mem _ hx)) s' h2
    refine ⟨r, by simp only [runMulti, h1, r1], r2, ?_, ?_, ?_⟩
    · rw [r3, h3, List.length_cons]; omega
    · intro p hp
      exact ⟨(r4 p hp).1.trans (h4 p hp).1, fun hq _ => (r4 p hp).2 hq ((h4 p hp).2 hq)⟩
    · intro i o M a ho hreg hs hl
      cases hs with
      | cons hx hs =>
        rename_i y M
        obtain ⟨hp, g'⟩ := y
        exact r5 i o M _ ho hreg hs (h5 i o hp g' a ho hx.1 hreg hx.2 hl)

theorem init_linked {os : List (Sub P S H)} {params : Dict P} (hlaw : ∀ o ∈ os, Lawful o) (hp : ProperDict params) (hd : MultiOpt.Spec.Disjoint os params)
    {st : Nat × Dict (Option S)} (h : initState os params = .ok st) (n : Nat) {i : Nat} {o : Sub P S H} (ho : os[i]? = some o) (hreg : Regular o)
    {ps : Dict P} (hps : Part o ps params) : Linked o (params, (n, st.2)) (ps, (n, (o.init ps).2)) := by
  obtain ⟨st', e, -, h2⟩ := C47_init os params hlaw hp hd
  rw [h] at e
  cases e
  obtain ⟨ps', p1, h3⟩ := h2 i o ho
  have hl := (hlaw o (List.mem_of_getElem? ho)).init ps hps.1
  have hi := init_inv hlaw hp h n
  refine ⟨hps, ⟨hl.1, ?_, ?_⟩, rfl⟩
  · intro p hop
    by_cases hn : arrayAt params p = none
    · rw [(samePaths_none hl.2).2 ((hps.2.1 p hop).trans hn), (samePaths_none hi.2.2.2).2 hn]
    · exact ((h3 p hop hn).trans (hreg.init ps' ps p1.1 hps.1 (part_unique p1 hps) p)).symm
  · intro p hop
    exact (samePaths_none hl.2).2 (hps.2.2 p hop)

/-- **C134** (no error, frozen parameters).  Training with `MultiOptimizer` from its initial state, with one set of hyper parameters per optimizer in each step,
raises no error for any gradients and any number of steps.  The parameters that belong to no optimizer have their initial values afterwards and the state `None`;
the step counts. -/
theorem C134_frozen {os : List (Sub P S H)} {params : Dict P} (hlaw : ∀ o ∈ os, Lawful o) (hp : ProperDict params) (hd : MultiOpt.Spec.Disjoint os params)
    (n : Nat) (L : List (List H × Dict P)) (hL : ∀ x ∈ L, x.1.length = os.length ∧ ProperDict x.2) :
    ∃ st r, initState os params = .ok st ∧ runMulti os L (params, (n, st.2)) = some r ∧ r.2.1 = n + L.length ∧ SamePaths r.1 params ∧
      ∀ p, Unowned os p → arrayAt r.1 p = arrayAt params p ∧ (arrayAt params p ≠ none → arrayAt r.2.2 p = some none) := by
  obtain ⟨st, h1, h2, -⟩ := C47_init os params hlaw hp hd
  obtain ⟨r, r1, r2, r3, r4, -⟩ := run_linked hlaw hd L hL (params, (n, st)) (init_inv hlaw hp h1 n)
  exact ⟨_, r, h1, r1, r3, r2.2.2.1, fun p hu => ⟨(r4 p hu).1, fun hq => (r4 p hu).2 hq (h2 p hu hq)⟩⟩

/-- **C134** (each group on its own).  After any number of steps the parameters of an optimizer, and their states, are what this optimizer computes when it trains
them alone, from its own initial state and with its own hyper parameters and gradients. -/
theorem C134_alone {os : List (Sub P S H)} {params : Dict P} (hlaw : ∀ o ∈ os, Lawful o) (hp : ProperDict params) (hd : MultiOpt.Spec.Disjoint os params)
    (n : Nat) (L : List (List H × Dict P)) (hL : ∀ x ∈ L, x.1.length = os.length ∧ ProperDict x.2) {st : Nat × Dict (Option S)} {r : St P S}
    (hst : initState os params = .ok st) (hr : runMulti os L (params, (n, st.2)) = some r) (i : Nat) (o : Sub P S H) (ho : os[i]? = some o) (hreg : Regular o)
    (ps : Dict P) (hps : Part o ps params) (M : List (H × Dict P)) (hM : Share i o L M) (p : List Key) (hop : Owns o p) :
    arrayAt r.1 p = arrayAt (alone o M (ps, (n, (o.init ps).2))).1 p ∧ arrayAt r.2.2 p = arrayAt (alone o M (ps, (n, (o.init ps).2))).2.2 p ∧
      r.2.1 = (alone o M (ps, (n, (o.init ps).2))).2.1 := by
  obtain ⟨r', r1, -, -, -, r5⟩ := run_linked hlaw hd L hL (params, (n, st.2)) (init_inv hlaw hp hst n)
  rw [hr] at r1
  cases r1
  obtain ⟨l1, l2, l3⟩ := r5 i o M _ ho hreg hM (init_linked hlaw hp hd hst n ho hreg hps)
  exact ⟨(l1.2.1 p hop).symm, (l2.2.1 p hop).symm, l3.symm⟩

/-- There is a share of every optimizer. -/
theorem share_exists (os : List (Sub P S H)) (L : List (List H × Dict P)) (hL : ∀ x ∈ L, x.1.length = os.length ∧ ProperDict x.2) (i : Nat) (o : Sub P S H)
    (ho : os[i]? = some o) : ∃ M, Share i o L M := by
  induction L with
  | nil => exact ⟨[], .nil⟩
  | cons x L ih =>
    obtain ⟨M, hM⟩ := ih (fun x hx => hL x (List.mem_cons_of_mem _ hx))
    obtain ⟨h1, h2⟩ := hL x List.mem_cons_self
    obtain ⟨gs, -, p2⟩ := part_of_subtree o x.2 h2
    have hi : i < x.1.length := by rw [h1]; exact (List.getElem?_eq_some_iff.1 ho).1
    exact ⟨(x.1[i], gs) :: M, .cons ⟨List.getElem?_eq_getElem hi, p2⟩ hM⟩

/-- **C134** (no influence of the others).  Two runs in which one optimizer has the same hyper parameters and the same gradients for its parameters give these the
same values and states, whatever the other optimizers are and whatever they do. -/
theorem C134_independent {os os' : List (Sub P S H)} {params params' : Dict P} (hlaw : ∀ o ∈ os, Lawful o) (hlaw' : ∀ o ∈ os', Lawful o)
    (hp : ProperDict params) (hp' : ProperDict params') (hd : MultiOpt.Spec.Disjoint os params) (hd' : MultiOpt.Spec.Disjoint os' params')
    (n : Nat) (L L' : List (List H × Dict P)) (hL : ∀ x ∈ L, x.1.length = os.length ∧ ProperDict x.2) (hL' : ∀ x ∈ L', x.1.length = os'.length ∧ ProperDict x.2)
    {st st' : Nat × Dict (Option S)} {r r' : St P S} (hst : initState os params = .ok st) (hst' : initState os' params' = .ok st')
    (hr : runMulti os L (params, (n, st.2)) = some r) (hr' : runMulti os' L' (params', (n, st'.2)) = some r')
    (i j : Nat) (o : Sub P S H) (ho : os[i]? = some o) (ho' : os'[j]? = some o) (hreg : Regular o)
    (hsame : ∀ p, Owns o p → arrayAt params p = arrayAt params' p)
    (hstep : List.Forall₂ (fun x y => x.1[i]? = y.1[j]? ∧ ∀ p, Owns o p → arrayAt x.2 p = arrayAt y.2 p) L L') (p : List Key) (hop : Owns o p) :
    arrayAt r.1 p = arrayAt r'.1 p ∧ arrayAt r.2.2 p = arrayAt r'.2.2 p := by
  obtain ⟨ps, -, p1⟩ := part_of_subtree o params hp
  have p1' : Part o ps params' := ⟨p1.1, fun q hq => (p1.2.1 q hq).trans (hsame q hq), p1.2.2⟩
  obtain ⟨M, hM⟩ := share_exists os L hL i o ho
  have hM' : Share j o L' M := by
    clear hr hr' hL hL'
    unfold Share at hM ⊢
    induction hstep generalizing M with
    | nil => cases hM; exact .nil
    | cons hx _ ih =>
      cases hM with
      | cons hy hM =>
        exact .cons ⟨hx.1.symm.trans hy.1, hy.2.1, fun q hq => (hy.2.2.1 q hq).trans (hx.2 q hq), hy.2.2.2⟩ (ih _ hM)
  obtain ⟨a1, a2, -⟩ := C134_alone hlaw hp hd n L hL hst hr i o ho hreg ps p1 M hM p hop
  obtain ⟨b1, b2, -⟩ := C134_alone hlaw' hp' hd' n L' hL' hst' hr' j o ho' hreg ps p1' M hM' p hop
  exact ⟨a1.trans b1.symm, a2.trans b2.symm⟩

theorem arrayAt_mapL {α β : Type} (g : List Key → α → β) (d : Dict α) : ∀ (pre p : List Key),
    arrayAt (SaveRestore.mapL g pre d) p = (arrayAt d p).map (g (pre ++ p)) := by
  induction d with
  | nil =>
    intro pre p
    match p with
    | [] => rfl
    | [_] => rfl
    | _ :: _ :: _ => rfl
  | leaf k a r ih =>
    intro pre p
    cases p with
    | nil => rfl
    | cons k' ks =>
      rw [SaveRestore.mapL, Fallback.arrayAt_leaf, Fallback.arrayAt_leaf]
      split_ifs with h1 h2
      · subst h1 h2; rfl
      · rfl
      · exact ih pre _
  | sub k d r ih1 ih2 =>
    intro pre p
    cases p with
    | nil => rfl
    | cons k' ks =>
      rw [SaveRestore.mapL, Fallback.arrayAt_sub, Fallback.arrayAt_sub]
      split_ifs with h
      · subst h
        rw [ih1, List.append_assoc]
        rfl
      · exact ih2 pre _

theorem proper_mapL {α β : Type} (g : List Key → α → β) (d : Dict α) (hd : ProperDict d) : ∀ pre, ProperDict (SaveRestore.mapL g pre d) := by
  induction d with
  | nil => intro pre; trivial
  | leaf k a r ih => intro pre; exact ⟨hd.1, by rw [SaveRestore.keys_mapL]; exact hd.2.1, ih hd.2.2 pre⟩
  | sub k d r ih1 ih2 =>
    intro pre
    exact ⟨hd.1, by rw [SaveRestore.keys_mapL]; exact hd.2.1, Or.inr (ih1 (hd.2.2.1.resolve_left (by simp)) (pre ++ [k])), ih2 hd.2.2.2 pre⟩

theorem samePaths_mapL {α β : Type} (g : List Key → α → β) (d : Dict α) : SamePaths (SaveRestore.mapL g [] d) d := by
  intro p
  rw [arrayAt_mapL]
  cases arrayAt d p <;> rfl

theorem leafwise_lawful (l : Leafwise P S H) : Lawful l.sub where
  init := fun ps h => ⟨proper_mapL _ _ h _, samePaths_mapL _ _⟩
  apply := fun hp ps st gs h => ⟨⟨proper_mapL _ _ h _, samePaths_mapL _ _⟩, ⟨proper_mapL _ _ h _, samePaths_mapL _ _⟩⟩

theorem leafwise_regular (l : Leafwise P S H) : Regular l.sub where
  init := fun ps ps' _ _ h p => by
    simp only [Leafwise.sub, arrayAt_mapL, h p]
  apply := fun hp ps ps' n ss ss' gs gs' _ _ h hs hg => ⟨fun p => by
    simp only [Leafwise.sub, arrayAt_mapL, h p, List.nil_append]
    rw [hs p, hg p], fun p => by
    simp only [Leafwise.sub, arrayAt_mapL, h p, List.nil_append]
    rw [hs p, hg p]⟩
  step := fun _ _ _ _ => rfl

theorem alone_leafwise (l : Leafwise P S H) (p : List Key) (M : List (H × Dict P)) (a : St P S) (x : P) (s : S)
    (hx : arrayAt a.1 p = some x) (hs : arrayAt a.2.2 p = some (some s)) :
    arrayAt (alone l.sub M a).1 p = some (leafRun l p a.2.1 (M.map fun m => (m.1, arrayAt m.2 p)) (x, s)).1 ∧
      arrayAt (alone l.sub M a).2.2 p = some (some (leafRun l p a.2.1 (M.map fun m => (m.1, arrayAt m.2 p)) (x, s)).2) := by
  induction M generalizing a x s with
  | nil => exact ⟨hx, hs⟩
  | cons m M ih =>
    obtain ⟨hp, g⟩ := m
    rw [alone, List.map_cons, leafRun]
    refine ih (l.sub.apply hp a.1 a.2 g) _ _ ?_ ?_
    · simp only [Leafwise.sub, arrayAt_mapL, hx, List.nil_append, Option.map_some]
      rw [hs]
      rfl
    · simp only [Leafwise.sub, arrayAt_mapL, hx, List.nil_append, Option.map_some]
      rw [hs]
      rfl

/-- **C134** (parameter by parameter).  If the optimizers treat each parameter for itself, as Adafactor without global clipping does, then after any number of
steps each selected parameter and its state are what the steps of its optimizer make of this parameter, given its path, the steps' numbers, the optimizer's hyper
parameters and the parameter's gradients. -/
theorem C134_leafwise {ls : List (Leafwise P S H)} {params : Dict P} (hp : ProperDict params) (hd : MultiOpt.Spec.Disjoint (ls.map Leafwise.sub) params)
    (n : Nat) (L : List (List H × Dict P)) (hL : ∀ x ∈ L, x.1.length = ls.length ∧ ProperDict x.2) :
    ∃ st r, initState (ls.map Leafwise.sub) params = .ok st ∧ runMulti (ls.map Leafwise.sub) L (params, (n, st.2)) = some r ∧
      ∀ (i : Nat) (l : Leafwise P S H) (p : List Key) (x : P) (hps : List H), ls[i]? = some l → l.focus ('/' :: join p) = true → arrayAt params p = some x →
        L.map (fun e => e.1[i]?) = hps.map some →
        arrayAt r.1 p = some (leafRun l p n (hps.zip (L.map fun e => arrayAt e.2 p)) (x, l.init p x)).1 ∧
        arrayAt r.2.2 p = some (some (leafRun l p n (hps.zip (L.map fun e => arrayAt e.2 p)) (x, l.init p x)).2) := by
  have hlaw : ∀ o ∈ ls.map Leafwise.sub, Lawful o := by
    intro o ho
    obtain ⟨l, -, rfl⟩ := List.mem_map.1 ho
    exact leafwise_lawful l
  have hL' : ∀ x ∈ L, x.1.length = (ls.map Leafwise.sub).length ∧ ProperDict x.2 := by simpa using hL
  obtain ⟨st, r, h1, h2, -⟩ := C134_frozen hlaw hp hd n L hL'
  refine ⟨st, r, h1, h2, ?_⟩
  intro i l p x hps hl hf hx hh
  have ho : (ls.map Leafwise.sub)[i]? = some l.sub := by simp [hl]
  have hown : Owns l.sub p := hf
  obtain ⟨ps, -, p1⟩ := part_of_subtree l.sub params hp
  obtain ⟨M, hM⟩ := share_exists _ L hL' i l.sub ho
  obtain ⟨a1, a2, -⟩ := C134_alone hlaw hp hd n L hL' h1 h2 i l.sub ho (leafwise_regular l) ps p1 M hM p hown
  have hxp : arrayAt ps p = some x := (p1.2.1 p hown).trans hx
  obtain ⟨b1, b2⟩ := alone_leafwise l p M (ps, (n, (l.sub.init ps).2)) x (l.init p x) hxp (by
    simp only [Leafwise.sub, arrayAt_mapL, hxp, List.nil_append, Option.map_some])
  have e : M.map (fun m => (m.1, arrayAt m.2 p)) = hps.zip (L.map fun e => arrayAt e.2 p) := by
    clear a1 a2 b1 b2 h2 hL hL'
    unfold Share at hM
    induction hM generalizing hps with
    | nil =>
      cases hps with
      | nil => rfl
      | cons _ _ => simp at hh
    | cons hy _ ih =>
      cases hps with
      | nil => simp at hh
      | cons h hps =>
        simp only [List.map_cons, List.cons.injEq] at hh
        have e1 := hy.1.symm.trans hh.1
        cases e1
        rw [List.map_cons, List.map_cons, List.zip_cons_cons, ih hps hh.2, hy.2.2.1 p hown]
  rw [e] at b1 b2
  exact ⟨a1.trans b1, a2.trans b2⟩

variable {K G Mu R Row : Type} [Add K] [One K] [AddMonoid G]

/-- **C134** (the trainer).  What `Trainer` computes with `MultiOptimizer` are steps as above: in each one the gradients of the batch, and the hyper parameters of
every optimizer with the learning rate of the trainer at this step.  No step raises an error because of the optimizer. -/
theorem C134_trainer {os : List (Sub P S H)} {own : List H} {setLr : K → H → H} {tree : G → Dict P} {params : Dict P}
    {cfg : Train.Cfg K (Dict P) G (Dict (Option S)) Mu R Row} (hu : cfg.update = update os own setLr tree) (hlen : own.length = os.length)
    (hlaw : ∀ o ∈ os, Lawful o) (hp : ProperDict params) (hd : MultiOpt.Spec.Disjoint os params) (htree : ∀ g, ProperDict (tree g))
    {st : Nat × Dict (Option S)} (hst : initState os params = .ok st) (n : Nat) (mu : Option Mu) (bs : List (Train.Batch Row))
    {s : Train.State (Dict P) (Dict (Option S)) Mu} (hs : Train.Spec.run (Train.trainStep cfg) ⟨n, params, st.2, mu⟩ bs = .ok s) :
    ∃ gs : List G, gs.length = bs.length ∧
      runMulti os ((gs.zipIdx n).map fun x => (own.map (setLr (cfg.lr x.2)), tree x.1)) (params, (n, st.2)) = some (s.params, (s.step, s.opt)) ∧
      ∀ p, Unowned os p → arrayAt s.params p = arrayAt params p := by
  have key : ∀ (bs : List (Train.Batch Row)) (s0 s : Train.State (Dict P) (Dict (Option S)) Mu), Inv params (s0.params, (s0.step, s0.opt)) →
      Train.Spec.run (Train.trainStep cfg) s0 bs = .ok s → ∃ gs : List G, gs.length = bs.length ∧
        runMulti os ((gs.zipIdx s0.step).map fun x => (own.map (setLr (cfg.lr x.2)), tree x.1)) (s0.params, (s0.step, s0.opt)) =
          some (s.params, (s.step, s.opt)) := by
    intro bs
    induction bs with
    | nil => intro s0 s _ h; cases h; exact ⟨[], rfl, rfl⟩
    | cons b bs ih =>
      intro s0 s hi h
      simp only [Train.Spec.run] at h
      split at h
      · cases h
      · rename_i s1 m hs1
        unfold Train.trainStep at hs1
        split at hs1
        · cases hs1
        · rename_i a ha
          cases hs1
          obtain ⟨r, r1, r2, r3, -⟩ := step_linked (hps := own.map (setLr (cfg.lr s0.step))) (by simpa using hlen) hlaw hd (htree a.grad) hi
          have e : cfg.update (cfg.lr s0.step) s0.step s0.params s0.opt a.grad = (r.1, r.2.2) := by
            rw [hu]
            simp only [update, updateHyper, Option.getD_none]
            rw [r1]
          have e2 : Train.applyGradient cfg s0 a.grad (cfg.lr s0.step) a.mutables = ⟨s0.step + 1, r.1, r.2.2, a.mutables⟩ := by
            simp only [Train.applyGradient, e]
          rw [e2] at h
          dsimp only at r3
          have hr' : r = (r.1, (s0.step + 1, r.2.2)) := by rw [← r3]
          obtain ⟨gs, g1, g2⟩ := ih _ s (by rw [hr'] at r2; exact r2) h
          refine ⟨a.grad :: gs, by simp [g1], ?_⟩
          rw [List.zipIdx_cons, List.map_cons, runMulti, r1]
          dsimp only at g2 ⊢
          rw [hr']
          exact g2
  obtain ⟨gs, g1, g2⟩ := key bs _ s (init_inv hlaw hp hst n) hs
  refine ⟨gs, g1, g2, ?_⟩
  obtain ⟨st', r, h1, h2, -, -, h5⟩ := C134_frozen hlaw hp hd n ((gs.zipIdx n).map fun x => (own.map (setLr (cfg.lr x.2)), tree x.1)) (by
    intro x hx
    obtain ⟨y, -, rfl⟩ := List.mem_map.1 hx
    exact ⟨by simpa using hlen, htree _⟩)
  rw [hst] at h1
  cases h1
  rw [g2] at h2
  cases h2
  exact fun p hu => (h5 p hu).1

/-! ### The hypotheses are met: two optimizers and a third, frozen parameter -/

section Examples

theorem exRegular (f : Key → Bool) : Regular (exSub f) where
  init := fun ps ps' _ _ h p => by
    show arrayAt (treeMap _ ps) p = arrayAt (treeMap _ ps') p
    rw [arrayAt_treeMap, arrayAt_treeMap, h p]
  apply := fun hp ps ps' n ss ss' gs gs' _ _ h _ _ => ⟨fun p => by
    show arrayAt (treeMap _ ps) p = arrayAt (treeMap _ ps') p
    rw [arrayAt_treeMap, arrayAt_treeMap, h p], fun p => by
    show arrayAt (treeMap _ ps) p = arrayAt (treeMap _ ps') p
    rw [arrayAt_treeMap, arrayAt_treeMap, h p]⟩
  step := fun _ _ _ _ => rfl

def exL : List (List Int × Dict Int) := [([1, 2], exParams), ([3, 4], exParams)]
theorem exL_ok : ∀ x ∈ exL, x.1.length = exOs.length ∧ ProperDict x.2 := by
  intro x hx
  simp only [exL, List.mem_cons, List.not_mem_nil, or_false] at hx
  rcases hx with rfl | rfl <;> exact ⟨rfl, exProper⟩

example : ∃ st r, initState exOs exParams = .ok st ∧ runMulti exOs exL (exParams, (7, st.2)) = some r ∧ r.2.1 = 9 ∧
    arrayAt r.1 ["b".toList, "c".toList] = some 30 := by
  obtain ⟨st, r, h1, h2, h3, -, h4⟩ := C134_frozen exOs_lawful exProper exDisjoint 7 exL exL_ok
  refine ⟨st, r, h1, h2, h3, (h4 _ ?_).1⟩
  intro o ho
  simp only [exOs, List.mem_cons, List.not_mem_nil, or_false] at ho
  rcases ho with rfl | rfl <;> (unfold Owns exSub; decide)

/-- The first optimizer alone takes `10` to `10 - 1 - 3`; so it does together with the second one. -/
example : ∃ st r, initState exOs exParams = .ok st ∧ runMulti exOs exL (exParams, (0, st.2)) = some r ∧
    arrayAt r.1 ["a".toList, "w".toList] = some 6 ∧ arrayAt r.2.2 ["a".toList, "w".toList] = some (some 2) := by
  obtain ⟨st, r, h1, h2, -⟩ := C134_frozen exOs_lawful exProper exDisjoint 0 exL exL_ok
  have hpart : Part (exSub (fun p => p = "/a/w".toList)) (.sub ['a'] (.leaf ['w'] 10 .nil) .nil) exParams := by
    obtain ⟨s, e1, e2⟩ := part_of_subtree (exSub (fun p => p = "/a/w".toList)) exParams exProper
    have : subtree (exSub (fun p => p = "/a/w".toList)).focus exParams = some (.sub ['a'] (.leaf ['w'] 10 .nil) .nil) := by decide +kernel
    rw [this] at e1
    cases e1
    exact e2
  obtain ⟨a1, a2, -⟩ := C134_alone exOs_lawful exProper exDisjoint 0 exL exL_ok h1 h2 0 _ rfl (exRegular _) _ hpart
    [(1, .sub ['a'] (.leaf ['w'] 10 .nil) .nil), (3, .sub ['a'] (.leaf ['w'] 10 .nil) .nil)] (.cons ⟨rfl, hpart⟩ (.cons ⟨rfl, hpart⟩ .nil))
    ["a".toList, "w".toList] (by unfold Owns exSub; decide)
  exact ⟨st, r, h1, h2, a1, a2⟩

/-- With other hyper parameters and gradients for the second optimizer, and in the other order. -/
def exOs' : List (Sub Int Nat Int) := [exSub (fun p => p = "/b/w".toList), exSub (fun p => p = "/a/w".toList)]
def exL' : List (List Int × Dict Int) := [([9, 1], exParams), ([8, 3], exParams)]
theorem exL'_ok : ∀ x ∈ exL', x.1.length = exOs'.length ∧ ProperDict x.2 := by
  intro x hx
  simp only [exL', List.mem_cons, List.not_mem_nil, or_false] at hx
  rcases hx with rfl | rfl <;> exact ⟨rfl, exProper⟩
theorem exOs'_lawful : ∀ o ∈ exOs', Lawful o := by
  intro o ho
  simp only [exOs', List.mem_cons, List.not_mem_nil, or_false] at ho
  rcases ho with rfl | rfl <;> exact exLawful _
theorem exDisjoint' : MultiOpt.Spec.Disjoint exOs' exParams := by
  by_contra h
  rw [← C47_overlap exOs' exParams exProper] at h
  have h2 : (markAll 0 exOs' ((items exParams).map fun e => (e.1, []), false)).2 = false := by decide +kernel
  unfold initState at h
  rw [if_neg (by rw [h2]; simp)] at h
  split at h <;> cases h

example : ∃ st r st' r', initState exOs exParams = .ok st ∧ runMulti exOs exL (exParams, (0, st.2)) = some r ∧ initState exOs' exParams = .ok st' ∧
    runMulti exOs' exL' (exParams, (0, st'.2)) = some r' ∧ arrayAt r.1 ["a".toList, "w".toList] = arrayAt r'.1 ["a".toList, "w".toList] := by
  obtain ⟨st, r, h1, h2, -⟩ := C134_frozen exOs_lawful exProper exDisjoint 0 exL exL_ok
  obtain ⟨st', r', h1', h2', -⟩ := C134_frozen exOs'_lawful exProper exDisjoint' 0 exL' exL'_ok
  exact ⟨st, r, st', r', h1, h2, h1', h2', (C134_independent exOs_lawful exOs'_lawful exProper exProper exDisjoint exDisjoint' 0 exL exL' exL_ok exL'_ok
    h1 h1' h2 h2' 0 1 _ rfl rfl (exRegular _) (fun _ _ => rfl) (.cons ⟨rfl, fun _ _ => rfl⟩ (.cons ⟨rfl, fun _ _ => rfl⟩ .nil)) _
    (by unfold Owns exSub; decide)).1⟩

/-- A trainer: the learning rate at step `n` is `n`. -/
def exCfg : Train.Cfg Int (Dict Int) Int (Dict (Option Nat)) Unit Unit Unit where
  lossGrad := fun _ _ _ mu => ([], mu, 0)
  update := update exOs [0, 0] (fun lr _ => lr) (fun _ => exParams)
  lr := fun n => n
  foldIn := fun r _ => r
  split := fun r => (r, r)
  baseRng := ()
  microbatches := none
  weightMetrics := fun _ _ _ => []

example : ∃ st s, initState exOs exParams = .ok st ∧
    Train.Spec.run (Train.trainStep exCfg) ⟨5, exParams, st.2, none⟩ [[("x".toList, [()])], [("x".toList, [(), ()])]] = .ok s ∧
    arrayAt s.params ["b".toList, "c".toList] = some 30 := by
  obtain ⟨st, h1, -⟩ := C47_init exOs exParams exOs_lawful exProper exDisjoint
  refine ⟨_, _, h1, rfl, ?_⟩
  obtain ⟨gs, -, -, h⟩ := C134_trainer (cfg := exCfg) rfl rfl exOs_lawful exProper exDisjoint (fun _ => exProper) h1 5 none
    [[("x".toList, [()])], [("x".toList, [(), ()])]] rfl
  refine h _ ?_
  intro o ho
  simp only [exOs, List.mem_cons, List.not_mem_nil, or_false] at ho
  rcases ho with rfl | rfl <;> (unfold Owns exSub; decide)

/-- Gradient descent with momentum on two groups with different rates. -/
def exLeaf (focus : Key → Bool) : Leafwise Int Int Int where
  focus := focus
  init := fun _ _ => 0
  step := fun hp n _ x s g => (x - hp * (s.getD 0 + g.getD 0) - n, s.getD 0 + g.getD 0)
def exLs : List (Leafwise Int Int Int) := [exLeaf (fun p => p = "/a/w".toList), exLeaf (fun p => p = "/b/w".toList)]
theorem exLs_disjoint : MultiOpt.Spec.Disjoint (exLs.map Leafwise.sub) exParams := by
  intro p _ i j oi oj hi hj h1 h2
  rcases i with _ | _ | i <;> rcases j with _ | _ | j <;> simp [exLs] at hi hj <;> first | rfl | skip
  all_goals
    subst hi hj
    simp only [Owns, Leafwise.sub, exLeaf, decide_eq_true_eq] at h1 h2
    rw [h1] at h2
    exact absurd h2 (by decide)

/-- `20 - 2 * 20 - 3 = -23` and `-23 - 4 * 40 - 4 = -187`. -/
example : ∃ st r, initState (exLs.map Leafwise.sub) exParams = .ok st ∧ runMulti (exLs.map Leafwise.sub) exL (exParams, (3, st.2)) = some r ∧
    arrayAt r.1 ["b".toList, "w".toList] = some (-187) ∧ arrayAt r.2.2 ["b".toList, "w".toList] = some (some 40) := by
  obtain ⟨st, r, h1, h2, h3⟩ := C134_leafwise exProper exLs_disjoint 3 exL exL_ok
  obtain ⟨a, b⟩ := h3 1 (exLeaf (fun p => p = "/b/w".toList)) ["b".toList, "w".toList] 20 [2, 4] rfl (by decide) (by decide) rfl
  exact ⟨st, r, h1, h2, a.trans (by decide), b.trans (by decide)⟩

end Examples

end Verif.MultiRun
