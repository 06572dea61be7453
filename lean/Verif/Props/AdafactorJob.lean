import Verif.Model.AdafactorJob
import Verif.Props.TrainedJob
import Verif.Props.ApplyGrad
import Verif.Props.Adafactor
import Verif.Lemmas.Fallback
import Mathlib.Analysis.SpecialFunctions.Pow.Real
/-
C128: jobs that train with Adafactor.  Composes C48 (the update of one parameter), C59 (the update of the tree) and C126 (jobs with files).
-/
namespace Verif.AdafactorJob
open Verif Verif.StateDict Verif.StateDict.Spec Verif.Adafactor Verif.ND Verif.MultiOpt
open Verif.SaveRestore (mapL keys_mapL)
open Verif.SaveRestore.Spec (Like SameKind)
open Verif.Adafactor.Spec (ShapesOf)
open Verif.OptaxState.Spec (ProperDict NoEmptyDict arrayAt)
open Verif.ApplyGrad (restore flatS keys_flatS lookupAll updateAll initAll)
open Verif.TrainState (TState Kind stateDict)
open Verif.TrainedJob (whole comp)
open Verif.TrainedJob.Spec (Alike AlikeM GoodCodec Keeps batches)
open Verif.JobFiles (Store Content prog)
open Verif.JobFiles.Spec (Fine Tmp History)
open Verif.TsPath (Str)

variable {T Mu : Type} {α β γ : Type}

/-! ### Nested dicts -/

theorem like_of_at {R R' : List Key → α → β → Prop} (a : Dict α) : ∀ (pre : List Key) (b : Dict β), Like R' pre a b → ProperDict a →
    (∀ p x y, arrayAt a p = some x → arrayAt b p = some y → R (pre ++ p) x y) → Like R pre a b := by
  induction a with
  | nil => intro pre b h _ _; cases b <;> first | trivial | exact h.elim
  | leaf k v r ih =>
    intro pre b h ha hR
    cases b with
    | nil => exact h.elim
    | sub => exact h.elim
    | leaf k' w r' =>
      obtain ⟨rfl, -, h2⟩ := h
      refine ⟨rfl, hR [k] v w ?_ ?_, ih _ _ h2 ha.2.2 ?_⟩
      · rw [Fallback.arrayAt_leaf, if_pos rfl, if_pos rfl]
      · rw [Fallback.arrayAt_leaf, if_pos rfl, if_pos rfl]
      · intro p x y hx hy
        cases p with
        | nil => rw [Fallback.arrayAt_nil] at hx; cases hx
        | cons k' ks =>
          have hk := Fallback.arrayAt_head r k' ks (by rw [hx]; rfl)
          have hne : k ≠ k' := fun e => ha.2.1 (by rw [e]; exact hk)
          exact hR _ _ _ (by rw [Fallback.arrayAt_leaf, if_neg hne, hx]) (by rw [Fallback.arrayAt_leaf, if_neg hne, hy])
  | sub k d r ihd ih =>
    intro pre b h ha hR
    cases b with
    | nil => exact h.elim
    | leaf => exact h.elim
    | sub k' d' r' =>
      obtain ⟨rfl, h1, h2⟩ := h
      refine ⟨rfl, ihd _ _ h1 (ha.2.2.1.resolve_left (by simp)) ?_, ih _ _ h2 ha.2.2.2 ?_⟩
      · intro p x y hx hy
        rw [List.append_assoc]
        exact hR (k :: p) x y (by rw [Fallback.arrayAt_sub, if_pos rfl, hx]) (by rw [Fallback.arrayAt_sub, if_pos rfl, hy])
      · intro p x y hx hy
        cases p with
        | nil => rw [Fallback.arrayAt_nil] at hx; cases hx
        | cons k' ks =>
          have hk := Fallback.arrayAt_head r k' ks (by rw [hx]; rfl)
          have hne : k ≠ k' := fun e => ha.2.1 (by rw [e]; exact hk)
          exact hR _ _ _ (by rw [Fallback.arrayAt_sub, if_neg hne, hx]) (by rw [Fallback.arrayAt_sub, if_neg hne, hy])

theorem like_maps {R : List Key → α → β → Prop} {α' β' : Type} (f : List Key → α → α') (g : List Key → β → β') (a : Dict α) :
    ∀ (pre pre' pre'' : List Key) (b : Dict β), Like R pre a b → Like (fun _ _ _ => True) pre'' (mapL f pre a) (mapL g pre' b) := by
  induction a with
  | nil => intro pre pre' pre'' b h; cases b <;> first | trivial | exact h.elim
  | leaf k v r ih =>
    intro pre pre' pre'' b h
    cases b with
    | nil => exact h.elim
    | sub => exact h.elim
    | leaf k' w r' => exact ⟨h.1, trivial, ih _ _ _ _ h.2.2⟩
  | sub k d r ihd ih =>
    intro pre pre' pre'' b h
    cases b with
    | nil => exact h.elim
    | leaf => exact h.elim
    | sub k' d' r' => exact ⟨h.1, ihd _ _ _ _ h.2.1, ih _ _ _ _ h.2.2⟩

theorem like_true (a : Dict α) : ∀ pre, Like (fun _ (_ _ : α) => True) pre a a := by
  induction a with
  | nil => intro _; trivial
  | leaf k v r ih => intro pre; exact ⟨rfl, trivial, ih _⟩
  | sub k d r ihd ih => intro pre; exact ⟨rfl, ihd _, ih _⟩

theorem like_noEmpty {R : List Key → α → β → Prop} (a : Dict α) : ∀ (pre : List Key) (b : Dict β), Like R pre a b → NoEmptyDict b → NoEmptyDict a := by
  induction a with
  | nil => intro pre b h _; trivial
  | leaf k v r ih =>
    intro pre b h hb
    cases b with
    | nil => exact h.elim
    | sub => exact h.elim
    | leaf k' w r' => exact ih _ _ h.2.2 hb
  | sub k d r ihd ih =>
    intro pre b h hb
    cases b with
    | nil => exact h.elim
    | leaf => exact h.elim
    | sub k' d' r' =>
      obtain ⟨h1, h2⟩ := hb.1.resolve_left (by simp)
      refine ⟨Or.inr ⟨?_, ihd _ _ h.2.1 h2⟩, ih _ _ h.2.2 hb.2⟩
      rintro rfl
      cases d' with
      | nil => exact h1 rfl
      | leaf => exact h.2.1.elim
      | sub => exact h.2.1.elim

/-! ### `_restore` keeps the order of the entries -/

theorem relabel_mapL (φ : List Key → α → β) (d : Dict α) : ∀ pre,
    relabel (fun _ => false) false (fun p v => match v with | .arr a => .arr (φ p a) | .dict _ => .dict .nil) pre d = mapL φ pre d := by
  induction d with
  | nil => intro _; rfl
  | leaf k a r ih => intro pre; simp only [relabel, mapL, Dict.cons, ih]
  | sub k d r ihd ih =>
    intro pre
    simp only [relabel, mapL, Bool.false_eq_true, if_false, Bool.false_and, Dict.cons, ih, ihd]

theorem restore_items (φ : List Key → α → β) (d : Dict α) (hd : ProperDict d) (hne : NoEmptyDict d) :
    restore ((items d).map fun e => (join e.1, φ e.1 e.2)) = some (mapL φ [] d) := by
  have h := unflattenPaths_relabel (fun _ => false) false (fun p v => match v with | .arr a => .arr (φ p a) | .dict _ => .dict .nil) d [] .nil
    (by simpa [Dict.keys] using distinct_keys (fun _ => false) _ (Spec.Proper.distinct hd)) (Spec.Proper.distinct hd) (Or.inl hne)
  rw [relabel_mapL, ← paths_items d hd, List.map_map] at h
  have hs := split_joined ((items d).map fun e => (e.1, φ e.1 e.2)) (by
    intro e he
    obtain ⟨x, hx, rfl⟩ := List.mem_map.mp he
    exact items_named d hd x hx)
  rw [List.map_map, List.map_map] at hs
  unfold restore unflat
  have hs' : ((items d).map fun e => (join e.1, φ e.1 e.2)).map (fun e => (split e.1, e.2)) = (items d).map fun e => (e.1, φ e.1 e.2) := by
    rw [List.map_map]; exact hs
  rw [hs', List.map_map]
  exact h

theorem restore_zip [Nonempty β] (d : Dict α) (hd : ProperDict d) (hne : NoEmptyDict d) (vs : List β) (hl : vs.length = (items d).length) :
    ∃ φ : List Key → α → β, restore (List.zip (PyDict.keys (flatS d)) vs) = some (mapL φ [] d) := by
  classical
  obtain ⟨b0⟩ := ‹Nonempty β›
  refine ⟨fun p _ => vs.getD (((items d).map Prod.fst).idxOf p) b0, ?_⟩
  rw [← restore_items _ d hd hne]
  congr 1
  rw [keys_flatS]
  apply List.ext_getElem
  · simp [hl]
  · intro i h1 h2
    have hi : i < (items d).length := by simpa using h2
    have hx : ((items d).map Prod.fst).idxOf ((items d)[i]).1 = i := by
      have := (items_nodup d hd).idxOf_getElem i (by simpa using hi)
      simpa using this
    simp only [List.getElem_zip, List.getElem_map, hx]
    rw [List.getD_eq_getElem?_getD, List.getElem?_eq_getElem (by omega)]
    rfl

theorem lookupAll_length (d : List (Key × α)) : ∀ (ks : List Key) (vs : List α), lookupAll d ks = some vs → vs.length = ks.length := by
  intro ks
  induction ks with
  | nil => intro vs h; cases h; rfl
  | cons k ks ih =>
    intro vs h
    simp only [lookupAll] at h
    split at h
    · rename_i v ws _ hw
      cases h
      rw [List.length_cons, List.length_cons, ih _ hw]
    · cases h

theorem updateAll_length {P S E : Type} (upd : Key → P → S → NDArray ℝ → Except E (P × S)) : ∀ (ps : List (Key × P)) (ss : List S) (gs : List (NDArray ℝ))
    (out : List (P × S)), updateAll upd ps ss gs = .ok out → ss.length = ps.length → gs.length = ps.length → out.length = ps.length := by
  intro ps
  induction ps with
  | nil => intro ss gs out h _ _; cases h; rfl
  | cons p ps ih =>
    intro ss gs out h h1 h2
    cases ss with
    | nil => cases h1
    | cons s ss =>
      cases gs with
      | nil => cases h2
      | cons g gs =>
        obtain ⟨k, p⟩ := p
        simp only [updateAll] at h
        split at h
        · cases h
        · split at h
          · cases h
          · rename_i os ho
            cases h
            simp only [List.length_cons, Nat.add_right_cancel_iff] at h1 h2 ⊢
            exact ih _ _ _ ho h1 h2

theorem initAll_length {P S E : Type} (init : Key → P → Except E S) : ∀ (ps : List (Key × P)) (out : List S), initAll init ps = .ok out →
    out.length = ps.length := by
  intro ps
  induction ps with
  | nil => intro out h; cases h; rfl
  | cons p ps ih =>
    intro out h
    obtain ⟨k, p⟩ := p
    simp only [initAll] at h
    split at h
    · cases h
    · split at h
      · cases h
      · rename_i os ho
        cases h
        rw [List.length_cons, List.length_cons, ih _ ho]

theorem clip_length (thr : Option ℝ) (gs : List (NDArray ℝ)) : (ApplyGrad.clip thr gs).length = gs.length := by
  rw [ApplyGrad.clip_eq, List.length_map]

/-- The new parameters and states have the entries of the parameters in their order. -/
theorem apply_order {P S E : Type} [Nonempty P] [Nonempty S] (upd : Nat → Key → P → S → NDArray ℝ → Except E (P × S)) (thr : Option ℝ) (params : Dict P)
    (state : Nat × Dict S) (grads : Dict (NDArray ℝ)) (hp : ProperDict params) (hne : NoEmptyDict params) (r : Dict P × (Nat × Dict S))
    (h : ApplyGrad.applyGradient upd thr params state grads = .ok r) :
    ∃ (φ : List Key → P → P) (ψ : List Key → P → S), r.1 = mapL φ [] params ∧ r.2.2 = mapL ψ [] params := by
  unfold ApplyGrad.applyGradient at h
  have hlen : (PyDict.keys (flatS params)).length = (items params).length := by rw [keys_flatS, List.length_map]
  have hlen' : (flatS params).length = (items params).length := by unfold flatS; rw [List.length_map]
  dsimp only at h
  split at h
  · rename_i ss gs hs hg
    split at h
    · cases h
    · rename_i out ho
      have hl := updateAll_length _ _ _ _ _ ho (by rw [lookupAll_length _ _ _ hs, hlen, hlen']) (by rw [clip_length, lookupAll_length _ _ _ hg, hlen, hlen'])
      obtain ⟨φ, e1⟩ := restore_zip params hp hne (out.map Prod.fst) (by rw [List.length_map, hl, hlen'])
      obtain ⟨ψ, e2⟩ := restore_zip params hp hne (out.map Prod.snd) (by rw [List.length_map, hl, hlen'])
      rw [e1, e2] at h
      cases h
      exact ⟨φ, ψ, rfl, rfl⟩
  · cases h

theorem init_order {P S E : Type} [Nonempty S] (init : Key → P → Except E S) (params : Dict P) (hp : ProperDict params) (hne : NoEmptyDict params)
    (r : Nat × Dict S) (h : ApplyGrad.initState init params = .ok r) : ∃ ψ : List Key → P → S, r.2 = mapL ψ [] params := by
  unfold ApplyGrad.initState at h
  have hlen' : (flatS params).length = (items params).length := by unfold flatS; rw [List.length_map]
  dsimp only at h
  split at h
  · cases h
  · rename_i ss hs
    obtain ⟨ψ, e⟩ := restore_zip params hp hne ss (by rw [initAll_length _ _ _ hs, hlen'])
    rw [e] at h
    cases h
    exact ⟨ψ, rfl⟩

/-! ### What is assumed -/

namespace Spec

/-- Parameters with the same entries and shapes. -/
def SameParams (p q : Dict (NDArray ℝ)) : Prop := Like (fun _ x y => x.shape = y.shape) [] p q

/-- States of the optimizer with the same entries and shapes. -/
def SameStates (o q : Dict (PState ℝ)) : Prop := Like (fun _ s t => ShapesOf s t) [] o q

/-- Adafactor, started with the parameters `p0`: ordinary nested dicts without empty ones, for which `init_state` gives `o0`; `np.argsort` sorts. -/
structure Setup (A : Optimizer) (p0 : Dict (NDArray ℝ)) (o0 : Dict (PState ℝ)) : Prop where
  sort : ∀ l, (A.D.argsort l).Perm (List.range l.length)
  names : SaveRestore.Spec.Clean p0
  inner : NoEmptyDict p0
  init : A.init p0 = .ok (0, o0)

end Spec
open Spec

instance : Nonempty (NDArray ℝ) := ⟨⟨[], fun _ => 0⟩⟩
instance : Nonempty (PState ℝ) := ⟨⟨⟨[], fun _ => 0⟩, ⟨[], fun _ => 0⟩, ⟨[], fun _ => 0⟩, ⟨[], fun _ => 0⟩⟩⟩

theorem proper_of_clean (d : Dict α) (h : SaveRestore.Spec.Clean d) : ProperDict d := TrainedJob.like_proper d d [] (like_true d []) h

/-- The initial state belongs to the initial parameters. -/
theorem setup_init {A : Optimizer} {p0 : Dict (NDArray ℝ)} {o0 : Dict (PState ℝ)} (hA : Setup A p0 o0) :
    (∃ ψ, o0 = mapL ψ [] p0) ∧ ∀ p x, arrayAt p0 p = some x → ∃ s, initParam A.O A.D A.H.beta1.isSome (join p) x.shape = .ok s ∧ arrayAt o0 p = some s := by
  have hp := proper_of_clean p0 hA.names
  refine ⟨init_order _ _ hp hA.inner _ hA.init, fun p x hx => ?_⟩
  exact (((ApplyGrad.C59_init _ p0 hp).2 _ hA.init).2.2 p).2 x hx

variable {A : Optimizer} {p0 : Dict (NDArray ℝ)} {o0 : Dict (PState ℝ)}

/-- **C128** (one step).  For parameters and a state of the optimizer with the entries and shapes of the initial ones, `apply_gradient` raises no error, whatever the
gradients and the learning rate are.  The results have these entries, in the same order, and these shapes again; every parameter and its state are the ones that
Adafactor computes from the parameter, the state and the gradient with its name. -/
theorem C128_step (hA : Setup A p0 o0) (p : Dict (NDArray ℝ)) (o : Dict (PState ℝ)) (hp : SameParams p p0) (ho : SameStates o o0) (lr : ℝ) (n : Nat) (g : Grads) :
    ∃ p' o', A.apply lr n p o g = .ok (p', (n + 1, o')) ∧ SameParams p' p0 ∧ SameStates o' o0 ∧
      ∀ ps, ApplyGrad.Spec.Enumerates ps p → ∀ path x s, arrayAt p path = some x → arrayAt o path = some s →
        ∃ q, applyParam A.O A.D { A.H with learningRate := some lr } n (join path) x s
            (ApplyGrad.Spec.scaled (ApplyGrad.Spec.clipFactor A.clip (ApplyGrad.Spec.normAll (gradDict p g) ps)) ⟨x.shape, g path⟩) = .ok q ∧
          arrayAt p' path = some q.1 ∧ arrayAt o' path = some q.2 := by
  obtain ⟨⟨ψ0, hψ⟩, hinit⟩ := setup_init hA
  have hpp : ProperDict p := TrainedJob.like_proper p p0 [] hp hA.names
  have hne : NoEmptyDict p := like_noEmpty p [] p0 hp hA.inner
  have hoc : SaveRestore.Spec.Clean o0 := by rw [hψ, SaveRestore.clean_mapL]; exact hA.names
  have hop : ProperDict o := TrainedJob.like_proper o o0 [] ho hoc
  have hgp : ProperDict (gradDict p g) := by
    refine TrainedJob.like_proper (R := fun _ _ _ => True) _ p0 [] ?_ hA.names
    have := like_maps (fun k (x : NDArray ℝ) => (⟨x.shape, g k⟩ : NDArray ℝ)) (fun _ y => y) p [] [] [] p0 hp
    have hid : mapL (fun _ (y : NDArray ℝ) => y) [] p0 = p0 := by
      have : ∀ (d : Dict (NDArray ℝ)) pre, mapL (fun _ (y : NDArray ℝ) => y) pre d = d := by
        intro d
        induction d with
        | nil => intro _; rfl
        | leaf k a r ih => intro pre; simp only [mapL, ih]
        | sub k d r ihd ih => intro pre; simp only [mapL, ih, ihd]
      exact this _ _
    rw [hid] at this
    exact this
  have hgrad : ∀ path x, arrayAt p path = some x → arrayAt (gradDict p g) path = some ⟨x.shape, g path⟩ := by
    intro path x hx
    rw [gradDict, Fallback.arrayAt_mapL, hx]; rfl
  -- the parts that belong to a path
  have hrow : ∀ path x, arrayAt p path = some x → ∃ x0 s0 s, arrayAt p0 path = some x0 ∧ x.shape = x0.shape ∧ arrayAt o0 path = some s0 ∧
      initParam A.O A.D A.H.beta1.isSome (join path) x.shape = .ok s0 ∧ arrayAt o path = some s ∧ ShapesOf s s0 := by
    intro path x hx
    obtain ⟨x0, h1, h2⟩ := (Fallback.like_at _ _ _ _ hp path).1 x hx
    obtain ⟨s0, h3, h4⟩ := hinit path x0 h1
    cases hs : arrayAt o path with
    | none => rw [(Fallback.like_at _ _ _ _ ho path).2 hs] at h4; cases h4
    | some s =>
      obtain ⟨s0', h5, h6⟩ := (Fallback.like_at _ _ _ _ ho path).1 s hs
      rw [h4] at h5
      cases h5
      exact ⟨x0, s0, s, h1, h2, h4, by rw [h2]; exact h3, rfl, h6⟩
  have hupd : ∀ path x s (c : ℝ), arrayAt p path = some x → arrayAt o path = some s →
      ∃ q, A.param lr n (join path) x s (ApplyGrad.Spec.scaled c ⟨x.shape, g path⟩) = .ok q ∧ q.1.shape = x.shape ∧
        ∀ s0, arrayAt o0 path = some s0 → ShapesOf q.2 s0 := by
    intro path x s c hx hs
    obtain ⟨x0, s0, s', -, -, h3, h4, h5, h6⟩ := hrow path x hx
    rw [hs] at h5
    cases h5
    obtain ⟨_, _, np, st', -, e2, e3, e4, -⟩ := C48_update A.O A.D { A.H with learningRate := some lr } n (join path) x
      (ApplyGrad.Spec.scaled c ⟨x.shape, g path⟩) s s0 lr hA.sort rfl rfl h4 h6
    refine ⟨(np, st'), e2, e3, fun s1 h => ?_⟩
    rw [h3] at h
    cases h
    exact e4
  have henum : ApplyGrad.Spec.Enumerates ((items p).map Prod.fst) p := by
    refine ⟨items_nodup p hpp, fun q => ?_⟩
    rw [List.mem_map]
    constructor
    · rintro ⟨e, he, rfl⟩
      rw [(mem_items p hpp e.1 e.2).1 he]; simp
    · intro h
      obtain ⟨a, ha⟩ := Option.ne_none_iff_exists'.mp h
      exact ⟨(q, a), (mem_items p hpp q a).2 ha, rfl⟩
  have hall : ∀ ps, ApplyGrad.Spec.Enumerates ps p → ∀ q ∈ ps, arrayAt o q ≠ none ∧ arrayAt (gradDict p g) q ≠ none := by
    intro ps hps q hq
    obtain ⟨x, hx⟩ := Option.ne_none_iff_exists'.mp ((hps.2 q).1 hq)
    obtain ⟨_, _, s, -, -, -, -, h5, -⟩ := hrow q x hx
    rw [h5, hgrad q x hx]
    simp
  obtain ⟨⟨p', n', o'⟩, hr⟩ := ((ApplyGrad.C59_apply (A.param lr) A.clip p (n, o) (gradDict p g) hpp hop hgp _ henum).2 (hall _ henum)).1.2 (by
    intro path x s g' h1 h2 h3
    rw [hgrad path x h1] at h3
    cases h3
    obtain ⟨q, hq, -⟩ := hupd path x s _ h1 h2
    exact ⟨q, hq⟩)
  have key : ∀ ps, ApplyGrad.Spec.Enumerates ps p → n' = n + 1 ∧ ∀ path x s, arrayAt p path = some x → arrayAt o path = some s →
      ∃ q, A.param lr n (join path) x s (ApplyGrad.Spec.scaled (ApplyGrad.Spec.clipFactor A.clip (ApplyGrad.Spec.normAll (gradDict p g) ps)) ⟨x.shape, g path⟩) = .ok q ∧
        arrayAt p' path = some q.1 ∧ arrayAt o' path = some q.2 := by
    intro ps hps
    obtain ⟨a1, -, -, -, a5⟩ := ((ApplyGrad.C59_apply (A.param lr) A.clip p (n, o) (gradDict p g) hpp hop hgp ps hps).2 (hall ps hps)).2 _ hr
    exact ⟨a1, fun path x s hx hs => a5 path x s _ hx hs (hgrad path x hx)⟩
  obtain ⟨rfl, hval⟩ := key _ henum
  obtain ⟨φ, ψ, e1, e2⟩ := apply_order _ _ _ _ _ hpp hne _ hr
  dsimp only at e1 e2
  have id0 : ∀ (d : Dict (NDArray ℝ)) pre, mapL (fun _ (y : NDArray ℝ) => y) pre d = d := by
    intro d
    induction d with
    | nil => intro _; rfl
    | leaf k a r ih => intro pre; simp only [mapL, ih]
    | sub k d r ihd ih => intro pre; simp only [mapL, ih, ihd]
  have l1 : Like (fun _ _ _ => True) [] p' p0 := by
    have := like_maps φ (fun _ y => y) p [] [] [] p0 hp
    rwa [id0, ← e1] at this
  have l2 : Like (fun _ _ _ => True) [] o' o0 := by
    have := like_maps ψ ψ0 p [] [] [] p0 hp
    rwa [← hψ, ← e2] at this
  -- leaves of the results are at the paths of the parameters
  have back1 : ∀ path x', arrayAt p' path = some x' → ∃ x, arrayAt p path = some x := by
    intro path x' h
    rw [e1, Fallback.arrayAt_mapL] at h
    cases hx : arrayAt p path with
    | none => rw [hx] at h; cases h
    | some x => exact ⟨x, rfl⟩
  have back2 : ∀ path s', arrayAt o' path = some s' → ∃ x, arrayAt p path = some x := by
    intro path x' h
    rw [e2, Fallback.arrayAt_mapL] at h
    cases hx : arrayAt p path with
    | none => rw [hx] at h; cases h
    | some x => exact ⟨x, rfl⟩
  refine ⟨p', o', hr, ?_, ?_, fun ps hps => (key ps hps).2⟩
  · refine like_of_at p' [] p0 l1 (TrainedJob.like_proper p' p0 [] l1 hA.names) fun path x' x0 h1 h2 => ?_
    obtain ⟨x, hx⟩ := back1 path x' h1
    obtain ⟨x0', s0, s, b1, b2, -, -, b5, -⟩ := hrow path x hx
    obtain ⟨q, c1, c2, -⟩ := hval path x s hx b5
    obtain ⟨q', d1, d2, -⟩ := hupd path x s _ hx b5
    rw [d1] at c1
    cases c1
    rw [h1] at c2
    rw [h2] at b1
    cases c2
    cases b1
    rw [d2, b2]
  · refine like_of_at o' [] o0 l2 (TrainedJob.like_proper o' o0 [] l2 hoc) fun path s' s0 h1 h2 => ?_
    obtain ⟨x, hx⟩ := back2 path s' h1
    obtain ⟨x0', s1, s, -, -, -, -, b5, -⟩ := hrow path x hx
    obtain ⟨q, c1, -, c3⟩ := hval path x s hx b5
    obtain ⟨q', d1, -, d3⟩ := hupd path x s _ hx b5
    rw [d1] at c1
    cases c1
    rw [h1] at c3
    cases c3
    exact d3 s0 h2

/-! ### The layout of the train state -/

theorem decP_encP (L : Layout T Mu) (p : Dict (NDArray ℝ)) : ∀ pre, decP (mapL (fun k x => some (⟨L.param k, .inl x⟩ : Arr T)) pre p) = some p := by
  induction p with
  | nil => intro _; rfl
  | leaf k x r ih => intro pre; simp only [mapL, decP, ih, Option.map_some]
  | sub k d r ihd ih => intro pre; simp only [mapL, decP, ih, ihd]

theorem decS_encO (L : Layout T Mu) (o : Dict (PState ℝ)) : decS (encO L o) = none := by
  cases o <;> simp [encO, decS]

theorem decO_encO (L : Layout T Mu) (o : Dict (PState ℝ)) : decO (encO L o) = some o := by
  induction o with
  | nil => rfl
  | leaf k s r ih => simp only [encO, encS, decO, decS, ih, Option.map_some]
  | sub k d r ihd ih => simp only [encO, decO, decS_encO, ih, ihd]

/-- **C128** (layout).  Parameters, accumulators, step and mutables are recovered from the arrays they are saved as. -/
theorem C128_codec (L : Layout T Mu) (hL : ∀ m, L.decM (L.encM m) = some m ∧ L.encM m ≠ []) : GoodCodec (codec L) where
  params p := decP_encP L p []
  opt o := decO_encO L o
  mutables := hL
  step _ := rfl

theorem alike_encP (L : Layout T Mu) (dflt u16 : T) (p : Dict (NDArray ℝ)) : ∀ (pre : List Key) (q : Dict (NDArray ℝ)),
    Like (fun _ x y => SameKind (arrOps dflt u16) x y ∧ x.map (arrOps dflt u16).dtype = y.map (arrOps dflt u16).dtype) pre
      (mapL (fun k x => some (⟨L.param k, .inl x⟩ : Arr T)) pre p) (mapL (fun k x => some (⟨L.param k, .inl x⟩ : Arr T)) pre q) ↔
      Like (fun _ x y => x.shape = y.shape) pre p q := by
  induction p with
  | nil => intro pre q; cases q <;> simp [mapL, Like]
  | leaf k x r ih =>
    intro pre q
    cases q with
    | nil => simp [mapL, Like]
    | sub => simp [mapL, Like]
    | leaf k' y r' =>
      simp only [mapL, Like, ih]
      constructor
      · rintro ⟨rfl, ⟨h1, -⟩, h2⟩
        exact ⟨rfl, by simpa [SameKind, arrOps] using h1, h2⟩
      · rintro ⟨rfl, h1, h2⟩
        exact ⟨rfl, ⟨by simpa [SameKind, arrOps] using h1, rfl⟩, h2⟩
  | sub k d r ihd ih =>
    intro pre q
    cases q with
    | nil => simp [mapL, Like]
    | leaf => simp [mapL, Like]
    | sub k' d' r' =>
      simp only [mapL, Like, ih]
      constructor
      · rintro ⟨rfl, h1, h2⟩; exact ⟨rfl, (ihd _ _).1 h1, h2⟩
      · rintro ⟨rfl, h1, h2⟩; exact ⟨rfl, (ihd _ _).2 h1, h2⟩

theorem alike_encS (L : Layout T Mu) (dflt u16 : T) (s t : PState ℝ) (pre : List Key) :
    Like (fun _ x y => SameKind (arrOps dflt u16) x y ∧ x.map (arrOps dflt u16).dtype = y.map (arrOps dflt u16).dtype) pre (encS L s) (encS L t) ↔ ShapesOf s t := by
  simp [encS, Like, SameKind, arrOps, ShapesOf]

theorem alike_encO (L : Layout T Mu) (dflt u16 : T) (o : Dict (PState ℝ)) : ∀ (pre : List Key) (q : Dict (PState ℝ)),
    Like (fun _ x y => SameKind (arrOps dflt u16) x y ∧ x.map (arrOps dflt u16).dtype = y.map (arrOps dflt u16).dtype) pre (encO L o) (encO L q) ↔
      Like (fun _ s t => ShapesOf s t) pre o q := by
  induction o with
  | nil => intro pre q; cases q <;> simp [encO, Like]
  | leaf k x r ih =>
    intro pre q
    cases q with
    | nil => simp [encO, Like]
    | sub k' d' r' => cases d' <;> simp [encO, encS, Like]
    | leaf k' y r' => simp only [encO, Like, ih, alike_encS]
  | sub k d r ihd ih =>
    intro pre q
    cases q with
    | nil => simp [encO, Like]
    | leaf => cases d <;> simp [encO, encS, Like]
    | sub k' d' r' => simp only [encO, Like, ih, ihd]

theorem keys_encO (L : Layout T Mu) (o : Dict (PState ℝ)) : (encO L o).keys = o.keys := by
  induction o with
  | nil => rfl
  | leaf k s r ih => simp only [encO, Dict.keys, ih]
  | sub k d r _ ih => simp only [encO, Dict.keys, ih]

theorem clean_encO (L : Layout T Mu) (o : Dict (PState ℝ)) (h : SaveRestore.Spec.Clean o) : SaveRestore.Spec.Clean (encO L o) := by
  induction o with
  | nil => trivial
  | leaf k s r ih =>
    refine ⟨h.1, h.2.1, by rw [keys_encO]; exact h.2.2.1, ?_, ih h.2.2.2⟩
    unfold encS
    simp only [SaveRestore.Spec.Clean]
    repeat' (first | exact trivial | refine And.intro ?_ ?_ | decide | simp [Dict.keys])
  | sub k d r ihd ih => exact ⟨h.1, h.2.1, by rw [keys_encO]; exact h.2.2.1, ihd h.2.2.2.1, ih h.2.2.2.2⟩

theorem shapes_refl (o : Dict (PState ℝ)) : ∀ pre, Like (fun _ s t => ShapesOf s t) pre o o := by
  induction o with
  | nil => intro _; trivial
  | leaf k v r ih => intro pre; exact ⟨rfl, ⟨rfl, rfl, rfl, rfl⟩, ih _⟩
  | sub k d r ihd ih => intro pre; exact ⟨rfl, ihd _, ih _⟩

theorem params_refl (p : Dict (NDArray ℝ)) : ∀ pre, Like (fun _ (x y : NDArray ℝ) => x.shape = y.shape) pre p p := by
  induction p with
  | nil => intro _; trivial
  | leaf k v r ih => intro pre; exact ⟨rfl, rfl, ih _⟩
  | sub k d r ihd ih => intro pre; exact ⟨rfl, ihd _, ih _⟩

/-! ### The job -/

variable {R Row σ B : Type}

namespace Spec

/-- The checkpointer is made for a train state with the initial parameters and accumulators; the trainer updates with Adafactor; the model keeps the entries of
the mutables. -/
structure Prepared (c : Store (Arr T) T) (L : Layout T Mu) (A : Optimizer) (u : TState (Option (Arr T)))
    (tr : Train.Cfg ℝ (Dict (NDArray ℝ)) Grads (Dict (PState ℝ)) Mu R Row) (p0 : Dict (NDArray ℝ)) (o0 : Dict (PState ℝ)) (mu0 : Option Mu) : Prop where
  ops : ∃ dflt u16, c.O = arrOps dflt u16
  layout : ∀ m, L.decM (L.encM m) = some m ∧ L.encM m ≠ []
  setup : Setup A p0 o0
  template : u.params = encP L p0 ∧ u.step = some ⟨L.i32, .inr 0⟩ ∧ u.paramStates = encO L o0
  like : ∃ sd, stateDict .plain u = some sd ∧ c.like_ = whole sd
  update : tr.update = A.update
  mutables0 : AlikeM c.O ((codec L).mutables mu0) u.mutables
  mutables : ∀ p b r mu, AlikeM c.O ((codec L).mutables mu) u.mutables → AlikeM c.O ((codec L).mutables (tr.lossGrad p b r mu).2.1) u.mutables

end Spec

variable {c : Store (Arr T) T} {L : Layout T Mu} {u : TState (Option (Arr T))} {tr : Train.Cfg ℝ (Dict (NDArray ℝ)) Grads (Dict (PState ℝ)) Mu R Row}
  {mu0 : Option Mu}

theorem update_same (hA : Setup A p0 o0) (p : Dict (NDArray ℝ)) (o : Dict (PState ℝ)) (hp : SameParams p p0) (ho : SameStates o o0) (lr : ℝ) (n : Nat) (g : Grads) :
    SameParams (A.update lr n p o g).1 p0 ∧ SameStates (A.update lr n p o g).2 o0 := by
  obtain ⟨p', o', h1, h2, h3, -⟩ := C128_step hA p o hp ho lr n g
  unfold Optimizer.update
  rw [h1]
  exact ⟨h2, h3⟩

/-- **C128** (Adafactor keeps the template).  What the theorems about jobs assume of an optimizer holds for Adafactor: whatever the gradients are, the parameters and
accumulators after a step have the entries, order, shapes and dtypes of those that the checkpointer was made for. -/
theorem C128_keeps (h : Prepared c L A u tr p0 o0 mu0) (n0 : Nat) : Keeps c .plain u (codec L) tr ⟨n0, p0, o0, mu0⟩ := by
  obtain ⟨dflt, u16, hO⟩ := h.ops
  obtain ⟨hu1, hu2, hu3⟩ := h.template
  obtain ⟨⟨ψ0, hψ⟩, -⟩ := setup_init h.setup
  have hoc : SaveRestore.Spec.Clean o0 := by rw [hψ, SaveRestore.clean_mapL]; exact h.setup.names
  have eP : ∀ p, Alike c.O ((codec L).encP p) u.params ↔ SameParams p p0 := fun p => by
    rw [hu1, hO]; exact alike_encP L dflt u16 p [] p0
  have eO : ∀ o, Alike c.O ((codec L).encO o) u.paramStates ↔ SameStates o o0 := fun o => by
    rw [hu3, hO]; exact alike_encO L dflt u16 o [] o0
  refine ⟨h.like, ⟨?_, ?_⟩, ⟨_, hu2, fun n => ?_⟩, ⟨(eP _).2 (params_refl _ _), (eO _).2 (shapes_refl _ _), h.mutables0⟩, ?_, h.mutables⟩
  · rw [hu1, encP, SaveRestore.clean_mapL]; exact h.setup.names
  · rw [hu3]; exact clean_encO L o0 hoc
  · rw [hO]; exact ⟨rfl, rfl⟩
  · intro lr n p o g hp ho
    rw [h.update, eP, eO]
    exact update_same h.setup p o ((eP _).1 hp) ((eO _).1 ho) lr n g

/-- **C128** (no error).  In every state that the trainer reaches, with any batches, the parameters and accumulators have the entries and shapes of the initial ones,
and the next `apply_gradient` raises no error for any gradients and any learning rate. -/
theorem C128_run (h : Prepared c L A u tr p0 o0 mu0) (n0 : Nat) (bs : List (Train.Batch Row)) (s : Train.State (Dict (NDArray ℝ)) (Dict (PState ℝ)) Mu)
    (hs : Train.Spec.run (Train.trainStep tr) ⟨n0, p0, o0, mu0⟩ bs = .ok s) :
    s.step = n0 + bs.length ∧ SameParams s.params p0 ∧ SameStates s.opt o0 ∧
      ∀ lr g, ∃ p' o', A.apply lr s.step s.params s.opt g = .ok (p', (s.step + 1, o')) ∧ tr.update lr s.step s.params s.opt g = (p', o') := by
  have key : ∀ (bs : List (Train.Batch Row)) (s0 s : Train.State (Dict (NDArray ℝ)) (Dict (PState ℝ)) Mu), SameParams s0.params p0 → SameStates s0.opt o0 →
      Train.Spec.run (Train.trainStep tr) s0 bs = .ok s → s.step = s0.step + bs.length ∧ SameParams s.params p0 ∧ SameStates s.opt o0 := by
    intro bs
    induction bs with
    | nil => intro s0 s h1 h2 h3; cases h3; exact ⟨rfl, h1, h2⟩
    | cons b bs ih =>
      intro s0 s h1 h2 h3
      simp only [Train.Spec.run] at h3
      split at h3
      · cases h3
      · rename_i s1 m hs1
        unfold Train.trainStep at hs1
        split at hs1
        · cases hs1
        · rename_i a ha
          cases hs1
          obtain ⟨q1, q2⟩ := update_same h.setup s0.params s0.opt h1 h2 (tr.lr s0.step) s0.step a.grad
          obtain ⟨r1, r2⟩ := ih _ s (by simp only [Train.applyGradient, h.update]; exact q1) (by simp only [Train.applyGradient, h.update]; exact q2) h3
          refine ⟨?_, r2⟩
          rw [r1, List.length_cons, Train.applyGradient]
          dsimp only
          omega
  obtain ⟨k1, k2, k3⟩ := key bs ⟨n0, p0, o0, mu0⟩ s (params_refl _ _) (shapes_refl _ _) hs
  refine ⟨k1, k2, k3, fun lr g => ?_⟩
  obtain ⟨p', o', e, -⟩ := C128_step h.setup s.params s.opt k2 k3 lr s.step g
  refine ⟨p', o', e, ?_⟩
  rw [h.update, Optimizer.update, e]

variable [DecidableEq T] {α : Type} [LinearOrder α] [BoundedOrder α] {pipe : DsCkpt.Pipe σ B} {seed : Nat} {glue : (Nat → Option B) → Train.Batch Row}

/-- **C128** (the job).  A job that trains with Adafactor is started any number of times and killed at any moment, also while it writes a file.  The parameters and the
accumulators of the processes are those that `Trainer` computes from the initial ones with the first `k` batches of the data set in this order, where `k` is the
number of steps it counts. -/
theorem C128_job (hc : Fine c) (h : Prepared c L A u tr p0 o0 mu0) (n0 : Nat) {tmp : Str} (ht : Tmp c tmp) {n : Nat} (hn : 0 < n)
    (hrun : ∀ k, ∃ s, Train.Spec.run (Train.trainStep tr) ⟨n0, p0, o0, mu0⟩ (batches pipe seed glue n k) = .ok s)
    (acts : List (TrainJob.Act (Train.State (Dict (NDArray ℝ)) (Dict (PState ℝ)) Mu) σ (Content (Arr T) T σ) α)) (hh : History n acts)
    (l : TrainJob.Live (Train.State (Dict (NDArray ℝ)) (Dict (PState ℝ)) Mu) σ)
    (hl : (TrainJob.job (prog c (comp .plain u (codec L) tr ⟨n0, p0, o0, mu0⟩ pipe seed glue) tmp) acts).live = some l) :
    ∃ k, l.m.step = n0 + k ∧ Train.Spec.run (Train.trainStep tr) ⟨n0, p0, o0, mu0⟩ (batches pipe seed glue n k) = .ok l.m ∧
      SameParams l.m.params p0 ∧ SameStates l.m.opt o0 ∧
      ∀ x ∈ l.hosts, ∀ j, DsCkpt.batchAt pipe j x = some (pipe.out (pipe.next^[k + j] (pipe.init seed x.layout.shardId n))) := by
  obtain ⟨k, h1, h2, -, h4⟩ := TrainedJob.C126_job hc (C128_keeps h n0) (C128_codec L h.layout) ht hn hrun acts hh l hl
  obtain ⟨-, h5, h6, -⟩ := C128_run h n0 _ _ h2
  exact ⟨k, h1, h2, h5, h6, h4⟩

/-! ### Empty dicts -/

/-- **C128** (empty dicts).  The hypothesis about empty dicts is needed: an empty dict among the parameters is gone after `init_state` and after a step. -/
theorem C128_empty (A : Optimizer) (k : Key) (lr : ℝ) (n : Nat) (g : Grads) :
    A.init (.sub k .nil .nil) = .ok (0, .nil) ∧ A.apply lr n (.sub k .nil .nil) .nil g = .ok (.nil, (n + 1, .nil)) ∧
      ¬ SameParams (.nil : Dict (NDArray ℝ)) (.sub k .nil .nil) := by
  have hi : ∀ β : Type, items (Dict.sub k (.nil : Dict β) .nil) = [] := by
    intro β; simp [items, flattenGo, PyDict.update]
  refine ⟨?_, ?_, fun h => h⟩
  · simp [Optimizer.init, ApplyGrad.initState, flatS, hi, initAll, PyDict.keys, restore, unflat, unflattenPaths]
  · simp [Optimizer.apply, ApplyGrad.applyGradient, gradDict, mapL, flatS, hi, PyDict.keys, restore, unflat, unflattenPaths, lookupAll, updateAll]

/-! ### The hypotheses are met -/

section

/-- Exact arithmetic. -/
noncomputable def realOps : Adafactor.Ops ℝ where
  add := (· + ·)
  sub := (· - ·)
  mul := (· * ·)
  div := (· / ·)
  max := max
  min := min
  pow := fun x y => x ^ y
  sqrt := Real.sqrt
  rsqrt x := (Real.sqrt x)⁻¹
  mean l := l.sum / l.length
  isnan _ := false
  zero := 0
  one := 1
  isZero x := open Classical in decide (x = 0)
  decayPow s e := 1 - (s + 1 : ℝ) ^ (-e)
  castG := id
  castM := id
  castP := id

noncomputable def exA : Optimizer where
  O := realOps
  D := ⟨true, none, 2, fun l => if l = [3, 2] then [1, 0] else List.range l.length⟩
  H := ⟨none, none, 4 / 5, 0, true, none, some 1, none, none, 1, 1, false⟩
  clip := some 1

/-- A kernel and, in an inner dict, a bias. -/
def exP (x y : ℝ) : Dict (NDArray ℝ) := .leaf "w".toList ⟨[3, 2], fun _ => x⟩ (.sub "d".toList (.leaf "b".toList ⟨[3], fun _ => y⟩ .nil) .nil)

def exO : Dict (PState ℝ) :=
  .leaf "w".toList ⟨zeros 0 [2], zeros 0 [3], zeros 0 [1], zeros 0 [1]⟩ (.sub "d".toList (.leaf "b".toList ⟨zeros 0 [1], zeros 0 [1], zeros 0 [3], zeros 0 [1]⟩ .nil) .nil)

theorem exSetup (x y : ℝ) : Setup exA (exP x y) exO where
  sort l := by
    unfold exA
    dsimp only
    split_ifs with h
    · rw [h]; decide
    · exact List.Perm.refl _
  names := by
    simp only [exP, SaveRestore.Spec.Clean]
    repeat' (first | exact trivial | refine And.intro ?_ ?_ | decide | simp [Dict.keys])
  inner := ⟨Or.inr ⟨by simp, trivial⟩, trivial⟩
  init := rfl

/-- No mutables. -/
def exL : Layout Nat Unit where
  param _ := 0
  f32 := 0
  momentum := 1
  i32 := 5
  encM _ := [("cache".toList, .nil)]
  decM _ := some ()

def exU (x y : ℝ) : TState (Option (Arr Nat)) := ⟨encP exL (exP x y), some ⟨5, .inr 0⟩, encO exL exO, none, [], none⟩

def exStore (x y : ℝ) : Store (Arr Nat) Nat where
  O := arrOps 2 3
  dtype := some 0
  onDevices := true
  dir := "/m".toList
  axes p := p.getLast? ≠ some "step".toList
  like_ := whole ⟨(exU x y).params, TrainState.optState (exU x y).step (exU x y).paramStates, TrainState.orNone (exU x y).mutables⟩
  fns := []

theorem exFine (x y : ℝ) : Fine (exStore x y) where
  ops := ⟨fun _ _ => rfl, fun _ _ => rfl, fun _ => rfl⟩
  keys := by
    simp only [exStore, exU, exP, exO, encP, encO, encS, mapL, whole, TrainState.optState, TrainState.orNone, List.isEmpty_nil, if_true, SaveRestore.Spec.Clean]
    repeat' (first | exact trivial | refine And.intro ?_ ?_ | decide | simp [Dict.keys])
  nested := by
    simp [exStore, exU, whole, TrainState.orNone, JobFiles.Spec.Nested]
  dir := TrainedJob.exDir
  leaves := by
    simp only [exStore, exU, exP, exO, encP, encO, encS, mapL, whole, TrainState.optState, TrainState.orNone, List.isEmpty_nil, if_true, SaveRestore.Spec.Every]
    repeat' (first | exact trivial | refine And.intro ?_ ?_)
    all_goals
      intro a ha
      cases ha
      refine ⟨fun _ => by simp [arrOps, exL], ?_⟩
      first
      | exact fun _ t ht => by cases ht; rfl
      | exact fun h => absurd h (by decide)
  unpartitioned h := by cases h
  target _ := by simp [exStore, whole, Dict.keys]
  fns f h := by cases h

/-- Gradients that depend on the parameters and on the batch. -/
noncomputable def exTr : Train.Cfg ℝ (Dict (NDArray ℝ)) Grads (Dict (PState ℝ)) Unit Unit Nat where
  lossGrad p b _ mu := ([("loss".toList, .avgStep 1 1)], mu, fun k i => ((arrayAt p k).elim 0 fun x => x.get i) + (b.map fun x => x.2.sum).sum)
  update := exA.update
  lr n := 1 / (n + 1)
  foldIn r _ := r
  split r := (r, r)
  baseRng := ()
  microbatches := none
  weightMetrics _ _ _ := []

theorem exPrepared (x y : ℝ) : Prepared (exStore x y) exL exA (exU x y) exTr (exP x y) exO none where
  ops := ⟨2, 3, rfl⟩
  layout _ := ⟨rfl, by simp [exL]⟩
  setup := exSetup x y
  template := ⟨rfl, rfl, rfl⟩
  like := ⟨_, rfl, rfl⟩
  update := rfl
  mutables0 := List.Forall₂.nil
  mutables _ _ _ _ h := h

theorem exRun (x y : ℝ) : ∀ k, ∃ s, Train.Spec.run (Train.trainStep exTr) ⟨0, exP x y, exO, none⟩ (batches TrainedJob.exPipe 0 TrainedJob.exGlue 2 k) = .ok s := by
  have : ∀ (bs : List (Nat → Option Nat)) (s : Train.State (Dict (NDArray ℝ)) (Dict (PState ℝ)) Unit),
      ∃ s', Train.Spec.run (Train.trainStep exTr) s (bs.map TrainedJob.exGlue) = .ok s' := by
    intro bs
    induction bs with
    | nil => exact fun s => ⟨s, rfl⟩
    | cons b bs ih =>
      intro s
      obtain ⟨s1, v, h⟩ : ∃ s1 v, Train.trainStep exTr s (TrainedJob.exGlue b) = .ok (s1, v) := ⟨_, _, rfl⟩
      obtain ⟨s', h'⟩ := ih s1
      refine ⟨s', ?_⟩
      simp only [List.map_cons, Train.Spec.run, h]
      exact h'
  intro k
  have h := this ((List.range k).map fun i s => if s < 2 then some (TrainedJob.exPipe.out (TrainedJob.exPipe.next^[i] (TrainedJob.exPipe.init 0 s 2))) else none)
    ⟨0, exP x y, exO, none⟩
  rw [List.map_map] at h
  exact h

/-- A job that is killed twice. -/
example (x y : ℝ) (l : TrainJob.Live (Train.State (Dict (NDArray ℝ)) (Dict (PState ℝ)) Unit) (Nat × Nat))
    (hl : (TrainJob.job (prog (exStore x y) (comp .plain (exU x y) (codec exL) exTr ⟨0, exP x y, exO, none⟩ TrainedJob.exPipe 0 TrainedJob.exGlue)
      TrainedJob.exTmp) (TrainedJob.exActs _ _)).live = some l) :
    ∃ k, l.m.step = 0 + k ∧ SameParams l.m.params (exP x y) :=
  let ⟨k, h1, _, h3, _⟩ := C128_job (exFine x y) (exPrepared x y) 0
    ⟨fun h => absurd h (by decide), show TsPath.gsPrefix.isPrefixOf "/m".toList = TsPath.gsPrefix.isPrefixOf TrainedJob.exTmp by decide⟩
    (by decide) (exRun x y) (TrainedJob.exActs _ _) (TrainedJob.exActs_ok _) l hl
  ⟨k, h1, h3⟩

/-- The hypotheses of `C128_step`. -/
example (lr : ℝ) (g : Grads) : ∃ p' o', exA.apply lr 7 (exP 3 5) exO g = .ok (p', (8, o')) ∧ SameParams p' (exP 1 2) :=
  let ⟨p', o', h1, h2, _⟩ := C128_step (exSetup 1 2) (exP 3 5) exO ⟨rfl, rfl, rfl, ⟨rfl, rfl, trivial⟩, trivial⟩ (shapes_refl _ _) lr 7 g
  ⟨p', o', h1, h2⟩

/-- Kernels are factored, biases are not. -/
example (x y : ℝ) : (exA.init (exP x y)).toOption.map (fun r => (arrayAt r.2 ["w".toList]).map fun s => (s.vRow.shape, s.vCol.shape, s.v.shape)) =
    some (some ([2], [3], [1])) := rfl

end

end Verif.AdafactorJob
