import Verif.Model.LoadT5x
import Verif.Props.SaveRestore
/- C87: what `load_t5x_checkpoint` gives for a saved checkpoint. -/
namespace Verif.LoadT5x
open Verif.StateDict Verif.SaveRestore Verif.SaveRestore.Spec
open Verif.TsPath (Str)

variable {A T χ : Type} [DecidableEq T]

namespace Spec

/-- No empty dict below the top. -/
def AllFull {α : Type} : Dict α → Prop
  | .nil => True
  | .leaf _ _ r => AllFull r
  | .sub _ d r => d ≠ .nil ∧ AllFull d ∧ AllFull r

/-- The file written by `Checkpointer.save`, without the version. -/
def root {α : Type} (o : Dict α) : Dict α := .sub "optimizer".toList o .nil

end Spec
open Spec OptaxState.Spec

theorem keys_isEmpty {α : Type} (d : Dict α) : d.keys.isEmpty = true ↔ d = .nil := by
  cases d <;> simp [Dict.keys]

theorem mapL_nil_iff {α β : Type} (g : List Key → α → β) (pre : List Key) (d : Dict α) : mapL g pre d = .nil ↔ d = .nil := by
  cases d <;> simp [mapL]

/-- The file of a saved state, once its driver is converted for `D2`, and the arrays found there. -/
theorem saved (O : Ops A T) (hO : Good O) (save : Option T) (D0 D D2 : Str) (hD : TsPath.Spec.Dir D)
    (hk : TsPath.gsPrefix.isPrefixOf D0 = TsPath.gsPrefix.isPrefixOf D) (ax0 : List Key → Bool) (s s0 : Dict (Option A)) (hs : Clean s)
    (h0 : Like (fun _ x y => SameKind O x y ∧ x.map O.dtype = y.map O.dtype) [] s s0)
    (hsave : save = none → ∀ p, p.head? = some "target".toList → ax0 p = true) :
    ∃ o, writeState O save D (parameterInfos O D0 ax0 s0) s = .ok o ∧
      ∀ ws, ws.Perm (writes o) → ∀ dsk, Moved D D2 (disk ws) dsk →
        convert D2 (file o) = .ok (mapL (fun p (x : Option A) => x.map fun a =>
          if ax0 p then .spec ⟨TsPath.getSpec D2 (TsPath.join p), (saveT save p).getD (O.dtype a), O.shape a⟩
          else .val (conv O (saveT save p) a)) [] s) ∧
        ∀ e ∈ leaves [] s, ∀ a, e.2 = some a → ax0 e.1 = true →
          dsk (TsPath.Spec.place D2 (TsPath.dotted (TsPath.join e.1))) = some (conv O (saveT save e.1) a) := by
  obtain ⟨b, es, es0, hR0⟩ := like_base _ [] s s0 h0
  have hR0' : ∀ e ∈ leaves [] b, SameKind O e.2.1 e.2.2 ∧ e.2.1.map O.dtype = e.2.2.map O.dtype := hR0
  have hb : Clean b := by rw [es, clean_mapL] at hs; exact hs
  have hclean := leaves_clean b [] hb (fun k hk => by cases hk)
  subst es0 es
  -- saving
  set gout : List Key → Option A × Option A → Option (Out A T) := fun p x => x.1.map (outOf O save D0 D ax0 p) with hgout
  have hwrite : writeState O save D (parameterInfos O D0 ax0 (mapL (fun _ (x : Option A × Option A) => x.2) [] b))
      (mapL (fun _ (x : Option A × Option A) => x.1) [] b) = .ok (mapL gout [] b) := by
    unfold writeState parameterInfos
    rw [mapL_mapL, keys_all, if_pos rfl]
    refine zipT_mapL _ _ _ _ b b [] hb (fun _ _ => rfl) fun e he => ?_
    obtain ⟨hk1, hk2⟩ := hR0' e he
    obtain ⟨p, x, y⟩ := e
    unfold SameKind at hk1
    cases x with
    | none =>
      cases y with
      | none => rfl
      | some a0 => cases hk1
    | some a =>
      cases y with
      | none => cases hk1
      | some a0 =>
        simp only [Option.map_some, Option.some.injEq] at hk1 hk2
        simp only [stepF, writeLeaf_eq O hO save D0 D hD hk ax0 p a a0 hk1 hk2 (fun h1 h2 => hsave h1 p (of_decide_eq_true h2)), hgout,
          Option.map_some]
  refine ⟨_, hwrite, fun ws hws dsk hmv => ?_⟩
  -- the disk
  have hnodup : ((writes (mapL gout [] b)).map Prod.fst).Nodup := by
    rw [writes_mapL]
    have hnd := leaves_nodup b [] hb
    clear hwrite hws hR0 h0
    have hclean' := hclean
    clear hclean
    generalize leaves [] b = L at hnd hclean' ⊢
    induction L with
    | nil => exact List.nodup_nil
    | cons e l ih =>
      simp only [List.map_cons, List.nodup_cons] at hnd
      have ih' := ih hnd.2 (fun e' he' => hclean' e' (List.mem_cons_of_mem _ he'))
      rw [List.filterMap_cons]
      cases hw : writeOf (gout e.1 e.2) with
      | none => exact ih'
      | some w =>
        simp only [List.map_cons, List.nodup_cons]
        refine ⟨fun hm => ?_, ih'⟩
        obtain ⟨w', hw', hl⟩ := List.mem_map.1 hm
        obtain ⟨e', he', hw''⟩ := List.mem_filterMap.1 hw'
        have hloc : ∀ (e : List Key × Option A × Option A) (w : TsPath.Spec × A), writeOf (gout e.1 e.2) = some w →
            w.1 = TsPath.Spec.place D (TsPath.dotted (TsPath.join e.1)) := by
          intro e w h
          rw [hgout] at h
          simp only at h
          cases hx : e.2.1 with
          | none => rw [hx] at h; cases h
          | some a =>
            rw [hx] at h
            simp only [Option.map_some, outOf] at h
            split_ifs at h
            · simp only [writeOf, Option.some.injEq] at h
              rw [← h]
            · cases h
        rw [hloc e w hw, hloc e' w' hw''] at hl
        refine TsPath.C29_distinct_partial D e'.1 e.1 (hclean' e' (List.mem_cons_of_mem _ he')) (hclean' e (List.mem_cons_self ..)) ?_ hl
        intro heq
        exact hnd.1 (List.mem_map.2 ⟨e', he', heq⟩)
  have hdisk : ∀ e ∈ leaves [] b, ∀ a, e.2.1 = some a → ax0 e.1 = true →
      dsk (TsPath.Spec.place D2 (TsPath.dotted (TsPath.join e.1))) = some (conv O (saveT save e.1) a) := by
    intro e he a ha hx
    rw [hmv _ (TsPath.dotted_no_slash _)]
    refine disk_mem ws ((hws.map Prod.fst).nodup_iff.2 hnodup) _ _ (hws.mem_iff.2 ?_)
    rw [writes_mapL]
    refine List.mem_filterMap.2 ⟨e, he, ?_⟩
    rw [hgout]
    simp only [ha, Option.map_some, outOf, hx, if_true, writeOf]
  -- restoring
  set gfile : List Key → Option A × Option A → Option (FLeaf A T) := fun p x => x.1.map fun a =>
    if ax0 p then .spec ⟨TsPath.getSpec D0 (TsPath.join p), (saveT save p).getD (O.dtype a), O.shape a⟩ else .val (conv O (saveT save p) a)
    with hgfile
  set gconv : List Key → Option A × Option A → Option (FLeaf A T) := fun p x => x.1.map fun a =>
    if ax0 p then .spec ⟨TsPath.getSpec D2 (TsPath.join p), (saveT save p).getD (O.dtype a), O.shape a⟩ else .val (conv O (saveT save p) a)
    with hgconv
  have hfile : file (mapL gout [] b) = mapL gfile [] b := by
    unfold file
    rw [mapL_mapL]
    congr 1
    funext p x
    rw [hgout, hgfile]
    simp only [Option.map_map]
    congr 1
    funext a
    simp only [Function.comp_apply, outOf]
    split_ifs <;> rfl
  have hconvLoc : ∀ name, convertLoc D2 (TsPath.getSpec D0 name) = .ok (TsPath.getSpec D2 name) := by
    intro name
    unfold convertLoc TsPath.getSpec
    by_cases h : TsPath.gsPrefix.isPrefixOf D2 = true
    · rw [if_pos h, if_pos h]
      split_ifs <;> rfl
    · rw [if_neg h, if_neg h]
      split_ifs <;> rfl
  have hconv : convert D2 (mapL gfile [] b) = .ok (mapL gconv [] b) := by
    refine convert_mapL D2 _ _ b [] fun e _ => ?_
    rw [hgfile, hgconv]
    simp only
    cases e.2.1 with
    | none => rfl
    | some a =>
      simp only [Option.map_some]
      split_ifs
      · simp only [convF, hconvLoc]
      · rfl
  refine ⟨?_, ?_⟩
  · rw [hfile, hconv, mapL_mapL]
  · intro e he a ha hx
    rw [leaves_mapL] at he
    obtain ⟨e', he', rfl⟩ := List.mem_map.1 he
    exact hdisk e' he' a ha hx

theorem allFull_mapL {α β : Type} (g : List Key → α → β) (pre : List Key) (d : Dict α) : AllFull (mapL g pre d) ↔ AllFull d := by
  induction d generalizing pre with
  | nil => rfl
  | leaf k a r ih => simp only [mapL, AllFull, ih]
  | sub k d r ihd ih => simp only [mapL, AllFull, ih, ihd, ne_eq, mapL_nil_iff]

theorem lazyTree_mapL (f : FLeaf A T → Lazy A T) (g : List Key → χ → Option (FLeaf A T)) (pre : List Key) (b : Dict χ) (hb : AllFull b) :
    lazyTree f (mapL g pre b) = .ok (mapL (fun p x => (g p x).map f) pre b) := by
  induction b generalizing pre with
  | nil => rfl
  | leaf k x r ih =>
    simp only [mapL]
    cases g (pre ++ [k]) x with
    | none => simp only [lazyTree, ih pre hb, Option.map_none]
    | some y => simp only [lazyTree, ih pre hb, Option.map_some]
  | sub k d r ihd ih =>
    have : ¬ (mapL g (pre ++ [k]) d).keys.isEmpty = true := by rw [keys_isEmpty, mapL_nil_iff]; exact hb.1
    simp only [mapL, lazyTree, ih pre hb.2.2, ihd _ hb.2.1, this, if_false]
    rfl

theorem lazyTree_empty (f : FLeaf A T → Lazy A T) (d : Dict (Option (FLeaf A T))) : ¬ AllFull d → lazyTree f d = .error .attribute := by
  have herr : ∀ d : Dict (Option (FLeaf A T)), (∃ l, lazyTree f d = .ok l) ∨ lazyTree f d = .error .attribute := by
    intro d
    induction d with
    | nil => exact Or.inl ⟨_, rfl⟩
    | leaf k x r ih =>
      cases x with
      | none => rcases ih with ⟨l, h⟩ | h <;> simp [lazyTree, h]
      | some x => rcases ih with ⟨l, h⟩ | h <;> simp [lazyTree, h]
    | sub k d r ihd ih =>
      simp only [lazyTree]
      split_ifs
      · exact Or.inr rfl
      · rcases ihd with ⟨l, h⟩ | h <;> rcases ih with ⟨l', h'⟩ | h' <;> simp [h, h']
  induction d with
  | nil => intro h; exact absurd trivial h
  | leaf k x r ih =>
    intro h
    cases x with
    | none => simp only [lazyTree, ih h]
    | some x => simp only [lazyTree, ih h]
  | sub k d r ihd ih =>
    intro h
    simp only [lazyTree]
    split_ifs with he
    · rfl
    · by_cases hd : AllFull d
      · have hr : ¬ AllFull r := fun hr => h ⟨fun hn => he ((keys_isEmpty d).2 hn), hd, hr⟩
        rcases herr d with ⟨l, h1⟩ | h1 <;> simp only [h1, ih hr]
      · simp only [ihd hd]

def fetchF (O : Ops A T) : Option (Lazy A T) → Except Err (Option A)
  | none => .ok none
  | some l => match l.get O with
    | .ok a => .ok (some a)
    | .error e => .error e

theorem fetchAll_mapL (O : Ops A T) (g : List Key → χ → Option (Lazy A T)) (gr : List Key → χ → Option A) (pre : List Key) (b : Dict χ)
    (h : ∀ e ∈ leaves pre b, fetchF O (g e.1 e.2) = .ok (gr e.1 e.2)) : fetchAll O (mapL g pre b) = .ok (mapL gr pre b) := by
  induction b generalizing pre with
  | nil => rfl
  | leaf k x r ih =>
    have hr := ih pre fun e he => h e (List.mem_cons_of_mem _ he)
    have hx := h (pre ++ [k], x) (List.mem_cons_self ..)
    simp only [mapL] at hx ⊢
    cases h1 : g (pre ++ [k]) x with
    | none =>
      rw [h1] at hx
      simp only [fetchAll, hr, ← Except.ok.inj hx]
    | some l =>
      rw [h1] at hx
      simp only [fetchF] at hx
      cases h2 : l.get O with
      | error e => rw [h2] at hx; cases hx
      | ok a =>
        rw [h2] at hx
        simp only [fetchAll, h2, hr, ← Except.ok.inj hx]
  | sub k d r ihd ih =>
    have hr := ih pre fun e he => h e (List.mem_append_right _ he)
    have hdd := ihd (pre ++ [k]) fun e he => h e (List.mem_append_left _ he)
    simp only [mapL, fetchAll, hr, hdd]

/-- Every leaf of the tree satisfies a property: then a function that is the identity on such leaves changes nothing. -/
theorem mapL_id {α : Type} (g : List Key → α → α) (pre : List Key) (d : Dict α) (h : ∀ e ∈ leaves pre d, g e.1 e.2 = e.2) : mapL g pre d = d := by
  induction d generalizing pre with
  | nil => rfl
  | leaf k x r ih =>
    rw [mapL, ih pre fun e he => h e (List.mem_cons_of_mem _ he), h (pre ++ [k], x) (List.mem_cons_self ..)]
  | sub k d r ihd ih =>
    rw [mapL, ih pre fun e he => h e (List.mem_append_right _ he), ihd _ fun e he => h e (List.mem_append_left _ he)]

theorem lazyTree_leaf (f : FLeaf A T → Lazy A T) (d : Dict (Option (FLeaf A T))) (l : Dict (Option (Lazy A T))) (h : lazyTree f d = .ok l) :
    l.keys = d.keys ∧ ∀ pre, ∀ e ∈ leaves pre l, ∀ y, e.2 = some y → ∃ x, y = f x := by
  induction d generalizing l with
  | nil => cases h; exact ⟨rfl, fun pre e he => by cases he⟩
  | leaf k x r ih =>
    cases x with
    | none =>
      simp only [lazyTree] at h
      cases hr : lazyTree f r with
      | error e => rw [hr] at h; cases h
      | ok r' =>
        rw [hr] at h
        cases h
        obtain ⟨h1, h2⟩ := ih r' hr
        refine ⟨by simp only [Dict.keys, h1], fun pre e he y hy => ?_⟩
        rcases List.mem_cons.1 he with rfl | he
        · cases hy
        · exact h2 pre e he y hy
    | some x =>
      simp only [lazyTree] at h
      cases hr : lazyTree f r with
      | error e => rw [hr] at h; cases h
      | ok r' =>
        rw [hr] at h
        cases h
        obtain ⟨h1, h2⟩ := ih r' hr
        refine ⟨by simp only [Dict.keys, h1], fun pre e he y hy => ?_⟩
        rcases List.mem_cons.1 he with rfl | he
        · exact ⟨x, (Option.some.inj hy).symm⟩
        · exact h2 pre e he y hy
  | sub k d r ihd ih =>
    simp only [lazyTree] at h
    split_ifs at h with he
    cases hd : lazyTree f d with
    | error e => rw [hd] at h; cases h
    | ok d' =>
      cases hr : lazyTree f r with
      | error e => rw [hd, hr] at h; cases h
      | ok r' =>
        rw [hd, hr] at h
        cases h
        obtain ⟨h1, h2⟩ := ih r' hr
        obtain ⟨_, h4⟩ := ihd d' hd
        refine ⟨by simp only [Dict.keys, h1], fun pre e he y hy => ?_⟩
        rcases List.mem_append.1 he with he | he
        · exact h4 _ e he y hy
        · exact h2 pre e he y hy

theorem fetchAll_leaf (O : Ops A T) (l : Dict (Option (Lazy A T))) (r : Dict (Option A)) (h : fetchAll O l = .ok r) :
    r.keys = l.keys ∧ ∀ pre, ∀ e ∈ leaves pre r, ∀ a, e.2 = some a → ∃ y, (e.1, some y) ∈ leaves pre l ∧ y.get O = .ok a := by
  induction l generalizing r with
  | nil => cases h; exact ⟨rfl, fun pre e he => by cases he⟩
  | leaf k x q ih =>
    cases x with
    | none =>
      simp only [fetchAll] at h
      cases hr : fetchAll O q with
      | error e => rw [hr] at h; cases h
      | ok r' =>
        rw [hr] at h
        cases h
        obtain ⟨h1, h2⟩ := ih r' hr
        refine ⟨by simp only [Dict.keys, h1], fun pre e he a ha => ?_⟩
        rcases List.mem_cons.1 he with rfl | he
        · cases ha
        · obtain ⟨y, h3, h4⟩ := h2 pre e he a ha
          exact ⟨y, List.mem_cons_of_mem _ h3, h4⟩
    | some x =>
      simp only [fetchAll] at h
      cases hx : x.get O with
      | error e => rw [hx] at h; cases h
      | ok v =>
        cases hr : fetchAll O q with
        | error e => rw [hx, hr] at h; cases h
        | ok r' =>
          rw [hx, hr] at h
          cases h
          obtain ⟨h1, h2⟩ := ih r' hr
          refine ⟨by simp only [Dict.keys, h1], fun pre e he a ha => ?_⟩
          rcases List.mem_cons.1 he with rfl | he
          · cases ha
            exact ⟨x, List.mem_cons_self .., hx⟩
          · obtain ⟨y, h3, h4⟩ := h2 pre e he a ha
            exact ⟨y, List.mem_cons_of_mem _ h3, h4⟩
  | sub k d q ihd ih =>
    simp only [fetchAll] at h
    cases hd : fetchAll O d with
    | error e => rw [hd] at h; cases h
    | ok d' =>
      cases hr : fetchAll O q with
      | error e => rw [hd, hr] at h; cases h
      | ok r' =>
        rw [hd, hr] at h
        cases h
        obtain ⟨h1, h2⟩ := ih r' hr
        obtain ⟨_, h4⟩ := ihd d' hd
        refine ⟨by simp only [Dict.keys, h1], fun pre e he a ha => ?_⟩
        rcases List.mem_append.1 he with he | he
        · obtain ⟨y, h5, h6⟩ := h4 _ e he a ha
          exact ⟨y, List.mem_append_left _ h5, h6⟩
        · obtain ⟨y, h5, h6⟩ := h2 pre e he a ha
          exact ⟨y, List.mem_append_right _ h5, h6⟩

theorem castTo_dtype (O : Ops A T) (hO : Good O) (t : T) (a : A) : O.dtype (castTo O (some t) a) = t := by
  rw [castTo_some O hO, hO.dtype]

/-- The lazy arrays already have the dtype asked for. -/
theorem castTarget_lazy (O : Ops A T) (rest : Option T) (dir : Str) (dsk : TsPath.Spec → Option A) (d : Dict (Option (FLeaf A T)))
    (l : Dict (Option (Lazy A T))) (h : lazyTree (lazyOf O rest dir dsk) d = .ok l) (c : T → Lazy A T → Lazy A T)
    (hc : ∀ t y, y.dtype = t → c t y = y) :
    castTarget c rest l = if rest.isNone || d.keys.contains "target".toList then .ok l else .error .keyError := by
  obtain ⟨h1, h2⟩ := lazyTree_leaf _ d l h
  cases rest with
  | none => rfl
  | some t =>
    simp only [castTarget, h1, Option.isNone_some, Bool.false_or]
    split_ifs with hk
    · congr 1
      refine mapL_id _ _ _ fun e he => ?_
      split_ifs
      · cases hx : e.2 with
        | none => rfl
        | some y =>
          obtain ⟨x, rfl⟩ := h2 [] e he y hx
          rw [Option.map_some, hc t _ rfl]
      · rfl
    · rfl

/-- Nor is anything left to cast once the arrays have been fetched. -/
theorem castTarget_eager (O : Ops A T) (hO : Good O) (rest : Option T) (dir : Str) (dsk : TsPath.Spec → Option A)
    (d : Dict (Option (FLeaf A T))) (l : Dict (Option (Lazy A T))) (h : lazyTree (lazyOf O rest dir dsk) d = .ok l) (r : Dict (Option A))
    (hr : fetchAll O l = .ok r) :
    castTarget (fun t a => castTo O (some t) a) rest r = if rest.isNone || d.keys.contains "target".toList then .ok r else .error .keyError := by
  obtain ⟨h1, h2⟩ := lazyTree_leaf _ d l h
  obtain ⟨h3, h4⟩ := fetchAll_leaf O l r hr
  cases rest with
  | none => rfl
  | some t =>
    simp only [castTarget, h3, h1, Option.isNone_some, Bool.false_or]
    split_ifs with hk
    · congr 1
      refine mapL_id _ _ _ fun e he => ?_
      split_ifs
      · cases hx : e.2 with
        | none => rfl
        | some a =>
          obtain ⟨y, h5, h6⟩ := h4 [] e he a hx
          obtain ⟨x, rfl⟩ := h2 [] _ h5 y rfl
          have ha : O.dtype a = t := by
            simp only [Lazy.get, lazyOf, Option.getD_some] at h6
            cases h7 : readTs O (some t) dir dsk x with
            | error e => rw [h7] at h6; cases h6
            | ok v =>
              rw [h7] at h6
              cases h6
              exact castTo_dtype O hO t v
          simp only [Option.map_some, castTo, ha, if_true]
      · rfl
    · rfl

/-- **C87**: reading the arrays of a lazily loaded checkpoint later gives what loading it at once gives; and what can be loaded at once can be
loaded lazily. -/
theorem C87_lazy (O : Ops A T) (hO : Good O) (rest : Option T) (remap : Bool)
    (trans : List (Dict (Option (FLeaf A T)) → Except LErr (Dict (Option (FLeaf A T))))) (dir : Str) (dsk : TsPath.Spec → Option A) (v : Nat)
    (f : Dict (Option (FLeaf A T))) :
    (∀ l, loadLazy O rest remap trans dir dsk v f = .ok l → load O rest remap trans dir dsk v f = fetchAll O l) ∧
    ∀ r, load O rest remap trans dir dsk v f = .ok r → ∃ l, loadLazy O rest remap trans dir dsk v f = .ok l ∧ fetchAll O l = .ok r := by
  unfold loadLazy load
  cases convert dir f with
  | error e => exact ⟨fun l h => (by cases h), fun r h => by cases h⟩
  | ok root =>
    simp only
    cases select remap v trans root with
    | error e => exact ⟨fun l h => (by cases h), fun r h => by cases h⟩
    | ok d =>
      simp only
      cases hl : lazyTree (lazyOf O rest dir dsk) d with
      | error e => exact ⟨fun l h => (by cases h), fun r h => by cases h⟩
      | ok l =>
        simp only
        rw [castTarget_lazy O rest dir dsk d l hl _ (fun t y hy => if_pos hy)]
        cases hr : fetchAll O l with
        | error e =>
          refine ⟨fun l' h => ?_, fun r h => by cases h⟩
          split_ifs at h with hk
          cases h
          exact hr.symm
        | ok r =>
          simp only
          rw [castTarget_eager O hO rest dir dsk d l hl r hr]
          refine ⟨fun l' h => ?_, fun r' h => ?_⟩
          · split_ifs at h with hk
            cases h
            rw [if_pos hk, hr]
          · split_ifs at h with hk
            cases h
            exact ⟨l, by rw [if_pos hk], hr⟩

theorem select_root (remap : Bool) (v : Nat) (hv : 2 ≤ v) (trans : List (Dict (Option (FLeaf A T)) → Except LErr (Dict (Option (FLeaf A T)))))
    (ht : remap = true → trans = []) (d : Dict (Option (FLeaf A T))) : select remap v trans (root d) = .ok d := by
  unfold select
  have hg : (root d).get "optimizer".toList = some (.dict d) := by simp only [root, Dict.get, if_true]
  cases remap with
  | true => rw [if_pos rfl, if_neg (by omega), hg, ht rfl]; rfl
  | false => rw [if_neg (by simp), if_neg (by omega), hg]

theorem convert_root (dir : Str) (d d' : Dict (Option (FLeaf A T))) (h : convert dir d = .ok d') : convert dir (root d) = .ok (root d') := by
  simp only [root, convert, h]

/-- **C87**: loading, without a model, what `Checkpointer.save` has written, from wherever the files have been moved to, gives the saved tree: same
entries, the parameters cast to the save dtype; and if a restore dtype is given, *every* array cast to it. -/
theorem C87_load (O : Ops A T) (hO : Good O) (save rest : Option T) (D0 D D2 : Str) (hD : TsPath.Spec.Dir D) (hD2 : TsPath.Spec.Dir D2)
    (hk : TsPath.gsPrefix.isPrefixOf D0 = TsPath.gsPrefix.isPrefixOf D) (ax0 : List Key → Bool) (s s0 : Dict (Option A)) (hs : Clean s)
    (hne : AllFull s) (h0 : Like (fun _ x y => SameKind O x y ∧ x.map O.dtype = y.map O.dtype) [] s s0)
    (hu : Every (fun p x => ∀ a, x = some a → ax0 p = true →
      O.dtype (conv O (if p.head? = some "target".toList then save else none) a) ≠ O.u16) [] s)
    (hsave : save = none → ∀ p, p.head? = some "target".toList → ax0 p = true) (hrest : rest ≠ none → "target".toList ∈ s.keys)
    (remap : Bool) (trans : List (Dict (Option (FLeaf A T)) → Except LErr (Dict (Option (FLeaf A T))))) (htr : remap = true → trans = []) :
    ∃ o, writeState O save D (parameterInfos O D0 ax0 s0) s = .ok o ∧
      ∀ ws, ws.Perm (writes o) → ∀ dsk, Moved D D2 (disk ws) dsk →
        ∃ r, load O rest remap trans D2 dsk 3 (root (file o)) = .ok r ∧
          Like (fun p x y => y = x.map fun a => conv O rest (conv O (if p.head? = some "target".toList then save else none) a)) [] s r := by
  obtain ⟨o, h1, h2⟩ := saved O hO save D0 D D2 hD hk ax0 s s0 hs h0 hsave
  refine ⟨o, h1, fun ws hws dsk hm => ?_⟩
  obtain ⟨h3, h4⟩ := h2 ws hws dsk hm
  have hsT : ∀ p : List Key, (if p.head? = some "target".toList then save else none) = saveT save p := by
    intro p
    unfold saveT isTarget
    by_cases h : p.head? = some "target".toList
    · rw [if_pos h, if_pos (decide_eq_true h)]
    · rw [if_neg h, if_neg (fun hc => h (of_decide_eq_true hc))]
  simp only [hsT] at hu ⊢
  have hu' : ∀ e ∈ leaves [] s, ∀ a, e.2 = some a → ax0 e.1 = true → O.dtype (conv O (saveT save e.1) a) ≠ O.u16 := by
    have := every_mapL (fun p x => ∀ a, x = some a → ax0 p = true → O.dtype (conv O (saveT save p) a) ≠ O.u16) (fun _ (x : Option A) => x) [] s
      (by rw [mapL_id _ _ _ (fun _ _ => rfl)]; exact hu)
    exact this
  have hdt : ∀ p a, (saveT save p).getD (O.dtype a) = O.dtype (conv O (saveT save p) a) := by
    intro p a
    cases saveT save p with
    | none => rfl
    | some t => exact (hO.dtype t a).symm
  set gres : List Key → Option A → Option A := fun p x => x.map fun a => conv O rest (conv O (saveT save p) a) with hgres
  set gconv : List Key → Option A → Option (FLeaf A T) := fun p x => x.map fun a =>
    if ax0 p then .spec ⟨TsPath.getSpec D2 (TsPath.join p), (saveT save p).getD (O.dtype a), O.shape a⟩ else .val (conv O (saveT save p) a)
    with hgconv
  have hl : lazyTree (lazyOf O rest D2 dsk) (mapL gconv [] s) = .ok (mapL (fun p x => (gconv p x).map (lazyOf O rest D2 dsk)) [] s) :=
    lazyTree_mapL _ _ _ _ hne
  have hf : fetchAll O (mapL (fun p x => (gconv p x).map (lazyOf O rest D2 dsk)) [] s) = .ok (mapL gres [] s) := by
    refine fetchAll_mapL O _ _ _ _ fun e he => ?_
    have hd := h4 e he
    have hue := hu' e he
    obtain ⟨p, x⟩ := e
    simp only at hd hue ⊢
    cases x with
    | none => rfl
    | some a =>
      rw [hgconv, hgres]
      simp only [Option.map_some, fetchF]
      by_cases hx : ax0 p = true
      · have hne : (saveT save p).getD (O.dtype a) ≠ O.u16 := by rw [hdt]; exact hue a rfl hx
        simp only [hx, if_true, Lazy.get, lazyOf, readTs, TsPath.C29_write_place D2 _ hD2, hne, if_false, hd a rfl hx]
        cases rest with
        | none => simp only [Option.getD_none, hdt, castTo, if_true, conv]
        | some t => simp only [Option.getD_some, castTo, hO.dtype, if_true, conv]
      · simp only [hx, if_false, Bool.false_eq_true, Lazy.get, lazyOf, readTs]
        cases rest with
        | none => simp only [Option.getD_none, castTo, if_true, conv]
        | some t => simp only [Option.getD_some, castTo_some O hO, conv]
  refine ⟨mapL gres [] s, ?_, ?_⟩
  · unfold load
    rw [convert_root _ _ _ h3]
    simp only [select_root remap 3 (by omega) trans htr, hl, hf]
    rw [castTarget_eager O hO rest D2 dsk _ _ hl _ hf, keys_mapL, if_pos]
    cases rest with
    | none => rfl
    | some t => simp only [Option.isNone_some, Bool.false_or]; exact List.contains_iff_mem.2 (hrest (by simp))
  · have := like_mapL (fun p (x y : Option A) => y = x.map fun a => conv O rest (conv O (saveT save p) a)) (fun _ (x : Option A) => x) gres [] s
      (fun e _ => rfl)
    rw [mapL_id _ _ _ (fun _ _ => rfl)] at this
    exact this

/-- **C87**: a checkpoint of a state with an empty dict can be written, but not loaded without a
model, lazily or not. -/
theorem C87_empty (O : Ops A T) (hO : Good O) (save rest : Option T) (D0 D D2 : Str) (hD : TsPath.Spec.Dir D)
    (hk : TsPath.gsPrefix.isPrefixOf D0 = TsPath.gsPrefix.isPrefixOf D) (ax0 : List Key → Bool) (s s0 : Dict (Option A)) (hs : Clean s)
    (hne : ¬ AllFull s) (h0 : Like (fun _ x y => SameKind O x y ∧ x.map O.dtype = y.map O.dtype) [] s s0)
    (hsave : save = none → ∀ p, p.head? = some "target".toList → ax0 p = true) (remap : Bool) :
    ∃ o, writeState O save D (parameterInfos O D0 ax0 s0) s = .ok o ∧
      ∀ ws, ws.Perm (writes o) → ∀ dsk, Moved D D2 (disk ws) dsk →
        load O rest remap [] D2 dsk 3 (root (file o)) = .error .attribute ∧ loadLazy O rest remap [] D2 dsk 3 (root (file o)) = .error .attribute := by
  obtain ⟨o, h1, h2⟩ := saved O hO save D0 D D2 hD hk ax0 s s0 hs h0 hsave
  refine ⟨o, h1, fun ws hws dsk hm => ?_⟩
  obtain ⟨h3, _⟩ := h2 ws hws dsk hm
  unfold load loadLazy
  rw [convert_root _ _ _ h3]
  simp only [select_root remap 3 (by omega) [] (fun _ => rfl)]
  rw [lazyTree_empty _ _ (by rw [allFull_mapL]; exact hne)]
  exact ⟨rfl, rfl⟩

/-- **C87**: versions.  With remapping, files of a version below 2 are refused.  Without, a file without version is read as the state itself. -/
theorem C87_versions (O : Ops A T) (rest : Option T) (trans : List (Dict (Option (FLeaf A T)) → Except LErr (Dict (Option (FLeaf A T)))))
    (dir : Str) (dsk : TsPath.Spec → Option A) (d : Dict (Option (FLeaf A T))) :
    (∀ v, v < 2 → ∀ d', convert dir d = .ok d' → load O rest true trans dir dsk v d = .error .version) ∧
    load O rest false trans dir dsk 0 d = load O rest false [] dir dsk 3 (root d) ∧
    ∀ v, v ≠ 0 → load O rest false trans dir dsk v d = load O rest false [] dir dsk 3 d := by
  refine ⟨?_, ?_, ?_⟩
  · intro v hv d' h
    unfold load
    rw [h]
    simp only [select, if_true, hv]
  · unfold load
    simp only [root, convert]
    cases convert dir d with
    | error e => rfl
    | ok d' =>
      simp only
      rw [show select false 0 trans d' = .ok d' from rfl, show select false 3 [] (.sub "optimizer".toList d' .nil) = .ok d' from
        select_root false 3 (by omega) [] (fun h => by cases h) d']
  · intro v hv
    unfold load
    simp only [select, Bool.false_eq_true, if_false, hv, show (3 : Nat) ≠ 0 by omega]

/-- **C87**: with remapping, the transformations are applied one after the other, to the state in the file. -/
theorem C87_transform (O : Ops A T) (rest : Option T) (f : Dict (Option (FLeaf A T)) → Except LErr (Dict (Option (FLeaf A T))))
    (fs : List (Dict (Option (FLeaf A T)) → Except LErr (Dict (Option (FLeaf A T))))) (dir : Str) (dsk : TsPath.Spec → Option A) (v : Nat) (hv : 2 ≤ v)
    (d d' d1 : Dict (Option (FLeaf A T))) (h : convert dir d = .ok d') (h1 : f d' = .ok d1) (h2 : convert dir d1 = .ok d1) :
    load O rest true (f :: fs) dir dsk v (root d) = load O rest true fs dir dsk v (root d1) := by
  unfold load
  rw [convert_root _ _ _ h, convert_root _ _ _ h2]
  have hg : ∀ d : Dict (Option (FLeaf A T)), (root d).get "optimizer".toList = some (.dict d) := fun d => by simp only [root, Dict.get, if_true]
  have : ¬ v < 2 := by omega
  simp only [select, if_true, this, if_false, hg, List.foldl_cons, h1]

/-! ### Witnesses -/

/-- A state with a float32 parameter (dtype 0), an accumulator, a `None` and a step (dtype 5). -/
def exState (v : Nat) : Dict (Option (List Nat × Nat × Nat)) :=
  .sub "target".toList (.leaf "w".toList (some ([4, 2], 0, v)) .nil)
    (.sub "state".toList (.leaf "step".toList (some ([], 5, v + 1)) (.sub "param_states".toList
      (.leaf "w".toList (some ([4], 0, v + 2)) (.leaf "frozen".toList none .nil)) .nil)) .nil)

def exAxes (p : List Key) : Bool := p.getLast? ≠ some "step".toList

/-- The hypotheses of `C87_load` are met: saved as bfloat16 (1), moved to a bucket, loaded as it is. -/
example : ∃ o, writeState exOps (some 1) "/m/c.tmp".toList (parameterInfos exOps "/m".toList exAxes (exState 0)) (exState 10) = .ok o ∧
    ∀ ws, ws.Perm (writes o) → ∀ dsk, Moved "/m/c.tmp".toList "gs://b/c".toList (disk ws) dsk →
      ∃ r, load exOps none true [] "gs://b/c".toList dsk 3 (root (file o)) = .ok r ∧
        Like (fun p x y => y = x.map fun a => conv exOps none (conv exOps (if p.head? = some "target".toList then some 1 else none) a)) []
          (exState 10) r :=
  C87_load exOps exOps_good (some 1) none "/m".toList "/m/c.tmp".toList "gs://b/c".toList (fun h => absurd h (by decide)) (fun _ => by decide)
    (by decide) exAxes (exState 10) (exState 0)
    (by simp only [exState, Clean]; repeat' (first | exact trivial | refine And.intro ?_ ?_ | decide))
    ⟨by simp, trivial, by simp, ⟨by simp, trivial, trivial⟩, trivial⟩
    (by simp only [exState, Like, SameKind]; decide)
    (by
      simp only [exState, Every]
      refine ⟨⟨?_, trivial⟩, ⟨?_, ⟨⟨?_, ⟨?_, trivial⟩⟩, trivial⟩⟩, trivial⟩ <;>
        · intro a ha _
          cases ha <;> decide)
    (fun h => by cases h) (fun h => absurd rfl h) true [] (fun _ => rfl)

/-- What restoring dtype does: `restore_dtype` is documented as the dtype for the target parameters.  With a model, `Checkpointer.restore` keeps the step
and the accumulators as they are; without one, they are cast. -/
theorem C87_casts_everything : ∃ o r r', writeState exOps (some 0) "/m/c".toList (parameterInfos exOps "/m".toList exAxes (exState 10)) (exState 10) = .ok o ∧
    restore exOps (some 1) true "/m/c".toList (disk (writes o)) (parameterInfos exOps "/m".toList exAxes (exState 10)) (file o) = .ok r ∧
    load exOps (some 1) true [] "/m/c".toList (disk (writes o)) 3 (root (file o)) = .ok r' ∧
    arrayAt r ["target".toList, "w".toList] = some (some ([4, 2], 1, 10)) ∧ arrayAt r' ["target".toList, "w".toList] = some (some ([4, 2], 1, 10)) ∧
    arrayAt r ["state".toList, "step".toList] = some (some ([], 5, 11)) ∧ arrayAt r' ["state".toList, "step".toList] = some (some ([], 1, 11)) ∧
    arrayAt r ["state".toList, "param_states".toList, "w".toList] = some (some ([4], 0, 12)) ∧
    arrayAt r' ["state".toList, "param_states".toList, "w".toList] = some (some ([4], 1, 12)) :=
  ⟨_, _, _, rfl, rfl, rfl, by decide, by decide, by decide, by decide, by decide, by decide⟩

/-- The state of `Verif.SaveRestore.exState`, which `C64_round_trip` restores, has an empty dict: `C87_empty` applies. -/
example : ∃ o, writeState exOps (some 1) "/m/c".toList (parameterInfos exOps "/m".toList exAxes (SaveRestore.exState 10)) (SaveRestore.exState 10) = .ok o ∧
    ∀ ws, ws.Perm (writes o) → ∀ dsk, Moved "/m/c".toList "/m/c".toList (disk ws) dsk →
      load exOps none true [] "/m/c".toList dsk 3 (root (file o)) = .error .attribute ∧
      loadLazy exOps none true [] "/m/c".toList dsk 3 (root (file o)) = .error .attribute :=
  C87_empty exOps exOps_good (some 1) none "/m".toList "/m/c".toList "/m/c".toList (fun h => absurd h (by decide)) (by decide) exAxes
    (SaveRestore.exState 10) (SaveRestore.exState 10)
    (by simp only [SaveRestore.exState, Clean]; repeat' (first | exact trivial | refine And.intro ?_ ?_ | decide))
    (fun h => h.2.2.2.1.2.1.1 rfl)
    (by simp only [SaveRestore.exState, Like, SameKind]; decide) (fun h => by cases h) true

/-- `C87_lazy`, `C87_versions` and `C87_transform` on a file with one value: without remapping, as version 0, and with a transformation that renames. -/
def exFile : Dict (Option (FLeaf (List Nat × Nat × Nat) Nat)) := .sub "target".toList (.leaf "w".toList (some (.val ([], 0, 7))) .nil) .nil

example : (∃ l, loadLazy exOps (some 1) false [] "/m".toList (fun _ => none) 0 exFile = .ok l ∧
      fetchAll exOps l = .ok (.sub "target".toList (.leaf "w".toList (some ([], 1, 7)) .nil) .nil)) ∧
    load exOps none true [] "/m".toList (fun _ => none) 1 exFile = .error .version ∧
    load exOps none true [fun _ => .ok (.leaf "v".toList (some (.val ([], 0, 7))) .nil)] "/m".toList (fun _ => none) 3 (root exFile) =
      .ok (.leaf "v".toList (some ([], 0, 7)) .nil) ∧
    load exOps (some 1) true [fun _ => .ok (.leaf "v".toList (some (.val ([], 0, 7))) .nil)] "/m".toList (fun _ => none) 3 (root exFile) =
      .error .keyError :=
  ⟨⟨_, rfl, rfl⟩, rfl, rfl, rfl⟩

end Verif.LoadT5x
