import Verif.Lemmas.SaveRestore
import Verif.Spec.OptaxState
/- C64: a saved train state is restored as it was. -/
namespace Verif.SaveRestore
open Verif.StateDict Spec
open Verif.TsPath (Str)

variable {A T χ : Type} [DecidableEq T]

theorem like_of_mapL {α β : Type} (R : List Key → α → β → Prop) (g : List Key → χ → α) (pre : List Key) (b : Dict χ) (t : Dict β)
    (h : Like R pre (mapL g pre b) t) : Like (fun p x y => R p (g p x) y) pre b t := by
  induction b generalizing pre t with
  | nil => cases t <;> exact h
  | leaf k x r ih =>
    cases t with
    | nil => exact h
    | leaf k' y r' => exact ⟨h.1, h.2.1, ih _ _ h.2.2⟩
    | sub => exact h
  | sub k d r ihd ih =>
    cases t with
    | nil => exact h
    | leaf => exact h
    | sub k' d' r' => exact ⟨h.1, ihd _ _ h.2.1, ih _ _ h.2.2⟩

theorem castTo_some (O : Ops A T) (hO : Good O) (t : T) (a : A) : castTo O (some t) a = O.cast t a := by
  simp only [castTo]
  split_ifs with h
  · rw [← h, hO.same]
  · rfl

/-- The dtype a parameter is cast to when saved. -/
def saveT (save : Option T) (p : List Key) : Option T := if isTarget p then save else none

/-- What is left behind for one leaf. -/
def outOf (O : Ops A T) (save : Option T) (D0 D : Str) (ax : List Key → Bool) (p : List Key) (a : A) : Out A T :=
  if ax p then .ts ⟨TsPath.getSpec D0 (TsPath.join p), (saveT save p).getD (O.dtype a), O.shape a⟩
    (TsPath.Spec.place D (TsPath.dotted (TsPath.join p))) (conv O (saveT save p) a)
  else .msg (conv O (saveT save p) a)

theorem getSpec_update (D0 D name : Str) (hD : TsPath.Spec.Dir D) (hk : TsPath.gsPrefix.isPrefixOf D0 = TsPath.gsPrefix.isPrefixOf D) :
    TsPath.updatePath D (TsPath.getSpec D0 name) = .ok (TsPath.Spec.place D (TsPath.dotted name)) := by
  rw [← TsPath.C29_write_place D name hD]
  unfold TsPath.getSpec
  rw [hk]

theorem writeLeaf_eq (O : Ops A T) (hO : Good O) (save : Option T) (D0 D : Str) (hD : TsPath.Spec.Dir D)
    (hk : TsPath.gsPrefix.isPrefixOf D0 = TsPath.gsPrefix.isPrefixOf D) (ax : List Key → Bool)
    (p : List Key) (a a0 : A) (hs : O.shape a = O.shape a0) (ht : O.dtype a = O.dtype a0) (hn : save = none → isTarget p = true → ax p = true) :
    writeLeaf O save D p a (paramInfo O D0 ax p (some a0)) = .ok (outOf O save D0 D ax p a) := by
  unfold writeLeaf paramInfo outOf saveT
  by_cases hax : ax p = true
  · simp only [hax, if_true, Option.map_some, Option.bind_some]
    by_cases htg : isTarget p = true
    · simp only [htg, if_true]
      cases save with
      | none => simp only [getSpec_update D0 D _ hD hk, hs, ht, if_true, Option.getD_none, conv]
      | some t => simp only [getSpec_update D0 D _ hD hk, hs, if_true, Option.getD_some, conv]
    · simp only [htg, if_false, getSpec_update D0 D _ hD hk, hs, ht, if_true, Option.getD_none, conv, Bool.false_eq_true]
  · simp only [hax, if_false, Option.map_some, Option.bind_some, Bool.false_eq_true]
    by_cases htg : isTarget p = true
    · simp only [htg, if_true]
      cases save with
      | none => exact absurd (hn rfl htg) hax
      | some t => rw [castTo_some O hO]; rfl
    · simp only [htg, if_false, Bool.false_eq_true]
      rfl

/-- **C64**: a state saved by one checkpointer (built for a state `s0` of the same shapes and dtypes, directory `D0`, partitioning `ax0`) into
directory `D`, whatever the order in which the arrays are written, and restored by another one (built for a state `s1` of the same
shapes, directory `D1`, partitioning `ax1`) from wherever the files have been moved to, is the saved state: same entries, and every
leaf the saved leaf, the parameters cast to the dtypes asked for.

Hypotheses: keys without slash and dot (C29), no uint16 among the partitioned arrays, partitioned arrays still partitioned (or not put on
devices), a save dtype if parameters are not partitioned. -/
theorem C64_round_trip (O : Ops A T) (hO : Good O) (save rest : Option T) (dev : Bool) (D0 D D1 D2 : Str) (hD : TsPath.Spec.Dir D)
    (hD2 : TsPath.Spec.Dir D2) (hk : TsPath.gsPrefix.isPrefixOf D0 = TsPath.gsPrefix.isPrefixOf D) (ax0 ax1 : List Key → Bool)
    (s s0 s1 : Dict (Option A)) (hs : Clean s) (h0 : Like (fun _ x y => SameKind O x y ∧ x.map O.dtype = y.map O.dtype) [] s s0)
    (h1 : Like (fun _ => SameKind O) [] s s1) (hax : ∀ p, ax0 p = true → ax1 p = true ∨ dev = false)
    (hu : Every (fun p x => ∀ a, x = some a → ax0 p = true →
      O.dtype (conv O (if p.head? = some "target".toList then save else none) a) ≠ O.u16) [] s)
    (hsave : save = none → ∀ p, p.head? = some "target".toList → ax0 p = true) (hrest : rest ≠ none → "target".toList ∈ s.keys) :
    ∃ o, writeState O save D (parameterInfos O D0 ax0 s0) s = .ok o ∧
      ∀ ws, ws.Perm (writes o) → ∀ dsk, Moved D D2 (disk ws) dsk →
        ∃ r, restore O rest dev D2 dsk (parameterInfos O D1 ax1 s1) (file o) = .ok r ∧
          Like (fun p x y => y = x.map fun a => if p.head? = some "target".toList then conv O rest (conv O save a) else a) [] s r := by
  obtain ⟨b1, e1, e2, hR0⟩ := like_base _ [] s s0 h0
  rw [e1] at h1
  obtain ⟨b, e3, e4, hR1⟩ := like_base _ [] b1 s1 (like_of_mapL _ _ _ _ _ h1)
  have es : s = mapL (fun _ (x : (Option A × Option A) × Option A) => x.1.1) [] b := by rw [e1, e3, mapL_mapL]
  have es0 : s0 = mapL (fun _ (x : (Option A × Option A) × Option A) => x.1.2) [] b := by rw [e2, e3, mapL_mapL]
  have hR0' : ∀ e ∈ leaves [] b, SameKind O e.2.1.1 e.2.1.2 ∧ e.2.1.1.map O.dtype = e.2.1.2.map O.dtype := by
    intro e he
    have := hR0 (e.1, e.2.1) (by rw [e3, leaves_mapL]; exact List.mem_map.2 ⟨e, he, rfl⟩)
    exact this
  have hb : Clean b := by rw [es, clean_mapL] at hs; exact hs
  have hclean := leaves_clean b [] hb (fun k hk => by cases hk)
  rw [es] at hu hrest
  rw [keys_mapL] at hrest
  have hu' := every_mapL _ _ [] b hu
  subst es0 es e4
  -- saving
  set gout : List Key → (Option A × Option A) × Option A → Option (Out A T) := fun p x => x.1.1.map (outOf O save D0 D ax0 p) with hgout
  have hwrite : writeState O save D (parameterInfos O D0 ax0 (mapL (fun _ (x : (Option A × Option A) × Option A) => x.1.2) [] b))
      (mapL (fun _ (x : (Option A × Option A) × Option A) => x.1.1) [] b) = .ok (mapL gout [] b) := by
    unfold writeState parameterInfos
    rw [mapL_mapL, keys_all, if_pos rfl]
    refine zipT_mapL _ _ _ _ b b [] hb (fun _ _ => rfl) fun e he => ?_
    obtain ⟨hk1, hk2⟩ := hR0' e he
    obtain ⟨p, ⟨x, y⟩, z⟩ := e
    unfold SameKind at hk1
    cases x with
    | none =>
      cases y with
      | none => rfl
      | some a0 => cases hk1
    | some a =>
      cases y with
      | none => cases hk1
      | some a0 =>
        simp only [Option.map_some, Option.some.injEq] at hk1 hk2
        simp only [stepF, writeLeaf_eq O hO save D0 D hD hk ax0 p a a0 hk1 hk2 (fun h1 h2 => hsave h1 p (of_decide_eq_true h2)), hgout,
          Option.map_some]
  refine ⟨_, hwrite, fun ws hws dsk hmv => ?_⟩
  -- the disk
  have hnodup : ((writes (mapL gout [] b)).map Prod.fst).Nodup := by
    rw [writes_mapL]
    have hnd := leaves_nodup b [] hb
    clear hwrite hws hu hu' hR0 hR0' hR1 h0 h1 e3
    have hclean' := hclean
    clear hclean
    generalize leaves [] b = L at hnd hclean' ⊢
    induction L with
    | nil => exact List.nodup_nil
    | cons e l ih =>
      simp only [List.map_cons, List.nodup_cons] at hnd
      have ih' := ih hnd.2 (fun e' he' => hclean' e' (List.mem_cons_of_mem _ he'))
      rw [List.filterMap_cons]
      cases hw : writeOf (gout e.1 e.2) with
      | none => exact ih'
      | some w =>
        simp only [List.map_cons, List.nodup_cons]
        refine ⟨fun hm => ?_, ih'⟩
        obtain ⟨w', hw', hl⟩ := List.mem_map.1 hm
        obtain ⟨e', he', hw''⟩ := List.mem_filterMap.1 hw'
        have hloc : ∀ (e : List Key × (Option A × Option A) × Option A) (w : TsPath.Spec × A), writeOf (gout e.1 e.2) = some w →
            w.1 = TsPath.Spec.place D (TsPath.dotted (TsPath.join e.1)) := by
          intro e w h
          rw [hgout] at h
          simp only at h
          cases hx : e.2.1.1 with
          | none => rw [hx] at h; cases h
          | some a =>
            rw [hx] at h
            simp only [Option.map_some, outOf] at h
            split_ifs at h
            · simp only [writeOf, Option.some.injEq] at h
              rw [← h]
            · cases h
        rw [hloc e w hw, hloc e' w' hw''] at hl
        refine TsPath.C29_distinct_partial D e'.1 e.1 (hclean' e' (List.mem_cons_of_mem _ he')) (hclean' e (List.mem_cons_self ..)) ?_ hl
        intro heq
        exact hnd.1 (List.mem_map.2 ⟨e', he', heq⟩)
  have hdisk : ∀ e ∈ leaves [] b, ∀ a, e.2.1.1 = some a → ax0 e.1 = true →
      dsk (TsPath.Spec.place D2 (TsPath.dotted (TsPath.join e.1))) = some (conv O (saveT save e.1) a) := by
    intro e he a ha hx
    rw [hmv _ (TsPath.dotted_no_slash _)]
    refine disk_mem ws ((hws.map Prod.fst).nodup_iff.2 hnodup) _ _ (hws.mem_iff.2 ?_)
    rw [writes_mapL]
    refine List.mem_filterMap.2 ⟨e, he, ?_⟩
    rw [hgout]
    simp only [ha, Option.map_some, outOf, hx, if_true, writeOf]
  -- restoring
  set gfile : List Key → (Option A × Option A) × Option A → Option (FLeaf A T) := fun p x => x.1.1.map fun a =>
    if ax0 p then .spec ⟨TsPath.getSpec D0 (TsPath.join p), (saveT save p).getD (O.dtype a), O.shape a⟩ else .val (conv O (saveT save p) a)
    with hgfile
  set gconv : List Key → (Option A × Option A) × Option A → Option (FLeaf A T) := fun p x => x.1.1.map fun a =>
    if ax0 p then .spec ⟨TsPath.getSpec D2 (TsPath.join p), (saveT save p).getD (O.dtype a), O.shape a⟩ else .val (conv O (saveT save p) a)
    with hgconv
  have hfile : file (mapL gout [] b) = mapL gfile [] b := by
    unfold file
    rw [mapL_mapL]
    congr 1
    funext p x
    rw [hgout, hgfile]
    simp only [Option.map_map]
    congr 1
    funext a
    simp only [Function.comp_apply, outOf]
    split_ifs <;> rfl
  have hconvLoc : ∀ name, convertLoc D2 (TsPath.getSpec D0 name) = .ok (TsPath.getSpec D2 name) := by
    intro name
    unfold convertLoc TsPath.getSpec
    by_cases h : TsPath.gsPrefix.isPrefixOf D2 = true
    · rw [if_pos h, if_pos h]
      split_ifs <;> rfl
    · rw [if_neg h, if_neg h]
      split_ifs <;> rfl
  have hconv : convert D2 (mapL gfile [] b) = .ok (mapL gconv [] b) := by
    refine convert_mapL D2 _ _ b [] fun e _ => ?_
    rw [hgfile, hgconv]
    simp only
    cases e.2.1.1 with
    | none => rfl
    | some a =>
      simp only [Option.map_some]
      split_ifs
      · simp only [convF, hconvLoc]
      · rfl
  set gres : List Key → (Option A × Option A) × Option A → Option A := fun p x => x.1.1.map fun a =>
    if p.head? = some "target".toList then conv O rest (conv O save a) else a with hgres
  have hread : zipT (readLeaf O rest dev D2 dsk) [] (parameterInfos O D1 ax1 (mapL (fun _ (x : (Option A × Option A) × Option A) => x.2) [] b))
      (mapL (fun p x => if (paramInfo O D1 ax1 p x.2).isSome then gconv p x else none) [] b) = .ok (mapL gres [] b) := by
    unfold parameterInfos
    rw [mapL_mapL]
    refine zipT_mapL _ _ _ _ b b [] hb (fun _ _ => rfl) fun e he => ?_
    have hk1 := hR1 e he
    have hd := hdisk e he
    have hu2 := hu' e he
    obtain ⟨p, ⟨x, y⟩, z⟩ := e
    simp only at hk1 hd hu2 ⊢
    unfold SameKind at hk1
    cases x with
    | none =>
      cases z with
      | none => rfl
      | some a0 => cases hk1
    | some a =>
      cases z with
      | none => cases hk1
      | some a1 =>
        simp only [Option.map_some, Option.some.injEq] at hk1
        have hfinal : ∀ v, v = conv O (saveT save p) a →
            restoreCast O rest p v = if p.head? = some "target".toList then conv O rest (conv O save a) else a := by
          intro v hv
          rw [hv]
          unfold restoreCast
          by_cases ht : p.head? = some "target".toList
          · have ht' : isTarget p = true := by unfold isTarget; exact decide_eq_true ht
            rw [if_pos ht]
            unfold saveT
            rw [if_pos ht']
            cases rest with
            | none => rw [if_neg (by simp)]; rfl
            | some t => rw [if_pos (by simp [ht'])]; exact castTo_some O hO t _
          · have ht' : ¬ isTarget p = true := by unfold isTarget; exact fun h => ht (of_decide_eq_true h)
            rw [if_neg ht, if_neg (by simp [ht'])]
            unfold saveT
            rw [if_neg ht']
            rfl
        rw [hgconv, hgres]
        simp only [paramInfo, Option.map_some, Option.isSome_some, if_true, stepF]
        by_cases hx0 : ax0 p = true
        · have hdt : (saveT save p).getD (O.dtype a) ≠ O.u16 := by
            have := hu2 a rfl hx0
            intro hc
            apply this
            rw [← hc]
            by_cases ht : p.head? = some "target".toList
            · have ht' : isTarget p = true := by unfold isTarget; exact decide_eq_true ht
              rw [if_pos ht]
              unfold saveT
              rw [if_pos ht']
              cases save with
              | none => rfl
              | some t => exact hO.dtype t a
            · have ht' : ¬ isTarget p = true := by unfold isTarget; exact fun h => ht (of_decide_eq_true h)
              rw [if_neg ht]
              unfold saveT
              rw [if_neg ht']
              rfl
          have hinfo : ∀ i : Info T, i = (if ax1 p = true then (⟨TsPath.join p, O.shape a1,
              some ⟨TsPath.getSpec D1 (TsPath.join p), O.dtype a1, O.shape a1⟩⟩ : Info T) else ⟨TsPath.join p, O.shape a1, none⟩) →
              i.shape = O.shape a1 ∧ (dev && i.spec.isNone) = false := by
            rintro i rfl
            rcases hax p hx0 with h | h
            · rw [if_pos h]; exact ⟨rfl, by simp⟩
            · rw [h]; split_ifs <;> exact ⟨rfl, rfl⟩
          obtain ⟨hi1, hi2⟩ := hinfo _ rfl
          simp only [hx0, if_true, readLeaf, TsPath.C29_write_place D2 _ hD2, hi1, hk1, ne_eq, not_true_eq_false, if_false, hdt, hi2,
            Bool.false_eq_true, hd a rfl hx0]
          rw [hfinal _ rfl]
        · simp only [hx0, if_false, Bool.false_eq_true, readLeaf]
          rw [hfinal _ rfl]
  refine ⟨mapL gres [] b, ?_, ?_⟩
  · unfold restore
    rw [hfile, hconv]
    simp only
    have hf := fill_mapL (fun p (x : (Option A × Option A) × Option A) => paramInfo O D1 ax1 p x.2) gconv b b [] hb (fun _ _ => rfl)
    unfold parameterInfos at hread ⊢
    rw [mapL_mapL] at hread ⊢
    rw [hf]
    simp only [hread]
    rw [if_neg]
    rw [keys_mapL]
    cases rest with
    | none => simp
    | some t =>
      have : b.keys.contains "target".toList = true := List.contains_iff_mem.2 (hrest (by simp))
      rw [this]
      simp
  · exact like_mapL _ _ _ [] b fun e he => rfl

/-! ### Arbitrary checkpoints -/

theorem get_mapL {α β : Type} (g : List Key → α → β) (pre : List Key) (t : Dict α) (k : Key) :
    (mapL g pre t).get k = match t.get k with
      | some (.arr a) => some (.arr (g (pre ++ [k]) a))
      | some (.dict d) => some (.dict (mapL g (pre ++ [k]) d))
      | none => none := by
  induction t with
  | nil => rfl
  | leaf k' a r ih =>
    simp only [mapL, Dict.get]
    by_cases h : k' = k
    · subst h; simp
    · rw [if_neg h, if_neg h, ih]
  | sub k' d r _ ih =>
    simp only [mapL, Dict.get]
    by_cases h : k' = k
    · subst h; simp
    · rw [if_neg h, if_neg h, ih]

/-- What a successful `zipT` found for an entry. -/
theorem zipT_get {α β γ : Type} (f : List Key → α → Option β → Except Err γ) (pre : List Key) (s : Dict (Option α)) (t : Dict (Option β))
    (u : Dict (Option γ)) (h : zipT f pre s t = .ok u) (k : Key) :
    (∀ a, s.get k = some (.arr (some a)) → ∃ b c, t.get k = some (.arr b) ∧ f (pre ++ [k]) a b = .ok c ∧ u.get k = some (.arr (some c))) ∧
    (s.get k = some (.arr none) → u.get k = some (.arr none)) ∧
    (∀ d, s.get k = some (.dict d) → ∃ d' x, t.get k = some (.dict d') ∧ zipT f (pre ++ [k]) d d' = .ok x ∧ u.get k = some (.dict x)) ∧
    (s.get k = none → u.get k = none) := by
  induction s generalizing u with
  | nil =>
    cases h
    exact ⟨fun a ha => (by cases ha), fun ha => (by cases ha), fun d hd => (by cases hd), fun _ => rfl⟩
  | leaf k' x r ih =>
    cases x with
    | none =>
      simp only [zipT] at h
      cases hr : zipT f pre r t with
      | error e => rw [hr] at h; split at h <;> first | contradiction | cases h
      | ok r' =>
        rw [hr] at h
        split at h
        · rename_i h2; cases h2; cases h
          have ih' := ih _ hr
          by_cases hk : k' = k
          · subst hk
            simp [Dict.get]
          · simpa only [Dict.get, if_neg hk] using ih'
        · cases h
        · cases h
    | some a =>
      simp only [zipT] at h
      split at h
      · rename_i b hb
        split at h
        · rename_i c r' hc hr
          cases h
          by_cases hk : k' = k
          · subst hk
            refine ⟨fun a' ha' => ?_, fun ha => ?_, fun d hd => ?_, fun hn => ?_⟩
            · simp only [Dict.get, if_true, Option.some.injEq, Val.arr.injEq] at ha'
              subst ha'
              exact ⟨b, c, hb, hc, by simp [Dict.get]⟩
            · simp [Dict.get] at ha
            · simp [Dict.get] at hd
            · simp [Dict.get] at hn
          · simpa only [Dict.get, if_neg hk] using ih _ hr
        · cases h
        · cases h
      · cases h
  | sub k' d r ihd ih =>
    simp only [zipT] at h
    split at h
    · rename_i d' hd'
      split_ifs at h
      split at h
      · rename_i x r' hx hr
        cases h
        by_cases hk : k' = k
        · subst hk
          refine ⟨fun a' ha' => ?_, fun ha => ?_, fun d2 hd2 => ?_, fun hn => ?_⟩
          · simp [Dict.get] at ha'
          · simp [Dict.get] at ha
          · simp only [Dict.get, if_true, Option.some.injEq, Val.dict.injEq] at hd2
            subst hd2
            exact ⟨d', x, hd', hx, by simp [Dict.get]⟩
          · simp [Dict.get] at hn
        · simpa only [Dict.get, if_neg hk] using ih _ hr
      · cases h
      · cases h
    · cases h

theorem fill_get (s : Dict (Option (Info T))) (t w : Dict (Option (FLeaf A T))) (h : fill s t = .ok w) (k : Key) :
    (∀ i, s.get k = some (.arr (some i)) → ∃ x, t.get k = some (.arr x) ∧ w.get k = some (.arr x)) ∧
    (∀ d, s.get k = some (.dict d) → ∃ d' x, t.get k = some (.dict d') ∧ fill d d' = .ok x ∧ w.get k = some (.dict x)) := by
  induction s generalizing w with
  | nil => exact ⟨fun a ha => (by cases ha), fun d hd => (by cases hd)⟩
  | leaf k' i r ih =>
    cases i with
    | none =>
      simp only [fill] at h
      cases hr : fill r t with
      | error e => rw [hr] at h; split at h <;> first | contradiction | cases h
      | ok r' =>
        rw [hr] at h
        split at h
        · cases h
        · rename_i h2; cases h2; cases h
          by_cases hk : k' = k
          · subst hk
            simp [Dict.get]
          · simpa only [Dict.get, if_neg hk] using ih _ hr
        · cases h
    | some i =>
      simp only [fill] at h
      cases hr : fill r t with
      | error e => rw [hr] at h; split at h <;> first | contradiction | cases h
      | ok r' =>
        rw [hr] at h
        split at h
        · rename_i x r2 hx h2
          cases h2; cases h
          by_cases hk : k' = k
          · subst hk
            refine ⟨fun i' hi' => ⟨x, hx, by simp [Dict.get]⟩, fun d hd => ?_⟩
            simp [Dict.get] at hd
          · simpa only [Dict.get, if_neg hk] using ih _ hr
        · cases h
        · cases h
  | sub k' d r ihd ih =>
    simp only [fill] at h
    split at h
    · rename_i d' hd'
      split at h
      · rename_i x r' hx hr
        cases h
        by_cases hk : k' = k
        · subst hk
          refine ⟨fun i hi => ?_, fun d2 hd2 => ?_⟩
          · simp [Dict.get] at hi
          · simp only [Dict.get, if_true, Option.some.injEq, Val.dict.injEq] at hd2
            subst hd2
            exact ⟨d', x, hd', hx, by simp [Dict.get]⟩
        · simpa only [Dict.get, if_neg hk] using ih _ hr
      · cases h
      · cases h
    · cases h

theorem convert_get (dir : Str) (t w : Dict (Option (FLeaf A T))) (h : convert dir t = .ok w) (k : Key) :
    (∀ y, w.get k = some (.arr y) → ∃ x, t.get k = some (.arr x) ∧ convF dir x = .ok y) ∧
    (∀ d, w.get k = some (.dict d) → ∃ d', t.get k = some (.dict d') ∧ convert dir d' = .ok d) := by
  induction t generalizing w with
  | nil => cases h; exact ⟨fun a ha => (by cases ha), fun d hd => (by cases hd)⟩
  | leaf k' x r ih =>
    have key : ∃ y r', convF dir x = .ok y ∧ convert dir r = .ok r' ∧ w = .leaf k' y r' := by
      match x with
      | none =>
        simp only [convert] at h
        split at h
        · rename_i r' hr; cases h; exact ⟨_, r', rfl, hr, rfl⟩
        · cases h
      | some (.val a) =>
        simp only [convert] at h
        split at h
        · rename_i r' hr; cases h; exact ⟨_, r', rfl, hr, rfl⟩
        · cases h
      | some (.spec s) =>
        simp only [convert] at h
        split at h
        · rename_i l r' hl hr; cases h; exact ⟨_, r', by simp only [convF, hl], hr, rfl⟩
        · cases h
        · cases h
    obtain ⟨y, r', h1, h2, rfl⟩ := key
    by_cases hk : k' = k
    · subst hk
      refine ⟨fun y' hy' => ?_, fun d hd => ?_⟩
      · simp only [Dict.get, if_true, Option.some.injEq, Val.arr.injEq] at hy'
        subst hy'
        exact ⟨x, by simp [Dict.get], h1⟩
      · simp [Dict.get] at hd
    · simpa only [Dict.get, if_neg hk] using ih _ h2
  | sub k' d r ihd ih =>
    simp only [convert] at h
    split at h
    · rename_i d' r' hd hr
      cases h
      by_cases hk : k' = k
      · subst hk
        refine ⟨fun y' hy' => ?_, fun d2 hd2 => ?_⟩
        · simp [Dict.get] at hy'
        · simp only [Dict.get, if_true, Option.some.injEq, Val.dict.injEq] at hd2
          subst hd2
          exact ⟨d, by simp [Dict.get], hd⟩
      · simpa only [Dict.get, if_neg hk] using ih _ hr
    · cases h
    · cases h

open Verif.OptaxState.Spec (arrayAt)

theorem restore_at (O : Ops A T) (rest : Option T) (dev : Bool) (D : Str) (dsk : TsPath.Spec → Option A) (q : List Key) :
    ∀ (pre : List Key) (infos : Dict (Option (Info T))) (f f' w : Dict (Option (FLeaf A T))) (r : Dict (Option A)), convert D f = .ok f' →
      fill infos f' = .ok w → zipT (readLeaf O rest dev D dsk) pre infos w = .ok r → ∀ i, arrayAt infos q = some (some i) →
      ∃ x y a, arrayAt f q = some x ∧ convF D x = .ok y ∧ readLeaf O rest dev D dsk (pre ++ q) i y = .ok a ∧ arrayAt r q = some (some a) := by
  induction q with
  | nil => intro pre infos f f' w r _ _ _ i hi; cases hi
  | cons k q ih =>
    intro pre infos f f' w r h1 h2 h3 i hi
    obtain ⟨z1, _, z3, _⟩ := zipT_get _ _ _ _ _ h3 k
    obtain ⟨f1, f2⟩ := fill_get _ _ _ h2 k
    obtain ⟨c1, c2⟩ := convert_get _ _ _ h1 k
    cases q with
    | nil =>
      simp only [arrayAt] at hi ⊢
      cases hg : infos.get k with
      | none => rw [hg] at hi; cases hi
      | some v =>
        rw [hg] at hi
        cases v with
        | dict d => cases hi
        | arr x =>
          cases hi
          obtain ⟨b, c, e1, e2, e3⟩ := z1 i hg
          obtain ⟨x, e4, e5⟩ := f1 i hg
          obtain ⟨x', e6, e7⟩ := c1 x e4
          rw [e5] at e1
          cases e1
          exact ⟨x', _, c, by rw [e6], e7, e2, by rw [e3]⟩
    | cons k2 ks =>
      simp only [arrayAt] at hi ⊢
      cases hg : infos.get k with
      | none => rw [hg] at hi; cases hi
      | some v =>
        rw [hg] at hi
        cases v with
        | arr x => cases hi
        | dict d =>
          obtain ⟨d1, x1, e1, e2, e3⟩ := z3 d hg
          obtain ⟨d2, x2, e4, e5, e6⟩ := f2 d hg
          obtain ⟨d3, e7, e8⟩ := c2 d2 e4
          rw [e6] at e1
          cases e1
          obtain ⟨x, y, a, g1, g2, g3, g4⟩ := ih (pre ++ [k]) d d3 d2 _ x1 e8 e5 e2 i hi
          rw [List.append_assoc] at g3
          refine ⟨x, y, a, ?_, g2, g3, ?_⟩
          · rw [e7]; exact g1
          · rw [e3]; exact g4

/-- **C64**, any checkpoint (of another model, say): if restoring succeeds, then every parameter the restorer has was in the checkpoint, and
was either read from the msgpack file, or has the restorer's shape and was read from the array stored below the checkpoint's directory. -/
theorem C64_sound (O : Ops A T) (hO : Good O) (rest : Option T) (dev : Bool) (D : Str) (dsk : TsPath.Spec → Option A)
    (infos : Dict (Option (Info T))) (f : Dict (Option (FLeaf A T))) (r : Dict (Option A)) (h : restore O rest dev D dsk infos f = .ok r)
    (p : List Key) (i : Info T) (hi : arrayAt infos p = some (some i)) :
    ∃ a, arrayAt r p = some (some (if p.head? = some "target".toList then conv O rest a else a)) ∧
      (arrayAt f p = some (some (.val a)) ∨
        ∃ s loc, arrayAt f p = some (some (.spec s)) ∧ s.shape = i.shape ∧ TsPath.readSpec D s.loc = .ok loc ∧ dsk loc = some a) := by
  unfold restore at h
  cases hc : convert D f with
  | error e => rw [hc] at h; cases h
  | ok f' =>
    rw [hc] at h
    simp only at h
    cases hf : fill infos f' with
    | error e => rw [hf] at h; cases h
    | ok w =>
      rw [hf] at h
      simp only at h
      cases hz : zipT (readLeaf O rest dev D dsk) [] infos w with
      | error e => rw [hz] at h; cases h
      | ok r' =>
        rw [hz] at h
        simp only at h
        split_ifs at h
        cases h
        obtain ⟨x, y, a, e1, e2, e3, e4⟩ := restore_at O rest dev D dsk p [] infos f f' w r hc hf hz i hi
        rw [List.nil_append] at e3
        have hcast : ∀ v, restoreCast O rest p v = if p.head? = some "target".toList then conv O rest v else v := by
          intro v
          unfold restoreCast isTarget
          by_cases ht : p.head? = some "target".toList
          · rw [if_pos ht]
            cases rest with
            | none => rw [Option.isSome_none, Bool.and_false, if_neg (by simp)]; rfl
            | some t => rw [decide_eq_true ht, Option.isSome_some, Bool.and_true, if_pos rfl, castTo_some O hO]; rfl
          · rw [if_neg ht, decide_eq_false ht, Bool.false_and, if_neg (by simp)]
        match x with
        | none =>
          cases e2
          cases e3
        | some (.val v) =>
          cases e2
          cases e3
          exact ⟨v, by rw [e4, hcast], Or.inl e1⟩
        | some (.spec s) =>
          simp only [convF] at e2
          cases hl : convertLoc D s.loc with
          | error e => rw [hl] at e2; cases e2
          | ok l =>
            rw [hl] at e2
            cases e2
            simp only [readLeaf] at e3
            cases hu : TsPath.updatePath D l with
            | error e => rw [hu] at e3; cases e3
            | ok loc =>
              rw [hu] at e3
              simp only at e3
              split_ifs at e3 with g1 g2 g3
              cases hd : dsk loc with
              | none => rw [hd] at e3; cases e3
              | some v =>
                rw [hd] at e3
                cases e3
                refine ⟨v, by rw [e4, hcast], Or.inr ⟨s, loc, e1, not_not.1 g1, ?_, hd⟩⟩
                unfold convertLoc at hl
                unfold TsPath.readSpec
                split_ifs at hl ⊢ with hg
                · cases h5 : TsPath.fileToGcs s.loc with
                  | error e => rw [h5] at hl; cases hl
                  | ok s' => rw [h5] at hl; cases hl; exact hu
                · cases h5 : TsPath.gcsToFile s.loc with
                  | error e => rw [h5] at hl; cases hl
                  | ok s' => rw [h5] at hl; cases hl; exact hu

/-! ### Several saves with one checkpointer -/

theorem zipT_map_right {α β γ : Type} (f : List Key → α → Option β → Except Err γ) (g : List Key → Option β → Option β)
    (hf : ∀ p a b, f p a (g p b) = f p a b) (hg : ∀ p b, (g p b) = none ↔ b = none) (s : Dict (Option α)) :
    ∀ (pre : List Key) (t : Dict (Option β)), zipT f pre s (mapL g pre t) = zipT f pre s t := by
  induction s with
  | nil => intro pre t; rfl
  | leaf k x r ih =>
    intro pre t
    cases x with
    | none =>
      simp only [zipT, get_mapL, ih]
      match t.get k with
      | none => rfl
      | some (.dict d) => rfl
      | some (.arr none) => simp only [(hg (pre ++ [k]) none).2 rfl]
      | some (.arr (some b)) =>
        cases hb : g (pre ++ [k]) (some b) with
        | none => cases (hg _ _).1 hb
        | some b' => simp only [hb]
    | some a =>
      simp only [zipT, get_mapL, ih]
      match t.get k with
      | none => rfl
      | some (.dict d) => rfl
      | some (.arr b) => simp only [hf]
  | sub k d r ihd ih =>
    intro pre t
    simp only [zipT, get_mapL, ih]
    match t.get k with
    | none => rfl
    | some (.arr b) => rfl
    | some (.dict d') => simp only [ihd, keys_mapL]

/-- **C64**: a save changes the checkpointer's parameter infos (their dtypes); the next save is not affected. -/
theorem C64_second_save (O : Ops A T) (save : Option T) (D : Str) (infos : Dict (Option (Info T))) (s : Dict (Option A)) :
    writeState O save D (infosAfterSave save infos) s = writeState O save D infos s := by
  unfold writeState infosAfterSave
  rw [keys_mapL, zipT_map_right]
  · intro p a b
    cases b with
    | none => rfl
    | some i =>
      cases hs : save with
      | none => rfl
      | some t =>
        cases hp : isTarget p with
        | false => simp only [Option.map_some]
        | true =>
          simp only [Option.map_some, writeLeaf, Option.bind_some, hp, if_true]
          cases hi : i.spec with
          | none => rfl
          | some sp => rfl
  · intro p b
    cases b <;> simp

/-! ### Witnesses -/

/-- Arrays as shape, dtype and content: dtypes 0 (float32), 1 (bfloat16), 2 (float64), 3 (uint16). -/
def exOps : Ops (List Nat × Nat × Nat) Nat := ⟨fun a => a.2.1, fun a => a.1, fun t a => (a.1, t, a.2.2), 2, 3⟩

theorem exOps_good : Good exOps := ⟨fun _ _ => rfl, fun _ _ => rfl, fun _ => rfl⟩

/-- A state with a float32 parameter, its accumulator, a `None` and a step. -/
def exState (v : Nat) : Dict (Option (List Nat × Nat × Nat)) :=
  .sub "target".toList (.leaf "w".toList (some ([4, 2], 0, v)) .nil)
    (.sub "state".toList (.leaf "step".toList (some ([], 5, v + 1)) (.sub "param_states".toList
      (.leaf "w".toList (some ([4], 0, v + 2)) (.leaf "frozen".toList none (.sub "empty".toList .nil .nil))) .nil)) .nil)

/-- The hypotheses of `C64_round_trip` are met: everything but the step is partitioned; the checkpoint is moved to a bucket; parameters are
saved as bfloat16 and restored as float32. -/
example : ∃ o, writeState exOps (some 1) "/m/checkpoint_7.tmp-1".toList
      (parameterInfos exOps "/m".toList (fun p => p.getLast? ≠ some "step".toList) (exState 0)) (exState 10) = .ok o ∧
    ∀ ws, ws.Perm (writes o) → ∀ dsk, Moved "/m/checkpoint_7.tmp-1".toList "gs://b/checkpoint_7".toList (disk ws) dsk →
      ∃ r, restore exOps (some 0) true "gs://b/checkpoint_7".toList dsk (parameterInfos exOps "/n".toList (fun _ => true) (exState 0)) (file o) = .ok r ∧
        arrayAt r ["target".toList, "w".toList] = some (some ([4, 2], 0, 10)) ∧
        arrayAt r ["state".toList, "step".toList] = some (some ([], 5, 11)) ∧
        arrayAt r ["state".toList, "param_states".toList, "frozen".toList] = some none := by
  obtain ⟨o, h1, h2⟩ := C64_round_trip exOps exOps_good (some 1) (some 0) true "/m".toList "/m/checkpoint_7.tmp-1".toList "/n".toList
    "gs://b/checkpoint_7".toList (fun h => absurd h (by decide)) (fun _ => by decide) (by decide) (fun p => p.getLast? ≠ some "step".toList)
    (fun _ => true) (exState 10) (exState 0) (exState 0) (by simp only [exState, Clean]; repeat' (first | exact trivial | refine And.intro ?_ ?_ | decide))
    (by simp only [exState, Like, SameKind]; decide) (by simp only [exState, Like, SameKind]; decide) (fun _ _ => Or.inl rfl)
    (by
      simp only [exState, Every]
      refine ⟨⟨?_, trivial⟩, ⟨?_, ⟨⟨?_, ⟨?_, trivial, trivial⟩⟩, trivial⟩⟩, trivial⟩ <;>
        · intro a ha _
          cases ha <;> decide)
    (fun h => by cases h) (fun _ => by decide)
  refine ⟨o, h1, fun ws hws dsk hm => ?_⟩
  obtain ⟨r, h3, h4⟩ := h2 ws hws dsk hm
  refine ⟨r, h3, ?_⟩
  rw [show r = mapL (fun p x => x.map fun a => if p.head? = some "target".toList then conv exOps (some 0) (conv exOps (some 1) a) else a) []
    (exState 10) from ?_]
  · decide
  · have key : ∀ (g : List Key → Option (List Nat × Nat × Nat) → Option (List Nat × Nat × Nat)) (s t : Dict (Option (List Nat × Nat × Nat)))
        (pre : List Key), Like (fun p x y => y = g p x) pre s t → t = mapL g pre s := by
      intro g s
      induction s with
      | nil =>
        intro t pre h
        cases t with
        | nil => rfl
        | leaf => exact h.elim
        | sub => exact h.elim
      | leaf k x r ih =>
        intro t pre h
        cases t with
        | nil => exact h.elim
        | leaf k' y r' =>
          obtain ⟨rfl, rfl, h⟩ := h
          rw [mapL, ← ih _ _ h]
        | sub => exact h.elim
      | sub k d r ihd ih =>
        intro t pre h
        cases t with
        | nil => exact h.elim
        | leaf => exact h.elim
        | sub k' d' r' =>
          obtain ⟨rfl, h', h⟩ := h
          rw [mapL, ← ih _ _ h, ← ihd _ _ h']
    exact key _ _ _ _ h4

/-- A hypothesis that is needed: with a dot in a key two parameters can share a file; both are then restored as the one written last. -/
theorem C64_dot_collision : ∃ s o r : _, Spec.Every (fun _ x => x.isSome) [] s ∧
    writeState exOps (some 0) "/m/c".toList (parameterInfos exOps "/m".toList (fun _ => true) s) s = .ok o ∧
    restore exOps none true "/m/c".toList (disk (writes o)) (parameterInfos exOps "/m".toList (fun _ => true) s) (file o) = .ok r ∧
    arrayAt s ["target".toList, "a.b".toList] = some (some ([2], 0, 5)) ∧ arrayAt r ["target".toList, "a.b".toList] = some (some ([2], 0, 6)) := by
  refine ⟨.sub "target".toList (.leaf "a.b".toList (some ([2], 0, 5)) (.sub "a".toList (.leaf "b".toList (some ([2], 0, 6)) .nil) .nil)) .nil,
    _, _, by simp [Every], rfl, rfl, by decide, by decide⟩

/-- A hypothesis that is needed: a partitioned uint16 array is saved without complaint and can then not be restored. -/
theorem C64_uint16 : ∃ s o : _, writeState exOps (some 0) "/m/c".toList (parameterInfos exOps "/m".toList (fun _ => true) s) s = .ok o ∧
    restore exOps none true "/m/c".toList (disk (writes o)) (parameterInfos exOps "/m".toList (fun _ => true) s) (file o) = .error .uint16 :=
  ⟨.sub "state".toList (.leaf "count".toList (some ([2], 3, 5)) .nil) .nil, _, rfl, rfl⟩

/-- A hypothesis that is needed: without a save dtype a parameter that is not partitioned comes back with the default dtype. -/
theorem C64_no_save_dtype : ∃ s o r : _, writeState exOps none "/m/c".toList (parameterInfos exOps "/m".toList (fun _ => false) s) s = .ok o ∧
    restore exOps none true "/m/c".toList (disk (writes o)) (parameterInfos exOps "/m".toList (fun _ => false) s) (file o) = .ok r ∧
    arrayAt s ["target".toList, "w".toList] = some (some ([2], 0, 5)) ∧ arrayAt r ["target".toList, "w".toList] = some (some ([2], 2, 5)) :=
  ⟨.sub "target".toList (.leaf "w".toList (some ([2], 0, 5)) .nil) .nil, _, _, rfl, rfl, by decide, by decide⟩

/-- Shapes are checked only for partitioned arrays: an array from the msgpack file is accepted with any shape. -/
theorem C64_shape_not_checked : ∃ s s1 o r : _,
    writeState exOps (some 0) "/m/c".toList (parameterInfos exOps "/m".toList (fun _ => false) s) s = .ok o ∧
    restore exOps none true "/m/c".toList (disk (writes o)) (parameterInfos exOps "/m".toList (fun _ => true) s1) (file o) = .ok r ∧
    arrayAt s1 ["target".toList, "w".toList] = some (some ([3], 0, 7)) ∧ arrayAt r ["target".toList, "w".toList] = some (some ([2], 0, 5)) :=
  ⟨.sub "target".toList (.leaf "w".toList (some ([2], 0, 5)) .nil) .nil, .sub "target".toList (.leaf "w".toList (some ([3], 0, 7)) .nil) .nil,
    _, _, rfl, rfl, by decide, by decide⟩

/-- `C64_sound` applies to the checkpoint of the last theorem, and `C64_second_save` to a save that changes an info. -/
example : infosAfterSave (some 1) (parameterInfos exOps "/m".toList (fun _ => true) (exState 0)) ≠
    parameterInfos exOps "/m".toList (fun _ => true) (exState 0) := by decide

end Verif.SaveRestore
