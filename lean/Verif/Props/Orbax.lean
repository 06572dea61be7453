import Verif.Lemmas.Orbax
/- C88: saving and restoring with Orbax. -/
namespace Verif.Orbax
open Verif.StateDict Verif.SaveRestore Verif.SaveRestore.Spec
open Verif.OptaxState.Spec (arrayAt)
open Verif.Fallback Verif.Fallback.Spec
open Verif.TsPath (Str)

variable {A T : Type} [DecidableEq T]

namespace Spec

/-- The value a stored array should have after restoring: cast if it is a parameter or if it is not partitioned. -/
def restored (O : Ops A T) (rest : Option T) (axes : List Key → Bool) (p : List Key) (a : A) : A :=
  if p.head? = some "target".toList ∨ axes p = false then conv O rest a else a

/-- No empty dict inside. -/
def AllFull {α : Type} : Dict α → Prop
  | .nil => True
  | .leaf _ _ r => AllFull r
  | .sub _ d r => d ≠ .nil ∧ AllFull d ∧ AllFull r

end Spec
open Spec

theorem allFull_iff {α : Type} (d : Dict α) : AllFull d ↔ Full d := by
  induction d with
  | nil => exact Iff.rfl
  | leaf k a r ih => exact ih
  | sub k d r ihd ih => simp only [AllFull, Full, ihd, ih]

theorem castIf_conv (O : Ops A T) (d : Option T) (a : A) : castIf O d a = conv O d a := by cases d <;> rfl

theorem takeWhile_join (k : Key) (ks : List Key) (hk : '/' ∉ k) : (TsPath.join (k :: ks)).takeWhile (· ≠ '/') = k := by
  have hall : ∀ x ∈ k, decide (x ≠ '/') = true := fun x hx => decide_eq_true fun h => hk (h ▸ hx)
  cases ks with
  | nil =>
    rw [TsPath.join]
    have := List.takeWhile_append_of_pos (l₂ := []) hall
    rwa [List.append_nil, List.takeWhile_nil, List.append_nil] at this
  | cons k2 ks =>
    rw [TsPath.join, List.takeWhile_append_of_pos hall, List.takeWhile_cons_of_neg (by simp), List.append_nil]
    simp

theorem restoreDtypeOf_infoOf (rest : Option T) (axes : List Key → Bool) (p : List Key) (x : Option A) (h : ∃ k ks, p = k :: ks ∧ '/' ∉ k) :
    restoreDtypeOf (infoOf axes p x) rest = if p.head? = some "target".toList then rest else none := by
  obtain ⟨k, ks, rfl, hk⟩ := h
  unfold restoreDtypeOf infoOf
  simp only [takeWhile_join k ks hk, List.head?_cons, Option.some.injEq]
  by_cases h : k = "target".toList
  · rw [if_neg (not_not.2 h), if_pos h]
  · rw [if_pos h, if_neg h]

theorem path_of_arrayAt {α : Type} (s : Dict α) (hs : Ordinary s) (p : List Key) (x : α) (h : arrayAt s p = some x) :
    ∃ k ks, p = k :: ks ∧ '/' ∉ k := by
  cases p with
  | nil => rw [arrayAt_nil] at h; cases h
  | cons k ks => exact ⟨k, ks, rfl, (ordinary_keys hs k (arrayAt_head s k ks (by rw [h]; rfl))).1⟩

/-- What restoring does, for arrays at paths. -/
theorem restore_spec (O : Ops A T) (rest : Option T) (axes : List Key → Bool) (s0 stored : Dict (Option A)) (fb : Option (Dict (Option (Arr A))))
    (hs0 : Ordinary s0) (hst : Ordinary stored) (hfb : ∀ f, fb = some f → Ordinary f ∧ ∀ p, (arrayAt f p).isSome ↔ (arrayAt s0 p).isSome) :
    ∃ m : Option (Dict (Option (Arr A))), restore O rest axes s0 fb stored =
        (match m with
        | none => none
        | some m => treeMap true false (fun x _ => place O rest x) m (paramInfos axes [] s0)) ∧
      m.isSome ∧
      ∀ m', m = some m' → Ordinary m' ∧ Full m' ∧ ∀ p, arrayAt m' p =
        (match arrayAt stored p, arrayAt s0 p with
        | some x, some y => some (x.map fun a => (⟨conv O (if p.head? = some "target".toList then rest else none) a, y.isSome && axes p⟩ : Arr A))
        | none, some _ => match fb with
          | some f => arrayAt f p
          | none => none
        | _, none => none) := by
  obtain ⟨i, i1, i2, i3, i4⟩ := intersect_at stored s0 hst hs0
  obtain ⟨r, hr⟩ := treeMap_ok false true (fun (x : Option A) i => x.map fun a => (⟨castIf O (restoreDtypeOf i rest) a, i.axes⟩ : Arr A)) i
    (paramInfos axes [] s0) i2 i3 (fun h => by cases h) (fun p hp => by
      rw [i4] at hp
      split_ifs at hp with h
      · obtain ⟨x, hx⟩ := Option.isSome_iff_exists.1 h
        rw [paramInfos_some axes s0 [] p x hx]; rfl
      · cases hp) (fun h => by cases h)
  obtain ⟨r1, r2⟩ := treeMap_at _ _ _ _ _ _ hr i2
  have hrat : ∀ p, arrayAt r p = (match arrayAt stored p, arrayAt s0 p with
      | some x, some y => some (x.map fun a => (⟨conv O (if p.head? = some "target".toList then rest else none) a, y.isSome && axes p⟩ : Arr A))
      | _, _ => none) := by
    intro p
    obtain ⟨ra, rb⟩ := r2 p
    have hip := i4 p
    cases h0 : arrayAt s0 p with
    | none =>
      rw [h0] at hip
      rw [rb hip]
      cases arrayAt stored p <;> rfl
    | some y =>
      rw [h0] at hip
      simp only [Option.isSome_some, if_true] at hip
      cases h1 : arrayAt stored p with
      | none => rw [h1] at hip; rw [rb hip]
      | some x =>
        rw [h1] at hip
        obtain ⟨b, hb1, hb2⟩ := ra x hip
        rw [paramInfos_some axes s0 [] p y h0, List.nil_append] at hb1
        cases hb1
        rw [hb2, restoreDtypeOf_infoOf rest axes p y (path_of_arrayAt s0 hs0 p y h0)]
        simp only [castIf_conv]
        rfl
  have hrfull : Full r := by
    -- `r` has the dicts of `i`
    have : ∀ (s : Dict (Option A)) (t : Dict OInfo) (r : Dict (Option (Arr A))) (f : Option A → OInfo → Option (Arr A)),
        zip false true f s t = some r → Full s → Full r := by
      intro s
      induction s with
      | nil => intro t r f h _; cases h; trivial
      | leaf k a q ih =>
        intro t r f h hf
        simp only [zip] at h
        split at h
        · rename_i b q' h1 h2
          cases h
          exact ih t q' f h2 hf
        · cases h
      | sub k d q ihd ih =>
        intro t r f h hf
        simp only [zip] at h
        split at h
        · rename_i d' q' h1 h2
          split_ifs at h
          split at h
          · rename_i x hx
            cases h
            refine ⟨fun hn => hf.1 ?_, ihd d' x f hx hf.2.1, ih t q' f h2 hf.2.2⟩
            have := zip_keys _ _ _ _ _ _ hx
            rw [hn] at this
            rw [← isEmpty_nil, ← this]
            rfl
          · cases h
        · rename_i b q' h1 h2
          split_ifs at h with he
          exact absurd ((isEmpty_nil d).1 (Bool.and_eq_true_iff.1 he).2) hf.1
        · cases h
    unfold treeMap at hr
    split_ifs at hr
    exact this _ _ _ _ hr i3
  unfold restore
  simp only [i1, hr]
  cases fb with
  | none =>
    refine ⟨some r, rfl, rfl, fun m' hm => ?_⟩
    cases hm
    refine ⟨r1, hrfull, fun p => ?_⟩
    rw [hrat p]
    cases arrayAt stored p <;> cases arrayAt s0 p <;> rfl
  | some f =>
    obtain ⟨hf1, hf2⟩ := hfb f rfl
    have hsub : ∀ p, (arrayAt r p).isSome → (arrayAt f p).isSome := by
      intro p hp
      rw [hf2]
      rw [hrat p] at hp
      cases h0 : arrayAt s0 p with
      | none => rw [h0] at hp; cases h1 : arrayAt stored p <;> rw [h1] at hp <;> cases hp
      | some y => rfl
    have hfull : ∀ m, mergeState r f = some m → Full m := fun m => full_merge r f m r1 hf1
    obtain ⟨m, m1, m2, m3⟩ := merge_spec r f r1 hf1 hsub
    refine ⟨some m, by simp only [m1], rfl, fun m' hm => ?_⟩
    cases hm
    refine ⟨m2, hfull m m1, fun p => ?_⟩
    rw [m3 p, hrat p]
    cases h0 : arrayAt s0 p with
    | none =>
      have : arrayAt f p = none := by
        rw [← Option.not_isSome_iff_eq_none, hf2, h0]
        simp
      rw [this]
      cases arrayAt stored p <;> rfl
    | some y => cases arrayAt stored p <;> rfl

/-- **C88**: if restoring into a state `s0` succeeds, the result has exactly the entries of `s0`.  An array that was stored is the stored one,
cast to the restore dtype if it is a parameter or not partitioned.  Any other one is that of the fallback state, cast unless it already has its layout.
And `s0` has no empty dict. -/
theorem C88_restore (O : Ops A T) (hO : Good O) (rest : Option T) (axes : List Key → Bool) (s0 stored r : Dict (Option A))
    (fb : Option (Dict (Option (Arr A)))) (hs0 : Ordinary s0) (hst : Ordinary stored)
    (hfb : ∀ f, fb = some f → Ordinary f ∧ ∀ p, (arrayAt f p).isSome ↔ (arrayAt s0 p).isSome)
    (h : restore O rest axes s0 fb stored = some r) :
    AllFull s0 ∧ ∀ p, ((arrayAt r p).isSome ↔ (arrayAt s0 p).isSome) ∧
      (∀ a, arrayAt stored p = some (some a) → (∃ a0, arrayAt s0 p = some (some a0)) → arrayAt r p = some (some (restored O rest axes p a))) ∧
      (∀ f x, arrayAt stored p = none → fb = some f → arrayAt f p = some x →
        arrayAt r p = some (x.map fun a => if a.placed then a.val else conv O rest a.val)) ∧
      (fb = none → (arrayAt s0 p).isSome → (arrayAt stored p).isSome) := by
  obtain ⟨m, h1, hm, h2⟩ := restore_spec O rest axes s0 stored fb hs0 hst hfb
  obtain ⟨m, rfl⟩ := Option.isSome_iff_exists.1 hm
  obtain ⟨m1, m2, m3⟩ := h2 m rfl
  rw [h1] at h
  simp only at h
  obtain ⟨_, t2⟩ := treeMap_at _ _ _ _ _ _ h m1
  have hinfo : ∀ p, (arrayAt (paramInfos axes [] s0) p).isSome → (arrayAt m p).isSome := fun p => treeMap_strict _ _ _ _ h m1 p
  have hms : ∀ p, arrayAt s0 p = none → arrayAt m p = none := by
    intro p h0
    rw [m3 p, h0]
    cases arrayAt stored p <;> rfl
  have hsm : ∀ p, (arrayAt s0 p).isSome → (arrayAt m p).isSome := by
    intro p hp
    obtain ⟨x, hx⟩ := Option.isSome_iff_exists.1 hp
    exact hinfo p (by rw [paramInfos_some axes s0 [] p x hx]; rfl)
  refine ⟨?_, fun p => ⟨?_, ?_, ?_, ?_⟩⟩
  · rw [allFull_iff]
    by_contra hf
    obtain ⟨k, _, ks, h3, h4⟩ := paramInfos_empty axes s0 [] hs0 hf
    have := hinfo _ h3
    rw [hms _ h4] at this
    cases this
  · constructor
    · intro hp
      by_contra h0
      rw [(t2 p).2 (hms p (Option.not_isSome_iff_eq_none.1 h0))] at hp
      cases hp
    · intro hp
      obtain ⟨x, hx⟩ := Option.isSome_iff_exists.1 (hsm p hp)
      obtain ⟨b, _, hb⟩ := (t2 p).1 x hx
      rw [hb]; rfl
  · rintro a ha ⟨a0, h0⟩
    have hmp := m3 p
    rw [ha, h0] at hmp
    obtain ⟨b, _, hb⟩ := (t2 p).1 _ hmp
    rw [hb]
    simp only [place, Option.map_some, Option.isSome_some, Bool.true_and, castIf_conv, Option.some.injEq]
    unfold restored
    have hidem : conv O rest (conv O rest a) = conv O rest a := by
      cases rest with
      | none => rfl
      | some t =>
        have := hO.same (O.cast t a)
        rw [hO.dtype] at this
        exact this
    by_cases ht : p.head? = some "target".toList
    · rw [if_pos (Or.inl ht), if_pos ht]
      split_ifs
      · rfl
      · exact hidem
    · rw [if_neg ht]
      cases hx : axes p with
      | true => rw [if_pos rfl, if_neg (fun h => h.elim ht (fun h => by cases h))]; rfl
      | false => rw [if_neg (by simp), if_pos (Or.inr rfl)]; rfl
  · intro f x hn hf hx
    subst hf
    have h0 : (arrayAt s0 p).isSome := ((hfb f rfl).2 p).1 (by rw [hx]; rfl)
    obtain ⟨y, hy⟩ := Option.isSome_iff_exists.1 h0
    have hmp := m3 p
    rw [hn, hy] at hmp
    simp only [hx] at hmp
    obtain ⟨b, _, hb⟩ := (t2 p).1 _ hmp
    rw [hb]
    simp only [place, castIf_conv]
  · intro hf hp
    subst hf
    have hmp := m3 p
    obtain ⟨y, hy⟩ := Option.isSome_iff_exists.1 hp
    by_contra hn
    rw [Option.not_isSome_iff_eq_none.1 hn, hy] at hmp
    have := hsm p hp
    rw [hmp] at this
    cases this

/-- **C88**: restoring succeeds if the state has no empty dict and every entry is stored or there is a fallback state, whatever else is stored. -/
theorem C88_succeeds (O : Ops A T) (rest : Option T) (axes : List Key → Bool) (s0 stored : Dict (Option A))
    (fb : Option (Dict (Option (Arr A)))) (hs0 : Ordinary s0) (hst : Ordinary stored)
    (hfb : ∀ f, fb = some f → Ordinary f ∧ ∀ p, (arrayAt f p).isSome ↔ (arrayAt s0 p).isSome) (hf : AllFull s0)
    (hall : fb = none → ∀ p, (arrayAt s0 p).isSome → (arrayAt stored p).isSome) : ∃ r, restore O rest axes s0 fb stored = some r := by
  obtain ⟨m, h1, hm, h2⟩ := restore_spec O rest axes s0 stored fb hs0 hst hfb
  obtain ⟨m, rfl⟩ := Option.isSome_iff_exists.1 hm
  obtain ⟨m1, m2, m3⟩ := h2 m rfl
  rw [h1]
  simp only
  rw [allFull_iff] at hf
  have hinf := paramInfos_full axes s0 [] hf
  refine treeMap_ok true false _ m _ m1 m2 (fun _ => ?_) (fun p hp => ?_) (fun _ p hp => ?_)
  · rw [hinf]
    have : ∀ (s : Dict (Option A)) pre, Full s → Full (mapL (infoOf axes) pre s) := by
      intro s
      induction s with
      | nil => intro _ _; trivial
      | leaf k a r ih => intro pre h; exact ih pre h
      | sub k d r ihd ih =>
        intro pre h
        refine ⟨?_, ihd _ h.2.1, ih _ h.2.2⟩
        intro hn
        apply h.1
        cases d with
        | nil => rfl
        | leaf => cases hn
        | sub => cases hn
    exact this s0 [] hf
  · rw [hinf, arrayAt_mapL, Option.isSome_map]
    by_contra h0
    rw [m3 p, Option.not_isSome_iff_eq_none.1 h0] at hp
    cases h3 : arrayAt stored p <;> rw [h3] at hp <;> cases hp
  · rw [hinf, arrayAt_mapL, Option.isSome_map] at hp
    obtain ⟨y, hy⟩ := Option.isSome_iff_exists.1 hp
    rw [m3 p, hy]
    cases h3 : arrayAt stored p with
    | some x => rfl
    | none =>
      cases fb with
      | none => have := hall rfl p hp; rw [h3] at this; cases this
      | some f => exact ((hfb f rfl).2 p).2 hp

/-! ### Saving -/

theorem join_no_dot (p : List Key) (h : ∀ k ∈ p, '.' ∉ k) : '.' ∉ TsPath.join p := by
  induction p with
  | nil => simp [TsPath.join]
  | cons k ks ih =>
    cases ks with
    | nil => rw [TsPath.join]; exact h k (List.mem_cons_self ..)
    | cons k2 ks =>
      rw [TsPath.join]
      · intro hm
        rcases List.mem_append.1 hm with hm | hm
        · exact h k (List.mem_cons_self ..) hm
        · rcases List.mem_cons.1 hm with hm | hm
          · cases hm
          · exact ih (fun k' hk' => h k' (List.mem_cons_of_mem _ hk')) hm
      · simp

theorem takeWhile_dot (p : List Key) (h : ∀ k ∈ p, '.' ∉ k) : (TsPath.join p).takeWhile (· ≠ '.') = TsPath.join p := by
  have hall : ∀ x ∈ TsPath.join p, decide (x ≠ '.') = true := fun x hx => decide_eq_true fun he => join_no_dot p h (he ▸ hx)
  have := List.takeWhile_append_of_pos (l₂ := []) hall
  rwa [List.append_nil, List.takeWhile_nil, List.append_nil] at this

theorem join_target (p : List Key) (hp : p ≠ []) (h : TsPath.join p = "target".toList) : p = ["target".toList] := by
  cases p with
  | nil => exact absurd rfl hp
  | cons k ks =>
    cases ks with
    | nil => rw [TsPath.join] at h; rw [h]
    | cons k2 ks =>
      exfalso
      have : '/' ∈ "target".toList := by
        rw [← h, TsPath.join]
        · exact List.mem_append_right _ (List.mem_cons_self ..)
        · simp
      exact absurd this (by decide)

theorem like_keys (s : Dict (Option A)) : ∀ (s0 : Dict (Option A)) (pre : List Key), Like (fun _ _ _ => True) pre s s0 → s0.keys = s.keys := by
  induction s with
  | nil => intro s0 pre h; cases s0 <;> first | rfl | exact h.elim
  | leaf k a r ih =>
    intro s0 pre h
    cases s0 with
    | nil => exact h.elim
    | sub => exact h.elim
    | leaf => simp only [Dict.keys, h.1, ih _ _ h.2.2]
  | sub k d r _ ih =>
    intro s0 pre h
    cases s0 with
    | nil => exact h.elim
    | leaf => exact h.elim
    | sub => simp only [Dict.keys, h.1, ih _ _ h.2.2]

/-- Mapping a state with the infos of a state of the same shape. -/
theorem zip_infos {X : Type} (axes : List Key → Bool) (g : Option A → Str → X) (s : Dict (Option A)) :
    ∀ (s0 : Dict (Option A)) (pre : List Key) (w : Dict OInfo), Like (fun _ _ _ => True) pre s s0 → Clean s →
      (∀ k ∈ s.keys, w.get k = (paramInfos axes pre s0).get k) →
      zip true true (fun x (i : OInfo) => g x i.name) s w = some (mapL (fun p x => g x (TsPath.join p)) pre s) := by
  induction s with
  | nil => intro s0 pre w _ _ _; rfl
  | leaf k a r ih =>
    intro s0 pre w hl hc hw
    cases s0 with
    | nil => exact hl.elim
    | sub => exact hl.elim
    | leaf k' b r0 =>
      obtain ⟨rfl, _, hl⟩ := hl
      have hg := hw k (List.mem_cons_self ..)
      simp only [paramInfos, Dict.get, if_true] at hg
      have hr := ih r0 pre w hl hc.2.2.2 (fun k' hk' => by
        have hne : k ≠ k' := fun he => hc.2.2.1 (he ▸ hk')
        rw [hw k' (List.mem_cons_of_mem _ hk'), paramInfos, Dict.get, if_neg hne])
      simp only [zip, hg, hr, mapL]
  | sub k d r ihd ih =>
    intro s0 pre w hl hc hw
    cases s0 with
    | nil => exact hl.elim
    | leaf => exact hl.elim
    | sub k' d0 r0 =>
      obtain ⟨rfl, hld, hl⟩ := hl
      have hg := hw k (List.mem_cons_self ..)
      have hr := ih r0 pre w hl hc.2.2.2.2 (fun k' hk' => by
        have hne : k ≠ k' := fun he => hc.2.2.1 (he ▸ hk')
        rw [hw k' (List.mem_cons_of_mem _ hk'), paramInfos]
        split_ifs <;> rw [Dict.get, if_neg hne])
      have hkeys := like_keys d d0 _ hld
      simp only [paramInfos] at hg
      by_cases he : d0.keys.isEmpty = true
      · rw [if_pos he, Dict.get, if_pos rfl] at hg
        have he' : d = .nil := by rw [← isEmpty_nil, ← hkeys]; exact he
        subst he'
        simp only [zip, hg, hr, mapL]
        rfl
      · rw [if_neg he, Dict.get, if_pos rfl] at hg
        have hd := ihd d0 (pre ++ [k]) (paramInfos axes (pre ++ [k]) d0) hld hc.2.2.2.1 (fun _ _ => rfl)
        have hall : (paramInfos axes (pre ++ [k]) d0).keys.all d.keys.contains = true := by
          rw [paramInfos_keys, hkeys, List.all_eq_true]
          intro x hx
          simpa using hx
        simp only [zip, hg, hr, mapL, hall, Bool.not_true, Bool.false_or, if_true, hd]

/-- **C88**: whatever `save_dtype` is, what is stored is the state as it is (for a state whose keys have no dots and whose 'target' is a dict, as
all models have it). -/
theorem C88_save_as_is (O : Ops A T) (saveDtype : Option T) (axes : List Key → Bool) (s0 s : Dict (Option A)) (hs : Clean s)
    (hl : Like (fun _ _ _ => True) [] s s0) (ht : arrayAt s ["target".toList] = none) : save O saveDtype axes s0 s = some s := by
  unfold save treeMap
  have hk : (paramInfos axes [] s0).keys.all s.keys.contains = true := by
    rw [paramInfos_keys, List.all_eq_true]
    intro k hk
    rw [like_keys s s0 [] hl] at hk
    simpa using hk
  rw [if_pos (by rw [hk]; rfl)]
  have hz := zip_infos axes (fun x n => x.map (castIf O (saveDtypeOf ⟨n, true⟩ saveDtype))) s s0 [] _ hl hs (fun _ _ => rfl)
  have hfun : (fun (x : Option A) (i : OInfo) => x.map (castIf O (saveDtypeOf i saveDtype))) =
      (fun x (i : OInfo) => (fun (x : Option A) n => x.map (castIf O (saveDtypeOf ⟨n, true⟩ saveDtype))) x i.name) := by
    funext x i
    rfl
  rw [hfun, hz]
  congr 1
  have hid : ∀ (d : Dict (Option A)) (pre : List Key), (∀ e ∈ leaves pre d, TsPath.Spec.Clean e.1 ∧ e.1 ≠ ["target".toList]) →
      mapL (fun p x => (fun (x : Option A) n => x.map (castIf O (saveDtypeOf ⟨n, true⟩ saveDtype))) x (TsPath.join p)) pre d = d := by
    have hone : ∀ (p : List Key) (x : Option A), TsPath.Spec.Clean p → p ≠ ["target".toList] →
        x.map (castIf O (saveDtypeOf ⟨TsPath.join p, true⟩ saveDtype)) = x := by
      intro p x hc hne
      have : saveDtypeOf (T := T) ⟨TsPath.join p, true⟩ saveDtype = none := by
        unfold saveDtypeOf
        rw [takeWhile_dot p (fun k hk => (hc.2 k hk).2), if_pos]
        exact fun h => hne (join_target p hc.1 h)
      rw [this]
      cases x <;> rfl
    intro d
    induction d with
    | nil => intro _ _; rfl
    | leaf k x r ih =>
      intro pre h
      obtain ⟨h1, h2⟩ := h (pre ++ [k], x) (List.mem_cons_self ..)
      simp only [mapL]
      rw [hone _ x h1 h2, ih pre fun e he => h e (List.mem_cons_of_mem _ he)]
    | sub k d r ihd ih =>
      intro pre h
      simp only [mapL]
      rw [ih pre fun e he => h e (List.mem_append_right _ he), ihd _ fun e he => h e (List.mem_append_left _ he)]
  refine hid s [] fun e he => ⟨leaves_clean s [] hs (fun k hk => by cases hk) e he, fun h => ?_⟩
  have hwalk : ∀ (d : Dict (Option A)), Clean d → ∀ e ∈ leaves [] d, e.1 = ["target".toList] → (arrayAt d ["target".toList]).isSome := by
    intro d
    induction d with
    | nil => intro _ e he; cases he
    | leaf k x r ih =>
      intro hc e he h
      rcases List.mem_cons.1 he with rfl | he
      · have : k = "target".toList := by simpa using h
        rw [arrayAt_leaf, if_pos this, if_pos rfl]; rfl
      · rw [arrayAt_leaf]
        by_cases hk : k = "target".toList
        · rw [if_pos hk, if_pos rfl]; rfl
        · rw [if_neg hk]; exact ih hc.2.2.2 e he h
    | sub k d r _ ih =>
      intro hc e he h
      rcases List.mem_append.1 he with he | he
      · exfalso
        obtain ⟨k', _, q, h'⟩ := leaves_path d ([] ++ [k]) e he
        rw [h'] at h
        simp at h
      · have := ih hc.2.2.2.2 e he h
        rw [arrayAt_sub, if_neg]
        · exact this
        · rintro rfl
          exact hc.2.2.1 (arrayAt_head r _ [] this)
  have := hwalk s hs e he h
  rw [ht] at this
  cases this

/-- **C88**: a state saved and restored by managers for states of the same shape is the saved state, the parameters and the arrays that are not
partitioned cast to the restore dtype if there is one; the save dtype plays no role. -/
theorem C88_round_trip (O : Ops A T) (hO : Good O) (saveDtype rest : Option T) (axes axes' : List Key → Bool) (s0 s s1 : Dict (Option A)) (hs : Clean s)
    (hso : Ordinary s) (hs1 : Ordinary s1) (hf : AllFull s1) (hl : Like (fun _ _ _ => True) [] s s0) (ht : arrayAt s ["target".toList] = none)
    (h1 : ∀ p, (arrayAt s1 p).isSome → (arrayAt s p).isSome)
    (h2 : ∀ p a, arrayAt s p = some (some a) → arrayAt s1 p ≠ some none) :
    ∃ stored r, save O saveDtype axes s0 s = some stored ∧ restore O rest axes' s1 none stored = some r ∧
      ∀ p, ((arrayAt r p).isSome ↔ (arrayAt s1 p).isSome) ∧
        ∀ a, arrayAt s p = some (some a) → (arrayAt s1 p).isSome → arrayAt r p = some (some (restored O rest axes' p a)) := by
  refine ⟨s, ?_⟩
  have hfb : ∀ f : Dict (Option (Arr A)), (none : Option (Dict (Option (Arr A)))) = some f → Ordinary f ∧ ∀ p, (arrayAt f p).isSome ↔ (arrayAt s1 p).isSome :=
    fun f h => by cases h
  obtain ⟨r, hr⟩ := C88_succeeds O rest axes' s1 s none hs1 hso hfb hf (fun _ => h1)
  refine ⟨r, C88_save_as_is O saveDtype axes s0 s hs hl ht, hr, fun p => ?_⟩
  obtain ⟨_, h3⟩ := C88_restore O hO rest axes' s1 s r none hs1 hso hfb hr
  refine ⟨(h3 p).1, fun a ha hp => (h3 p).2.1 a ha ?_⟩
  obtain ⟨x, hx⟩ := Option.isSome_iff_exists.1 hp
  cases x with
  | none => exact absurd hx (h2 p a ha)
  | some a0 => exact ⟨a0, hx⟩

/-! ### Witnesses and findings -/

/-- float32 is 0, bfloat16 is 1, int32 is 5. -/
def exState (v : Nat) : Dict (Option (List Nat × Nat × Nat)) :=
  .sub "target".toList (.leaf "w".toList (some ([4, 2], 0, v)) .nil)
    (.sub "state".toList (.leaf "step".toList (some ([], 5, v + 1)) (.leaf "m".toList (some ([4], 0, v + 2)) .nil)) .nil)

def exAxes (p : List Key) : Bool := p.getLast? ≠ some "step".toList

theorem exState_ordinary (v : Nat) : Ordinary (exState v) := by
  simp only [exState, Ordinary, Dict.keys]
  repeat' (first | exact trivial | refine And.intro ?_ ?_ | decide)

theorem exState_clean (v : Nat) : Spec.Clean (exState v) := by
  simp only [exState, Spec.Clean, Dict.keys]
  repeat' (first | exact trivial | refine And.intro ?_ ?_ | decide)

/-- `C88_round_trip` applies. -/
example : ∃ stored r, save exOps (some 1) exAxes (exState 0) (exState 10) = some stored ∧ restore exOps none exAxes (exState 3) none stored = some r ∧
    ∀ p, ((arrayAt r p).isSome ↔ (arrayAt (exState 3) p).isSome) ∧
      ∀ a, arrayAt (exState 10) p = some (some a) → (arrayAt (exState 3) p).isSome → arrayAt r p = some (some (restored exOps none exAxes p a)) :=
  C88_round_trip exOps exOps_good (some 1) none exAxes exAxes (exState 0) (exState 10) (exState 3) (exState_clean 10) (exState_ordinary 10)
    (exState_ordinary 3) ⟨by simp, trivial, by simp, trivial, trivial⟩ ⟨rfl, ⟨rfl, trivial, trivial⟩, rfl, ⟨rfl, trivial, rfl, trivial, trivial⟩, trivial⟩
    (by decide)
    (fun p hp => by
      have e : ∀ v, exState v = mapL (fun _ x => x.map fun a => (a.1, a.2.1, a.2.2 + v)) [] (exState 0) := by
        intro v
        simp only [exState, mapL, Option.map_some, Nat.zero_add, Nat.add_comm v, Nat.add_zero]
      rw [e, arrayAt_mapL, Option.isSome_map] at hp ⊢
      exact hp)
    (fun p a ha hn => by
      have e : exState 3 = mapL (fun _ x => x.map fun a => (a.1, a.2.1, a.2.2 - 7)) [] (exState 10) := rfl
      rw [e, arrayAt_mapL, ha] at hn
      cases hn)

/-- **C88, finding**: a `save_dtype` of bfloat16 (1) has no effect, although `_construct_save_args` is meant to apply it to the parameters; with
`Checkpointer` it does (C64). -/
theorem C88_save_dtype_lost : ∃ stored, save exOps (some 1) exAxes (exState 10) (exState 10) = some stored ∧
    arrayAt stored ["target".toList, "w".toList] = some (some ([4, 2], 0, 10)) ∧
    ∃ o r, writeState exOps (some 1) "/m".toList (parameterInfos exOps "/m".toList exAxes (exState 10)) (exState 10) = .ok o ∧
      SaveRestore.restore exOps none true "/m".toList (disk (writes o)) (parameterInfos exOps "/m".toList exAxes (exState 10)) (file o) = .ok r ∧
      arrayAt r ["target".toList, "w".toList] = some (some ([4, 2], 1, 10)) :=
  ⟨_, rfl, by decide, _, _, rfl, rfl, by decide⟩

/-- **C88, finding**: with a restore dtype of bfloat16, a step that is not partitioned is restored as bfloat16, although
`_construct_restore_args` restricts the dtype to the parameters; `Checkpointer` keeps the int32 (C64).  A step of 257 is then 256. -/
theorem C88_step_cast : ∃ r, restore exOps (some 1) exAxes (exState 0) none (exState 10) = some r ∧
    arrayAt r ["target".toList, "w".toList] = some (some ([4, 2], 1, 10)) ∧
    arrayAt r ["state".toList, "m".toList] = some (some ([4], 0, 12)) ∧
    arrayAt r ["state".toList, "step".toList] = some (some ([], 1, 11)) :=
  ⟨_, rfl, by decide, by decide, by decide⟩

/-- `C88_restore` with a fallback state: the checkpoint lacks the accumulator and has something else. -/
example : ∃ r, restore exOps none exAxes (exState 0)
      (some (mapL (fun _ x => x.map fun a => (⟨a, false⟩ : Arr _)) [] (exState 50)))
      (.sub "target".toList (.leaf "w".toList (some ([4, 2], 0, 7)) (.leaf "old".toList (some ([], 0, 9)) .nil)) .nil) = some r ∧
    arrayAt r ["target".toList, "w".toList] = some (some ([4, 2], 0, 7)) ∧
    arrayAt r ["state".toList, "m".toList] = some (some ([4], 0, 52)) ∧ arrayAt r ["target".toList, "old".toList] = none :=
  ⟨_, rfl, by decide, by decide, by decide⟩

/-- A state with an empty dict, which `Checkpointer` restores, is stored but not restored. -/
theorem C88_empty : save exOps none exAxes (SaveRestore.exState 1) (SaveRestore.exState 10) = some (SaveRestore.exState 10) ∧
    restore exOps none exAxes (SaveRestore.exState 1) none (SaveRestore.exState 10) = none := by
  constructor <;> rfl

end Verif.Orbax
