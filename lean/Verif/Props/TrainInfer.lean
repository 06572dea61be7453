import Verif.Model.TrainInfer
import Verif.Props.TrainedJob
import Verif.Props.Fallback
import Verif.Props.OfflineInfer
/-
C127: from the training job to the output of the inference job.  Composes C64 (files of a state), C125 and C126 (jobs), C36 and C109 (inference).
-/
namespace Verif.TrainInfer
open Verif Verif.StateDict Verif.TrainState Verif.SaveRestore
open Verif.SaveRestore.Spec (Like Clean SameKind Good Every Moved conv)
open Verif.OptaxState.Spec (ProperDict arrayAt)
open Verif.Fallback
open Verif.Fallback.Spec (Ordinary Readable)
open Verif.JobFiles (Store Content prog msgName diskOf encState)
open Verif.JobFiles.Spec (Fine Fits Stable Tmp History)
open Verif.Ckpt (Dir ckptName pathJoin latestStep)
open Verif.TsPath (Str)
open Verif.TrainJob.Spec (ideal)
open Verif.TrainedJob (Codec whole parts comp ofColls)
open Verif.TrainedJob.Spec (Alike AlikeM GoodCodec Keeps batches)

variable {A T : Type} [DecidableEq T]

/-! ### Trees -/

theorem every_at {α : Type} (P : List Key → α → Prop) (s : Dict α) : ∀ (pre : List Key), Every P pre s → ∀ p x, arrayAt s p = some x → P (pre ++ p) x := by
  induction s with
  | nil =>
    intro pre _ p x h
    cases p with
    | nil => cases h
    | cons k ks => rw [arrayAt_cons, Dict.get, sel_none] at h; cases h
  | leaf k a r ih =>
    intro pre h p x hx
    cases p with
    | nil => rw [arrayAt_nil] at hx; cases hx
    | cons k' ks =>
      rw [arrayAt_leaf] at hx
      split_ifs at hx with h1 h2
      · subst h1 h2; cases hx; exact h.1
      · exact ih _ h.2 _ _ hx
  | sub k d r ihd ih =>
    intro pre h p x hx
    cases p with
    | nil => rw [arrayAt_nil] at hx; cases hx
    | cons k' ks =>
      rw [arrayAt_sub] at hx
      split_ifs at hx with h1
      · subst h1
        have := ihd _ h.1 _ _ hx
        rwa [List.append_assoc] at this
      · exact ih _ h.2 _ _ hx

theorem like_of_eq {α β γ : Type} (f : List Key → α → γ) (g : List Key → β → γ) (a : Dict α) : ∀ (pre : List Key) (b : Dict β),
    mapL f pre a = mapL g pre b → Like (fun p x y => f p x = g p y) pre a b := by
  induction a with
  | nil => intro pre b h; cases b <;> simp_all [mapL, Like]
  | leaf k x r ih =>
    intro pre b h
    cases b with
    | nil => cases h
    | leaf k' y r' =>
      simp only [mapL, Dict.leaf.injEq] at h
      obtain ⟨rfl, h1, h2⟩ := h
      exact ⟨rfl, h1, ih _ _ h2⟩
    | sub => cases h
  | sub k d r ihd ih =>
    intro pre b h
    cases b with
    | nil => cases h
    | leaf => cases h
    | sub k' d' r' =>
      simp only [mapL, Dict.sub.injEq] at h
      obtain ⟨rfl, h1, h2⟩ := h
      exact ⟨rfl, ihd _ _ h1, ih _ _ h2⟩

theorem like_map_right {α β γ : Type} {R : List Key → α → β → Prop} {Q : List Key → α → Prop} {R' : List Key → α → γ → Prop} (h : List Key → β → γ)
    (hR : ∀ p x y, R p x y → Q p x → R' p x (h p y)) (a : Dict α) : ∀ (pre : List Key) (b : Dict β), Like R pre a b → Every Q pre a →
      Like R' pre a (mapL h pre b) := by
  induction a with
  | nil => intro pre b hl _; cases b <;> simp_all [mapL, Like]
  | leaf k x r ih =>
    intro pre b hl hq
    cases b with
    | nil => exact hl.elim
    | leaf k' y r' =>
      obtain ⟨rfl, h1, h2⟩ := hl
      exact ⟨rfl, hR _ _ _ h1 hq.1, ih _ _ h2 hq.2⟩
    | sub => exact hl.elim
  | sub k d r ihd ih =>
    intro pre b hl hq
    cases b with
    | nil => exact hl.elim
    | leaf => exact hl.elim
    | sub k' d' r' =>
      obtain ⟨rfl, h1, h2⟩ := hl
      exact ⟨rfl, ihd _ _ h1 hq.1, ih _ _ h2 hq.2⟩

theorem full_mapL {α β : Type} (g : List Key → α → β) (d : Dict α) : ∀ pre, Full (mapL g pre d) ↔ Full d := by
  induction d with
  | nil => intro _; rfl
  | leaf k a r ih => intro pre; simp only [mapL, Full, ih]
  | sub k d r ihd ih =>
    intro pre
    simp only [mapL, Full, ihd, ih]
    have : mapL g (pre ++ [k]) d ≠ .nil ↔ d ≠ .nil := by cases d <;> simp [mapL]
    rw [this]

/-! ### A smaller template -/

/-- **C127** (smaller templates).  A state `s` is saved, moved anywhere, and restored into a template `s1` that has some of its entries only.  The result has
exactly the entries of `s1`, each with the saved value, parameters cast to the dtype asked for. -/
theorem C127_part (O : Ops A T) (hO : Good O) (save rest : Option T) (dev : Bool) (D0 D D1 D2 : Str) (hD : TsPath.Spec.Dir D)
    (hD2 : TsPath.Spec.Dir D2) (hk : TsPath.gsPrefix.isPrefixOf D0 = TsPath.gsPrefix.isPrefixOf D) (ax0 ax1 : List Key → Bool)
    (s s0 s1 : Dict (Option A)) (hs : Clean s) (h0 : Like (fun _ x y => SameKind O x y ∧ x.map O.dtype = y.map O.dtype) [] s s0)
    (hs1 : Ordinary s1) (hfull : Full s1) (h1 : Every (fun p y => ∃ x, arrayAt s p = some x ∧ SameKind O x y) [] s1)
    (hax : ∀ p, ax0 p = true → ax1 p = true ∨ dev = false)
    (hu : Every (fun p x => ∀ a, x = some a → ax0 p = true →
      O.dtype (conv O (if p.head? = some "target".toList then save else none) a) ≠ O.u16) [] s)
    (hsave : save = none → ∀ p, p.head? = some "target".toList → ax0 p = true) (hrest : rest ≠ none → "target".toList ∈ s1.keys) :
    ∃ o, writeState O save D (parameterInfos O D0 ax0 s0) s = .ok o ∧
      ∀ ws, ws.Perm (writes o) → ∀ dsk, Moved D D2 (disk ws) dsk →
        ∃ r, restore O rest dev D2 dsk (parameterInfos O D1 ax1 s1) (file o) = .ok r ∧
          Like (fun p _ z => ∃ x, arrayAt s p = some x ∧
            z = x.map fun a => if p.head? = some "target".toList then conv O rest (conv O save a) else a) [] s1 r := by
  obtain ⟨o, ho, hall⟩ := C64_round_trip O hO save none false D0 D D1 D2 hD hD2 hk ax0 ax1 s s0 s hs h0 (like_self O s [])
    (fun p _ => Or.inr rfl) hu hsave (fun h => absurd rfl h)
  refine ⟨o, ho, fun ws hws dsk hmv => ?_⟩
  obtain ⟨r', hr', hlike⟩ := hall ws hws dsk hmv
  -- the parts of the restoring into the same model
  unfold restore at hr'
  cases hcv : convert D2 (file o) with
  | error e => rw [hcv] at hr'; cases hr'
  | ok c =>
    rw [hcv] at hr'
    simp only at hr'
    cases hfl : fill (parameterInfos O D1 ax1 s) c with
    | error e => rw [hfl] at hr'; cases hr'
    | ok w =>
      rw [hfl] at hr'
      simp only at hr'
      cases hz : zipT (readLeaf O none false D2 dsk) [] (parameterInfos O D1 ax1 s) w with
      | error e => rw [hz] at hr'; cases hr'
      | ok r'' =>
        rw [hz] at hr'
        simp only [Option.isSome_none, Bool.false_and, Bool.false_eq_true, if_false] at hr'
        cases hr'
        -- what has been written
        unfold writeState at ho
        split_ifs at ho
        obtain ⟨_, -, hcat⟩ := convert_shape D2 (file o) c hcv
        have hread : ∀ p a, arrayAt s p = some (some a) → ∃ y, arrayAt c p = some y ∧
            (∃ i : Info T, i.shape = O.shape a ∧ Readable O false D2 dsk i y ∧
              Verif.Fallback.Spec.Holds D2 dsk i y (if p.head? = some "target".toList then conv O save a else a)) ∧
            (∀ sp, y = some (.spec sp) → ax0 p = true) := by
          intro p a ha
          have hinf : arrayAt (parameterInfos O D1 ax1 s) p = some (paramInfo O D1 ax1 p (some a)) := by
            unfold parameterInfos
            rw [arrayAt_mapL, ha]
            rfl
          obtain ⟨i, hi⟩ : ∃ i, paramInfo O D1 ax1 p (some a) = some i := ⟨_, rfl⟩
          have hish : i.shape = O.shape a := by
            unfold paramInfo at hi
            simp only [Option.map_some, Option.some.injEq] at hi
            rw [← hi]
            split_ifs <;> rfl
          rw [hi] at hinf
          obtain ⟨x, y, v, g1, g2, g3, g4⟩ := restore_at O none false D2 dsk p [] _ _ c w _ hcv hfl hz i hinf
          obtain ⟨y', g5, g6⟩ := hcat p x g1
          rw [g2] at g5
          cases g5
          refine ⟨y, g6, ⟨i, hish, ?_⟩, ?_⟩
          · obtain ⟨q1, v', q2, q3⟩ := readLeaf_holds O none false D2 dsk _ i y v g3
            refine ⟨q1, ?_⟩
            obtain ⟨z, q4, q5⟩ := (like_at _ s [] r' hlike p).1 _ ha
            rw [g4] at q4
            cases q4
            simp only [Option.map_some, Option.some.injEq, List.nil_append] at q5
            have : v = v' := by rw [q3]; unfold restoreCast; simp
            rw [← this, q5] at q2
            exact q2
          · rintro sp rfl
            by_contra hno
            have hno' : ax0 p = false := by simpa using hno
            obtain ⟨z1, _, _⟩ := zipT_at _ p _ _ _ _ ho
            obtain ⟨b', c', q1, q2, q3⟩ := z1 a ha
            unfold parameterInfos at q1
            rw [arrayAt_mapL, Option.map_eq_some_iff] at q1
            obtain ⟨a0, _, q5⟩ := q1
            have hspec : b'.bind (·.spec) = none := by
              rw [← q5]
              unfold paramInfo
              cases a0 with
              | none => rfl
              | some a0 => simp only [List.nil_append, Option.map_some, hno', Bool.false_eq_true, if_false, Option.bind_some]
            unfold writeLeaf at q2
            rw [hspec] at q2
            cases q2
            unfold file at g1
            rw [arrayAt_mapL, q3] at g1
            cases g1
            cases g2
        have hnone' : ∀ p, arrayAt s p = some none → (arrayAt c p).isSome := by
          intro p hp
          have h2 := (zipT_at _ p _ _ _ _ ho).2.1 hp
          obtain ⟨y, _, q⟩ := hcat p none (by unfold file; rw [arrayAt_mapL, h2]; rfl)
          rw [q]; rfl
        have hsome : ∀ p, (arrayAt s p).isSome → (arrayAt c p).isSome := by
          intro p hp
          obtain ⟨x, hx⟩ := Option.isSome_iff_exists.1 hp
          cases x with
          | none => exact hnone' p hx
          | some a => obtain ⟨y, hy, _⟩ := hread p a hx; rw [hy]; rfl
        -- the smaller template
        have hat := every_at _ s1 [] h1
        simp only [List.nil_append] at hat
        have hinfos : ∀ p, arrayAt (parameterInfos O D1 ax1 s1) p = (arrayAt s1 p).map (paramInfo O D1 ax1 p) := by
          intro p
          unfold parameterInfos
          rw [arrayAt_mapL]
          rfl
        obtain ⟨b, b1, b2, b3⟩ := fill_base (A := A) (parameterInfos O D1 ax1 s1) ((ordinary_mapL _ _ _).2 hs1)
          ((full_mapL _ _ _).2 hfull) [] c (fun p hp => by
            rw [hinfos, Option.isSome_map] at hp
            obtain ⟨y, hy⟩ := Option.isSome_iff_exists.1 hp
            obtain ⟨x, hx, -⟩ := hat p y hy
            exact hsome p (by rw [hx]; rfl))
        have hb : Ordinary b := by
          have : Ordinary (parameterInfos O D1 ax1 s1) := (ordinary_mapL _ _ _).2 hs1
          rwa [b1, ordinary_mapL] at this
        have hzip := zipT_ordinary (readLeaf O rest dev D2 dsk) (fun _ (x : Option (Info T) × Option (FLeaf A T)) => x.1)
          (fun _ x => if x.1.isSome = true then x.2 else none)
          (fun p x => if x.1.isSome = true then ((arrayAt s p).join).map fun a => if p.head? = some "target".toList then conv O rest (conv O save a) else a else none)
          b b [] hb (fun _ _ => rfl) (by
            intro e he
            obtain ⟨q, q1, q2⟩ := mem_leaves b hb [] e he
            rw [List.nil_append] at q1
            subst q1
            have hx := b3 e.1 e.2 q2
            have hi : arrayAt (parameterInfos O D1 ax1 s1) e.1 = some e.2.1 := by rw [b1, arrayAt_mapL, q2]; rfl
            rw [hinfos, Option.map_eq_some_iff] at hi
            obtain ⟨y1, k1, k2⟩ := hi
            obtain ⟨xs, m1, m2⟩ := hat _ _ k1
            obtain ⟨p, i, x⟩ := e
            simp only at hx k1 k2 m1 m2 ⊢
            cases y1 with
            | none => cases k2; rfl
            | some a1 =>
              cases xs with
              | none => cases m2
              | some a =>
                unfold SameKind at m2
                simp only [Option.map_some, Option.some.injEq] at m2
                obtain ⟨y, l1, ⟨i0, l2, l3, l4⟩, l5⟩ := hread p a m1
                rw [hx] at l1
                cases l1
                obtain ⟨i, rfl⟩ : ∃ i', i = some i' := ⟨_, k2.symm⟩
                have hish : i.shape = O.shape a1 ∧ (ax1 p = true → i.spec.isSome) := by
                  unfold paramInfo at k2
                  simp only [Option.map_some, Option.some.injEq] at k2
                  rw [← k2]
                  split_ifs with hax1
                  · exact ⟨rfl, fun _ => rfl⟩
                  · exact ⟨rfl, fun h => absurd h hax1⟩
                have htr : ∀ v, Verif.Fallback.Spec.Holds D2 dsk i0 x v → Verif.Fallback.Spec.Holds D2 dsk i x v := by
                  intro v hv
                  rcases hv with hv | ⟨sp, loc, m1, m3, m4, m5⟩
                  · exact Or.inl hv
                  · exact Or.inr ⟨sp, loc, m1, by rw [m3, l2, m2, hish.1], m4, m5⟩
                have hrd : Readable O dev D2 dsk i x := by
                  refine ⟨⟨_, htr _ l4⟩, fun sp hsp' => ⟨(l3.2 sp hsp').1, fun hdev => ?_⟩⟩
                  rcases hax p (l5 sp hsp') with h | h
                  · exact hish.2 h
                  · rw [hdev] at h; cases h
                obtain ⟨v, hv⟩ := readLeaf_ok O rest dev D2 dsk p i x hrd
                obtain ⟨-, a', u1, u2⟩ := readLeaf_holds O rest dev D2 dsk p i x v hv
                have := holds_unique D2 dsk i x _ _ u1 (htr _ l4)
                subst this
                simp only [Option.isSome_some, if_true, stepF, hv, m1, Option.join_some, Option.map_some]
                rw [u2, restoreCast_conv O hO]
                split_ifs <;> rfl)
        refine ⟨_, (?_ : _ = Except.ok (mapL (fun p (x : Option (Info T) × Option (FLeaf A T)) => if x.1.isSome = true then
          ((arrayAt s p).join).map fun a => if p.head? = some "target".toList then conv O rest (conv O save a) else a else none) [] b)), ?_⟩
        · unfold restore
          rw [hcv]
          simp only
          rw [b2]
          simp only
          rw [← b1] at hzip
          rw [hzip]
          simp only
          rw [if_neg]
          rw [Bool.and_eq_true, Bool.not_eq_true']
          rintro ⟨g1, g2⟩
          rw [keys_mapL] at g2
          have hk1 : b.keys = s1.keys := by
            have := congrArg Dict.keys b1
            unfold parameterInfos at this
            rw [keys_mapL, keys_mapL] at this
            exact this.symm
          rw [hk1] at g2
          have := hrest (Option.isSome_iff_ne_none.1 g1)
          rw [← List.contains_iff_mem, g2] at this
          cases this
        · refine like_map_right _ ?_ s1 [] b (like_of_eq _ _ s1 [] b b1) h1
          rintro p y ⟨i, x⟩ hy ⟨xs, hxs, hk⟩
          refine ⟨xs, hxs, ?_⟩
          simp only at hy ⊢
          cases y with
          | none =>
            cases xs with
            | none => cases hy; rfl
            | some => cases hk
          | some a =>
            cases xs with
            | none => cases hk
            | some a' =>
              rw [← hy, hxs]
              rfl

/-! ### The state of an inference job -/

namespace Spec

/-- The inference job is for the model of the training job: the same parameters, mutables and step, of the same shapes (the dtypes may be different), no
empty dicts; what is partitioned in training is partitioned in inference, if parameters go to devices. -/
structure Suits (c : Store A T) (u : TState (Option A)) (r : Reader A T) : Prop where
  ops : r.O = c.O
  params : Like (fun _ => SameKind c.O) [] r.like_.params u.params
  step : SameKind c.O r.like_.step u.step
  mutables : List.Forall₂ (fun a b => a.1 = b.1 ∧ Like (fun _ => SameKind c.O) [] a.2 b.2) r.like_.mutables u.mutables
  names : Ordinary (whole (iStateDict r.like_))
  full : Full (whole (iStateDict r.like_))
  axes : ∀ p, c.axes p = true → r.axes p = true ∨ r.onDevices = false

/-- Parameters, cast to the dtype asked for. -/
def castAll (O : Ops A T) (dtype : Option T) (d : Dict (Option A)) : Dict (Option A) := mapL (fun _ x => x.map (conv O dtype)) [] d

end Spec
open Spec

theorem every_of_at {α : Type} (P : List Key → α → Prop) (s : Dict α) : ∀ (pre : List Key), Ordinary s → (∀ p x, arrayAt s p = some x → P (pre ++ p) x) →
    Every P pre s := by
  intro pre hs h
  have h1 : ∀ e ∈ leaves pre s, P e.1 e.2 := by
    intro e he
    obtain ⟨q, q1, q2⟩ := mem_leaves s hs pre e he
    rw [q1]
    exact h _ _ q2
  clear h hs
  induction s generalizing pre with
  | nil => trivial
  | leaf k a r ih => exact ⟨h1 _ (List.mem_cons_self ..), ih pre fun e he => h1 e (List.mem_cons_of_mem _ he)⟩
  | sub k d r ihd ih => exact ⟨ihd _ fun e he => h1 e (List.mem_append_left _ he), ih pre fun e he => h1 e (List.mem_append_right _ he)⟩

theorem get_not_keys {α : Type} (d : Dict α) (k : Key) (h : k ∉ d.keys) : d.get k = none := by
  induction d with
  | nil => rfl
  | leaf k' a r ih =>
    simp only [Dict.keys, List.mem_cons, not_or] at h
    rw [Dict.get, if_neg (fun e => h.1 e.symm), ih h.2]
  | sub k' d r _ ih =>
    simp only [Dict.keys, List.mem_cons, not_or] at h
    rw [Dict.get, if_neg (fun e => h.1 e.symm), ih h.2]

/-- Two dicts with the same entries. -/
theorem like_ext {α β : Type} {R R' : List Key → α → β → Prop} (a : Dict α) : ∀ (pre pre' : List Key) (x y : Dict β), Ordinary a → Like R pre a x →
    Like R' pre' a y → (∀ p, arrayAt x p = arrayAt y p) → x = y := by
  induction a with
  | nil => intro pre pre' x y _ hx hy _; cases x <;> cases y <;> first | rfl | exact hx.elim | exact hy.elim
  | leaf k v r ih =>
    intro pre pre' x y ha hx hy h
    cases x with
    | nil => exact hx.elim
    | sub => exact hx.elim
    | leaf k1 x1 x2 =>
      cases y with
      | nil => exact hy.elim
      | sub => exact hy.elim
      | leaf k2 y1 y2 =>
        obtain ⟨rfl, -, hx2⟩ := hx
        obtain ⟨rfl, -, hy2⟩ := hy
        have h1 := h [k]
        rw [arrayAt_leaf, arrayAt_leaf, if_pos rfl, if_pos rfl, if_pos rfl, if_pos rfl] at h1
        cases h1
        rw [ih _ _ x2 y2 ha.2.2.2 hx2 hy2]
        intro p
        cases p with
        | nil => rw [arrayAt_nil, arrayAt_nil]
        | cons k' ks =>
          by_cases hk : k = k'
          · subst hk
            rw [arrayAt_cons, arrayAt_cons, get_not_keys _ _ (by rw [JobFiles.like_keys' _ _ _ hx2]; exact ha.2.2.1),
              get_not_keys _ _ (by rw [JobFiles.like_keys' _ _ _ hy2]; exact ha.2.2.1)]
          · have := h (k' :: ks)
            rwa [arrayAt_leaf, arrayAt_leaf, if_neg hk, if_neg hk] at this
  | sub k d r ihd ih =>
    intro pre pre' x y ha hx hy h
    cases x with
    | nil => exact hx.elim
    | leaf => exact hx.elim
    | sub k1 x1 x2 =>
      cases y with
      | nil => exact hy.elim
      | leaf => exact hy.elim
      | sub k2 y1 y2 =>
        obtain ⟨rfl, hx1, hx2⟩ := hx
        obtain ⟨rfl, hy1, hy2⟩ := hy
        rw [ih _ _ x2 y2 ha.2.2.2.2 hx2 hy2, ihd _ _ x1 y1 ha.2.2.2.1 hx1 hy1]
        · intro p
          have := h (k :: p)
          rwa [arrayAt_sub, arrayAt_sub, if_pos rfl, if_pos rfl] at this
        · intro p
          cases p with
          | nil => rw [arrayAt_nil, arrayAt_nil]
          | cons k' ks =>
            by_cases hk : k = k'
            · subst hk
              rw [arrayAt_cons, arrayAt_cons, get_not_keys _ _ (by rw [JobFiles.like_keys' _ _ _ hx2]; exact ha.2.2.1),
                get_not_keys _ _ (by rw [JobFiles.like_keys' _ _ _ hy2]; exact ha.2.2.1)]
            · have := h (k' :: ks)
              rwa [arrayAt_sub, arrayAt_sub, if_neg hk, if_neg hk] at this

theorem every_true {α : Type} (s : Dict α) : ∀ pre, Every (fun _ _ => True) pre s := by
  induction s with
  | nil => intro _; trivial
  | leaf k a r ih => intro pre; exact ⟨trivial, ih _⟩
  | sub k d r ihd ih => intro pre; exact ⟨ihd _, ih _⟩

theorem like_imp {α β : Type} {R R' : List Key → α → β → Prop} (h : ∀ p x y, R p x y → R' p x y) (a : Dict α) : ∀ (pre : List Key) (b : Dict β),
    Like R pre a b → Like R' pre a b := by
  induction a with
  | nil => intro pre b hl; cases b <;> first | trivial | exact hl.elim
  | leaf k x r ih =>
    intro pre b hl
    cases b with
    | nil => exact hl.elim
    | sub => exact hl.elim
    | leaf => exact ⟨hl.1, h _ _ _ hl.2.1, ih _ _ hl.2.2⟩
  | sub k d r ihd ih =>
    intro pre b hl
    cases b with
    | nil => exact hl.elim
    | leaf => exact hl.elim
    | sub => exact ⟨hl.1, ihd _ _ hl.2.1, ih _ _ hl.2.2⟩

theorem like_trans_kind (O : Ops A T) (a : Dict (Option A)) : ∀ (pre : List Key) (b c : Dict (Option A)), Like (fun _ => SameKind O) pre a b →
    Like (fun _ x y => SameKind O x y ∧ x.map O.dtype = y.map O.dtype) pre c b → Like (fun _ => SameKind O) pre a c := by
  induction a with
  | nil => intro pre b c h1 h2; cases b <;> cases c <;> first | trivial | exact h1.elim | exact h2.elim
  | leaf k x r ih =>
    intro pre b c h1 h2
    cases b with
    | nil => exact h1.elim
    | sub => exact h1.elim
    | leaf =>
      cases c with
      | nil => exact h2.elim
      | sub => exact h2.elim
      | leaf => exact ⟨h1.1.trans h2.1.symm, Eq.trans h1.2.1 (Eq.symm h2.2.1.1), ih _ _ _ h1.2.2 h2.2.2⟩
  | sub k d r ihd ih =>
    intro pre b c h1 h2
    cases b with
    | nil => exact h1.elim
    | leaf => exact h1.elim
    | sub =>
      cases c with
      | nil => exact h2.elim
      | leaf => exact h2.elim
      | sub => 
        obtain ⟨rfl, h3, h4⟩ := h1
        obtain ⟨rfl, h5, h6⟩ := h2
        exact ⟨rfl, ihd _ _ _ h3 h5, ih _ _ _ h4 h6⟩

theorem colls_kind (O : Ops A T) (a b c : Collections (Option A))
    (h1 : List.Forall₂ (fun a b => a.1 = b.1 ∧ Like (fun _ => SameKind O) [] a.2 b.2) a b) (h2 : AlikeM O c b) :
    ∀ pre, Like (fun _ => SameKind O) pre (ofColls a) (ofColls c) := by
  induction h1 generalizing c with
  | nil => cases h2; intro _; trivial
  | cons h _ ih =>
    intro pre
    rcases h2 with _ | ⟨h3, h4⟩
    obtain ⟨e1, e2⟩ := h
    exact ⟨e1.trans h3.1.symm, TrainedJob.like_prefix _ _ _ _ (like_trans_kind O _ _ _ _ e2 h3.2), ih _ h4 pre⟩

theorem colls_nil (O : Ops A T) (a b c : Collections (Option A))
    (h1 : List.Forall₂ (fun a b => a.1 = b.1 ∧ Like (fun _ => SameKind O) [] a.2 b.2) a b) (h2 : AlikeM O c b) : a = [] ↔ c = [] := by
  cases h1 with
  | nil => cases h2; simp
  | cons => rcases h2 with _ | ⟨_, _⟩; simp

/-- The entries of a state dict. -/
theorem whole_at {α : Type} (sd : SDict α) (k : Key) (q : List Key) : arrayAt (whole sd) (k :: q) =
    if "target".toList = k then arrayAt sd.target q else if "state".toList = k then arrayAt sd.state q
    else if "flax_mutables".toList = k then (sd.mutables.map ofColls).bind (arrayAt · q) else none := by
  obtain ⟨t, s, m⟩ := sd
  unfold whole
  rw [arrayAt_sub, arrayAt_sub]
  cases m with
  | none =>
    simp only [Option.map_none, Option.bind_none, ite_self]
    rw [arrayAt_cons, Dict.get, sel_none]
  | some m =>
    simp only [Option.map_some, Option.bind_some]
    rw [arrayAt_sub, arrayAt_cons .nil, Dict.get, sel_none]

theorem stateDict_mutables {α : Type} (kind : Kind) (t : TState α) (sd : SDict α) (h : stateDict kind t = some sd) : sd.mutables = orNone t.mutables := by
  unfold stateDict at h
  split at h
  · cases h
  · cases h; rfl

/-- Like relations for the dicts of inference states. -/
theorem whole_like_i {R : List Key → Option A → Option A → Prop} (t : Dict (Option A)) (x : Option A) (m : Collections (Option A)) (t' : Dict (Option A)) (x' : Option A)
    (m' : Collections (Option A)) (h1 : Like R ["target".toList] t t') (h2 : R ["state".toList, "step".toList] x x')
    (h3 : Like R ["flax_mutables".toList] (ofColls m) (ofColls m')) (h4 : m = [] ↔ m' = []) :
    Like R [] (whole ⟨t, .leaf "step".toList x .nil, orNone m⟩) (whole ⟨t', .leaf "step".toList x' .nil, orNone m'⟩) := by
  refine ⟨rfl, h1, rfl, ⟨rfl, h2, trivial⟩, ?_⟩
  unfold orNone
  cases m with
  | nil => rw [h4.1 rfl]; trivial
  | cons c m =>
    cases m' with
    | nil => exact absurd (h4.2 rfl) (by simp)
    | cons c' m' => exact ⟨rfl, h3, trivial⟩

variable {P O Mu σ B Row K G R : Type} [Add K] [One K] [AddMonoid G] {α : Type} [LinearOrder α] [BoundedOrder α]
variable {c : Store A T} {kind : Kind} {u : TState (Option A)} {e : Codec A P O Mu} {cfg : Train.Cfg K P G O Mu R Row} {init : Train.State P O Mu}
  {pipe : DsCkpt.Pipe σ B} {seed : Nat} {glue : (Nat → Option B) → Train.Batch Row} {r : Reader A T}

theorem read_back (hc : Fine c) (hk : Keeps c kind u e cfg init) (hr : Suits c u r) {tmp : Str} (ht : Tmp c tmp) (s : Train.State P O Mu)
    (hs : TrainedJob.Inv c u e s) (D2 : Str) (hD2 : TsPath.Spec.Dir D2) (sd : SDict (Option A)) (hsd : stateDict kind (e.state u s) = some sd)
    (d : Dir (Content A T σ)) (hd : ∀ f y, (f, y) ∈ encState c tmp (whole sd) → PyDict.get d f = some (some y)) :
    read r D2 d = some ⟨some (e.num s.step), castAll c.O r.dtype (e.encP s.params), r.like_.paramsAxes, e.mutables s.mutables, r.like_.mutablesAxes⟩ := by
  obtain ⟨sd', hsd', hfits⟩ := TrainedJob.inv_dict hk s hs
  rw [hsd] at hsd'
  cases hsd'
  obtain ⟨-, sd', e1, e2⟩ := C52_inference kind (e.state u s) ⟨none, .nil, none, [], none⟩ ⟨none, .nil, none, [], none⟩
    (TrainedJob.like_proper _ _ _ hs.2.1 hk.names.2)
  rw [hsd] at e1
  cases e1
  have hmut := stateDict_mutables kind _ _ hsd
  have hstep : sd.state.get "step".toList = some (.arr (some (e.num s.step))) ∧ sd.target = e.encP s.params := by
    unfold iRestore at e2
    split at e2
    · rename_i x hx
      have := Except.ok.inj e2
      simp only [Codec.state, IState.mk.injEq] at this
      exact ⟨by rw [hx, this.1], this.2.1⟩
    · cases e2
  obtain ⟨hst, htg⟩ := hstep
  have hmut : sd.mutables = orNone (e.mutables s.mutables) := hmut
  obtain ⟨a0, ha0, hnum⟩ := hk.step
  have hvstep : ∃ a, r.like_.step = some a ∧ c.O.shape a = c.O.shape a0 := by
    have := hr.step
    rw [ha0] at this
    unfold SameKind at this
    cases hv : r.like_.step with
    | none => rw [hv] at this; cases this
    | some a => rw [hv] at this; exact ⟨a, rfl, Option.some.inj this⟩
  obtain ⟨av, hav, hshape⟩ := hvstep
  have lp := like_trans_kind c.O _ _ _ _ hr.params hs.1
  have lm := colls_kind c.O _ _ _ hr.mutables hs.2.2
  have ln := colls_nil c.O _ _ _ hr.mutables hs.2.2
  -- the entries of the template are in the checkpoint
  have hev : Every (fun p y => ∃ x, arrayAt (whole sd) p = some x ∧ SameKind c.O x y) [] (whole (iStateDict r.like_)) := by
    refine every_of_at _ _ _ hr.names fun p y hy => ?_
    cases p with
    | nil => rw [arrayAt_nil] at hy; cases hy
    | cons k q =>
      rw [List.nil_append]
      rw [whole_at] at hy ⊢
      simp only [iStateDict] at hy
      split_ifs at hy ⊢ with c1 c2 c3
      · obtain ⟨z, z1, z2⟩ := (like_at _ _ _ _ lp q).1 y hy
        exact ⟨z, by rw [htg]; exact z1, z2.symm⟩
      · cases q with
        | nil => rw [arrayAt_nil] at hy; cases hy
        | cons k' q' =>
          rw [arrayAt_leaf] at hy
          split_ifs at hy with d1 d2
          · subst d1 d2
            cases hy
            refine ⟨_, by rw [arrayAt_cons, hst, sel_arr, if_pos rfl], ?_⟩
            rw [hav]
            simp [SameKind, hshape, (hnum s.step).1]
          · rw [arrayAt_cons, Dict.get, sel_none] at hy; cases hy
      · rw [hmut]
        unfold orNone at hy ⊢
        split_ifs at hy with f1
        · cases hy
        · have f2 : ¬ (e.mutables s.mutables).isEmpty := by
            rw [List.isEmpty_iff] at f1 ⊢
            exact fun h => f1 (ln.2 h)
          rw [if_neg f2]
          obtain ⟨z, z1, z2⟩ := (like_at _ _ _ _ (lm []) q).1 y hy
          exact ⟨z, z1, z2.symm⟩
  obtain ⟨hu, htd⟩ := JobFiles.fits_leaves hc hfits
  obtain ⟨o, ho, hall⟩ := C127_part c.O hc.ops c.dtype r.dtype r.onDevices c.dir tmp r.dir D2 ht.1 hD2 ht.2 c.axes r.axes (whole sd) c.like_
    (whole (iStateDict r.like_)) (JobFiles.like_clean _ [] _ hfits hc.keys) hfits hr.names hr.full hev hr.axes hu hc.unpartitioned
    (fun _ => List.mem_cons_self ..)
  obtain ⟨o', dsk, ho', hmsg, hmoved, hmem⟩ := JobFiles.files_moved hc ht hfits D2 d hd
  have : o' = o := by
    unfold Store.infos at ho'
    rw [ho] at ho'
    exact (Except.ok.inj ho').symm
  subst this
  obtain ⟨x, hx, hlike⟩ := hall (writes o') (List.Perm.refl _) dsk hmoved
  have hx' := JobFiles.restore_mono c.O r.dtype r.onDevices D2 dsk (diskOf D2 d) hmem _ (file o') x hx
  have hw := StartState.restoreWith_resuming c.O r.dtype r.onDevices D2 (diskOf D2 d) [] (fun f hf => by cases hf)
    (parameterInfos c.O r.dir r.axes (whole (iStateDict r.like_))) (file o')
  rw [List.map_nil, hx'] at hw
  -- the result
  have hres : x = whole ⟨castAll c.O r.dtype (e.encP s.params), .leaf "step".toList (some (e.num s.step)) .nil, orNone (e.mutables s.mutables)⟩ := by
    have hl2 : Like (fun _ _ _ => True) [] (whole (iStateDict r.like_))
        (whole ⟨castAll c.O r.dtype (e.encP s.params), .leaf "step".toList (some (e.num s.step)) .nil, orNone (e.mutables s.mutables)⟩) := by
      refine whole_like_i _ _ _ _ _ _ ?_ trivial ?_ ln
      · exact TrainedJob.like_prefix _ _ _ _ (like_map_right (R' := fun _ _ _ => True) _ (fun _ _ _ _ _ => trivial) _ [] _ lp (every_true _ _))
      · exact like_imp (fun _ _ _ _ => trivial) _ _ _ (lm _)
    refine like_ext _ [] [] _ _ hr.names hlike hl2 fun p => ?_
    cases hp : arrayAt (whole (iStateDict r.like_)) p with
    | none => rw [(like_at _ _ _ _ hlike p).2 hp, (like_at _ _ _ _ hl2 p).2 hp]
    | some y =>
      obtain ⟨z, z1, w, w1, w2⟩ := (like_at _ _ _ _ hlike p).1 y hp
      rw [z1, w2]
      clear hall hlike hl2 hx hx' hw z1 w2
      rw [List.nil_append] at *
      cases p with
      | nil => rw [arrayAt_nil] at hp; cases hp
      | cons k q =>
        have hw1 := w1
        rw [whole_at] at hp w1 ⊢
        simp only [List.head?_cons, Option.some.injEq, iStateDict] at hp ⊢
        by_cases c1 : "target".toList = k
        · rw [if_pos c1] at w1 ⊢
          rw [htg] at w1
          unfold castAll
          rw [arrayAt_mapL, w1, Option.map_some]
          cases w with
          | none => rfl
          | some a =>
            have hda := every_at _ _ _ htd _ _ hw1 a rfl (by rw [List.nil_append, ← c1]; rfl)
            have hca : conv c.O c.dtype a = a := by
              cases hdt : c.dtype with
              | none => rfl
              | some t => 
                have := hda t hdt
                rw [← this]
                exact hc.ops.same a
            simp only [Option.map_some]
            rw [if_pos c1.symm, hca]
        · rw [if_neg c1] at w1 hp ⊢
          have hid : (w.map fun a => if k = "target".toList then conv c.O r.dtype (conv c.O c.dtype a) else a) = w := by
            cases w with
            | none => rfl
            | some a => rw [Option.map_some, if_neg fun h => c1 h.symm]
          rw [hid]
          by_cases c2 : "state".toList = k
          · rw [if_pos c2] at w1 hp ⊢
            cases q with
            | nil => rw [arrayAt_nil] at hp; cases hp
            | cons k' q' =>
              rw [arrayAt_leaf] at hp ⊢
              split_ifs at hp ⊢ with d1 d2
              · subst d1 d2
                rw [arrayAt_cons, hst, sel_arr, if_pos rfl] at w1
                exact w1.symm
              · rw [arrayAt_cons, Dict.get, sel_none] at hp; cases hp
          · rw [if_neg c2] at w1 hp ⊢
            rw [hmut] at w1
            exact w1.symm
  subst hres
  unfold read
  rw [hmsg]
  simp only
  rw [hr.ops, hw]
  simp only
  rw [TrainedJob.parts_whole]
  simp only [iRestore, Dict.get, if_true, Except.toOption, orNone_getD]

/-- **C127** (the restored state).  A job is started, killed and restarted as in C125; then an inference job for the same model restores the latest
checkpoint, wherever the files have been copied to, into an `InferenceState`.  It has the step of the checkpoint, the parameters (cast to the dtype asked for)
and the mutables that `Trainer` computes with the first `k` batches of the data set. -/
theorem C127_restore (hc : Fine c) (hk : Keeps c kind u e cfg init) (he : GoodCodec e) (hr : Suits c u r) {tmp : Str} (ht : Tmp c tmp) {n : Nat}
    (hrun : ∀ k, ∃ s, Train.Spec.run (Train.trainStep cfg) init (batches pipe seed glue n k) = .ok s)
    (acts : List (TrainJob.Act (Train.State P O Mu) σ (Content A T σ) α)) (h : History n acts) (N : Nat)
    (hs : latestStep (TrainJob.job (prog c (comp kind u e cfg init pipe seed glue) tmp) acts).fs = some N) (loc : Str)
    (hloc : TsPath.Spec.Dir (pathJoin loc (ckptName N))) :
    ∃ k s, N = init.step + k ∧ Train.Spec.run (Train.trainStep cfg) init (batches pipe seed glue n k) = .ok s ∧
      latest r loc (TrainJob.job (prog c (comp kind u e cfg init pipe seed glue) tmp) acts).fs =
        some ⟨some (e.num N), castAll c.O r.dtype (e.encP s.params), r.like_.paramsAxes, e.mutables s.mutables, r.like_.mutablesAxes⟩ := by
  have hst := TrainedJob.C126_stable (pipe := pipe) (seed := seed) (glue := glue) hk he
  obtain ⟨k, d, h1, h2, h3⟩ := JobFiles.latest_files hc hst ht acts h N hs
  obtain ⟨s, hr'⟩ := hrun k
  have hid := TrainedJob.ideal_run (c := c) (kind := kind) (u := u) (e := e) tmp n k s hr'
  have hinv : TrainedJob.Inv c u e s := by
    rw [← hid, JobFiles.ideal_foldl]
    exact TrainedJob.inv_fold hk _
  have hstep : s.step = N := by
    have := TrainJob.ideal_step (JobFiles.good_prog hc hst ht) n k
    rw [hid] at this
    exact this.trans h1.symm
  obtain ⟨sd, hsd, -⟩ := TrainedJob.inv_dict hk s hinv
  refine ⟨k, s, h1, hr', ?_⟩
  have := read_back hc hk hr ht s hinv _ hloc sd hsd d (fun f y hf => h3 f y (by
    rw [hid]
    simp only [comp, hsd]
    exact hf))
  unfold latest
  rw [hs]
  simp only
  rw [h2]
  simp only
  rw [this, hstep]

/-! ### The output -/

section
open Verif.Masks Verif.Transformer Verif.Transformer.Spec Verif.PackedLoss Verif.PackedLoss.Spec Verif.MicroLoss Verif.MicroLoss.Spec Verif.PackedTrain
  Verif.PackedTrain.Spec Verif.ArrT5.Spec Verif.ExportScore.Spec
open Verif.OfflineInfer (scoreStep predictStep)

variable {d h ee f V : Nat} {ex : ℝ → ℝ} {lg : ℕ → ℝ} {θ Bd : ℝ}

/-- **C127** (scores).  The output of scoring with the latest checkpoint of a training job has, in the order of the data set, the log-likelihood of each example
under the network with the parameters that `Trainer` computes with the first `k` batches, whatever was killed, wherever the files are, and whatever the batch
size and the number of shards.

`load` reads the arrays of the network from the nested dict of parameters; `nets p` is the network with the parameters `p` in the dtype they are restored in. -/
theorem C127_scores (hc : Fine c) (hk : Keeps c kind u e cfg init) (he : GoodCodec e) (hr : Suits c u r) {tmp : Str} (ht : Tmp c tmp) {n : Nat}
    (hrun : ∀ k, ∃ s, Train.Spec.run (Train.trainStep cfg) init (batches pipe seed glue n k) = .ok s)
    (acts : List (TrainJob.Act (Train.State P O Mu) σ (Content A T σ) α)) (hh : History n acts) (N : Nat)
    (hs : latestStep (TrainJob.job (prog c (comp kind u e cfg init pipe seed glue) tmp) acts).fs = some N) (loc : Str)
    (hloc : TsPath.Spec.Dir (pathJoin loc (ckptName N)))
    -- the network
    (hex : Underflows ex θ) (hθ : 0 < θ) (nets : P → Transformer.Net d h ee f V) (tcfg : ArrT5.Config) (load : Dict (Option A) → ArrT5.Params)
    (hload : ∀ p, ParamsAre tcfg (load (castAll c.O r.dtype (e.encP p))) (nets p))
    (htame : ∀ k s, Train.Spec.run (Train.trainStep cfg) init (batches pipe seed glue n k) = .ok s → Tame (nets s.params) θ Bd)
    -- the inference
    (len len' : Nat) (hlen : 0 < len) (shards batch : Nat) (hb : 0 < batch) (hsh : shards ∣ batch) (xs : List (List Int × List Int)) (hxs : xs ≠ []) :
    ∃ k s out, N = init.step + k ∧ Train.Spec.run (Train.trainStep cfg) init (batches pipe seed glue n k) = .ok s ∧
      infer r loc load shards batch (fun p _ b => scoreStep ex lg tcfg p len len' b) xs
        (TrainJob.job (prog c (comp kind u e cfg init pipe seed glue) tmp) acts).fs = some out ∧
      List.Forall₂ (fun x y => OfflineInfer.Good x → IsLogLikelihood ex lg (nets s.params) (x.1.take len) (x.2.take len') y) xs (Infer.extract out) := by
  obtain ⟨k, s, h1, h2, h3⟩ := C127_restore hc hk he hr ht hrun acts hh N hs loc hloc
  obtain ⟨out, o1, o2⟩ := OfflineInfer.C109_scores (lg := lg) (hload s.params) hex hθ (htame k s h2) len len' hlen shards batch hb hsh xs hxs
  refine ⟨k, s, out, h1, h2, ?_, o2⟩
  unfold infer
  rw [h3]
  simp only
  rw [o1]
  rfl

theorem forall₂_mem {X Y : Type} {Q : X → Y → Prop} (xs : List X) (ys : List Y) (h : List.Forall₂ Q xs ys) :
    List.Forall₂ (fun x y => x ∈ xs ∧ Q x y) xs ys := by
  induction h with
  | nil => exact .nil
  | cons h _ ih => exact .cons ⟨List.mem_cons_self .., h⟩ (ih.imp fun x y h => ⟨List.mem_cons_of_mem _ h.1, h.2⟩)

theorem likelihood_unique {net : Transformer.Net d h ee f V} {x y : List Int} {a b : ℝ} (ha : IsLogLikelihood ex lg net x y a)
    (hb : IsLogLikelihood ex lg net x y b) : a = b := by
  obtain ⟨l, h1, h2⟩ := ha
  obtain ⟨l', h3, h4⟩ := hb
  rw [h1] at h3
  cases h3
  rw [h2, h4]

theorem same_scores {X : Type} {Q : X → ℝ → Prop} (hQ : ∀ x a b, Q x a → Q x b → a = b) : ∀ (xs : List X) (ys zs : List ℝ), List.Forall₂ Q xs ys →
    List.Forall₂ Q xs zs → ys = zs
  | _, _, _, .nil, .nil => rfl
  | _, _, _, .cons h1 h2, .cons h3 h4 => by rw [hQ _ _ _ h1 h3, same_scores hQ _ _ _ h2 h4]

end

section
open Verif.Masks Verif.Transformer Verif.Transformer.Spec Verif.PackedLoss Verif.PackedLoss.Spec Verif.MicroLoss Verif.MicroLoss.Spec Verif.PackedTrain
  Verif.PackedTrain.Spec Verif.ArrT5.Spec Verif.ExportScore.Spec
open Verif.OfflineInfer (scoreStep predictStep)
open Verif.TrainedJob.Spec (batchAt)

variable {E O R σ σ' B B' : Type} [NormedAddCommGroup E] [NormedSpace ℝ E] {d h ee f V d' h' ee' f' V' : Nat} {ex : ℝ → ℝ} {lg : ℕ → ℝ} {θ θ' Bd Bd' : ℝ}
  {α : Type} [LinearOrder α] [BoundedOrder α] {α' : Type} [LinearOrder α'] [BoundedOrder α'] {A A' T T' : Type} [DecidableEq T] [DecidableEq T']

/-- **C127** (packed examples).  Two jobs train the same model as in C126, one on packed examples and the other one on the same examples, one per row.  If their
latest checkpoints are of the same step, then scoring any examples with one or the other gives the same numbers, whatever the batch sizes and the numbers of
shards. -/
theorem C127_packed (hex : Underflows ex θ) (hθ : 0 < θ) (nets : E → Transformer.Net d h ee f V) (tr : Train.Cfg ℝ E (E →L[ℝ] ℝ) O Unit R Cells)
    (weighted : Bool) (lnf : LossWeights.LNF ℝ) (hsafe : PackingSafe weighted lnf) (hconst : lnf = .none ∨ ∃ x, lnf = .const x) (smoothing z : ℝ)
    {n m n' m' : Nat} (groups : Nat → List (List Example)) (hwf : ∀ i, ∀ g ∈ groups i, ∀ x ∈ g, x.WF ∧ x.HasText)
    (hfit : ∀ i, ∀ g ∈ groups i, PackedLoss.Spec.Fits n m g) (hfit' : ∀ i, ∀ g ∈ groups i, ∀ x ∈ g, PackedLoss.Spec.Fits n' m' [x]) (k k' : Nat)
    (hk : ∀ i, k ∣ (groups i).length) (hk' : ∀ i, k' ∣ (groups i).flatten.length) (init : Train.State E O Unit) (hmu : init.mutables = none)
    -- the two data sets
    {pipe : DsCkpt.Pipe σ B} {seed : Nat} {glue : (Nat → Option B) → Train.Batch Cells} {S : Nat}
    {pipe' : DsCkpt.Pipe σ' B'} {seed' : Nat} {glue' : (Nat → Option B') → Train.Batch Cells} {S' : Nat}
    (h1 : ∀ i, Carries (batchAt pipe seed glue S i) (packedBatch n m weighted (groups i)))
    (h2 : ∀ i, Carries (batchAt pipe' seed' glue' S' i) (paddedBatch n' m' weighted (groups i).flatten))
    (ht : ∀ j s', Train.Spec.run (Train.trainStep { tr with lossGrad := lossGrad (encDec ex lg nets lnf smoothing z n' m'), microbatches := some k' }) init
        (batches pipe' seed' glue' S' j) = .ok s' →
      (∀ᶠ q in nhds s'.params, Tame (nets q) θ Bd) ∧ (∃ Y, Smooth (encDec ex lg nets lnf smoothing z n m) Y (batchAt pipe seed glue S j) s'.params) ∧
        ∃ Y, Smooth (encDec ex lg nets lnf smoothing z n' m') Y (batchAt pipe' seed' glue' S' j) s'.params)
    -- the two jobs
    {c : Store A T} {kind : Kind} {u : TState (Option A)} {cod : Codec A E O Unit} {tmp : Str} (hc : Fine c) (he : GoodCodec cod) (htmp : Tmp c tmp)
    (hkeep : Keeps c kind u cod { tr with lossGrad := lossGrad (encDec ex lg nets lnf smoothing z n m), microbatches := some k } init)
    {c' : Store A' T'} {kind' : Kind} {u' : TState (Option A')} {cod' : Codec A' E O Unit} {tmp' : Str} (hc' : Fine c') (he' : GoodCodec cod') (htmp' : Tmp c' tmp')
    (hkeep' : Keeps c' kind' u' cod' { tr with lossGrad := lossGrad (encDec ex lg nets lnf smoothing z n' m'), microbatches := some k' } init)
    (acts : List (TrainJob.Act (Train.State E O Unit) σ (Content A T σ) α)) (hacts : History S acts)
    (acts' : List (TrainJob.Act (Train.State E O Unit) σ' (Content A' T' σ') α')) (hacts' : History S' acts') (N : Nat)
    (hl : latestStep (TrainJob.job (prog c (comp kind u cod { tr with lossGrad := lossGrad (encDec ex lg nets lnf smoothing z n m), microbatches := some k } init
      pipe seed glue) tmp) acts).fs = some N)
    (hl' : latestStep (TrainJob.job (prog c' (comp kind' u' cod' { tr with lossGrad := lossGrad (encDec ex lg nets lnf smoothing z n' m'), microbatches := some k' }
      init pipe' seed' glue') tmp') acts').fs = some N)
    -- the two inference jobs
    {r : Reader A T} (hr : Suits c u r) {r' : Reader A' T'} (hr' : Suits c' u' r') (loc loc' : Str) (hloc : TsPath.Spec.Dir (pathJoin loc (ckptName N)))
    (hloc' : TsPath.Spec.Dir (pathJoin loc' (ckptName N))) {exi : ℝ → ℝ} {lgi : ℕ → ℝ} (hexi : Underflows exi θ') (hθ' : 0 < θ')
    (nets' : E → Transformer.Net d' h' ee' f' V')
    (tcfg tcfg' : ArrT5.Config) (load : Dict (Option A) → ArrT5.Params) (load' : Dict (Option A') → ArrT5.Params)
    (hload : ∀ p, ParamsAre tcfg (load (castAll c.O r.dtype (cod.encP p))) (nets' p))
    (hload' : ∀ p, ParamsAre tcfg' (load' (castAll c'.O r'.dtype (cod'.encP p))) (nets' p)) (htame : ∀ p, Tame (nets' p) θ' Bd')
    (len len' : Nat) (hlen : 0 < len) (shards batch shards' batch' : Nat) (hb : 0 < batch) (hsh : shards ∣ batch) (hb' : 0 < batch') (hsh' : shards' ∣ batch')
    (xs : List (List Int × List Int)) (hxs : xs ≠ []) (hgood : ∀ x ∈ xs, OfflineInfer.Good x) :
    ∃ out out', infer r loc load shards batch (fun p _ b => scoreStep exi lgi tcfg p len len' b) xs
        (TrainJob.job (prog c (comp kind u cod { tr with lossGrad := lossGrad (encDec ex lg nets lnf smoothing z n m), microbatches := some k } init
          pipe seed glue) tmp) acts).fs = some out ∧
      infer r' loc' load' shards' batch' (fun p _ b => scoreStep exi lgi tcfg' p len len' b) xs
        (TrainJob.job (prog c' (comp kind' u' cod' { tr with lossGrad := lossGrad (encDec ex lg nets lnf smoothing z n' m'), microbatches := some k' }
          init pipe' seed' glue') tmp') acts').fs = some out' ∧
      Infer.extract out = Infer.extract out' := by
  have key := TrainedJob.packed_runs hex hθ nets tr weighted lnf hsafe hconst smoothing z groups hwf hfit hfit' k k' hk hk' init hmu h1 h2 ht
  obtain ⟨q, s, out, a1, a2, a3, a4⟩ := C127_scores (lg := lgi) hc hkeep he hr htmp (fun N => (key N).imp fun _ h => h.1) acts hacts N hl loc hloc hexi hθ' nets' tcfg
    load hload (fun _ s _ => htame s.params) len len' hlen shards batch hb hsh xs hxs
  obtain ⟨q', s', out', b1, b2, b3, b4⟩ := C127_scores (lg := lgi) hc' hkeep' he' hr' htmp' (fun N => (key N).imp fun _ h => h.2) acts' hacts' N hl' loc' hloc' hexi hθ'
    nets' tcfg' load' hload' (fun _ s _ => htame s.params) len len' hlen shards' batch' hb' hsh' xs hxs
  refine ⟨out, out', a3, b3, ?_⟩
  have hq : q = q' := by omega
  subst hq
  obtain ⟨w, c1, c2⟩ := key q
  rw [c1] at a2
  rw [c2] at b2
  obtain rfl := Except.ok.inj a2
  obtain rfl := Except.ok.inj b2
  clear hl hl' hacts hacts' hkeep hkeep' h1 h2 ht key a3 b3 c1 c2 hc hc'
  refine same_scores (Q := fun x y => x ∈ xs ∧ IsLogLikelihood exi lgi (nets' w.params) (x.1.take len) (x.2.take len') y)
    (fun x a b ha hb => likelihood_unique ha.2 hb.2) xs _ _ ?_ ?_
  · exact (forall₂_mem _ _ a4).imp fun x y h => ⟨h.1, h.2 (hgood x h.1)⟩
  · exact (forall₂_mem _ _ b4).imp fun x y h => ⟨h.1, h.2 (hgood x h.1)⟩

end

/-! ### The hypotheses are met -/

section
open Verif.TrainedJob

theorem like_fun {α β : Type} {R : List Key → α → β → Prop} (hR : ∀ p x y z, R p x y → R p x z → y = z) (a : Dict α) : ∀ (pre : List Key) (b c : Dict β),
    Like R pre a b → Like R pre a c → b = c := by
  induction a with
  | nil => intro pre b c hb hc; cases b <;> cases c <;> first | rfl | exact hb.elim | exact hc.elim
  | leaf k v r ih =>
    intro pre b c hb hc
    cases b <;> cases c <;> first | exact hb.elim | exact hc.elim | skip
    rw [← hb.1, ← hc.1, hR _ _ _ _ hb.2.1 hc.2.1, ih _ _ _ hb.2.2 hc.2.2]
  | sub k v r ihd ih =>
    intro pre b c hb hc
    cases b <;> cases c <;> first | exact hb.elim | exact hc.elim | skip
    rw [← hb.1, ← hc.1, ihd _ _ _ hb.2.1 hc.2.1, ih _ _ _ hb.2.2 hc.2.2]

/-- Part of `SaveRestore.exState`: the parameter and the step. -/
def exSmall : Dict (Option (List Nat × Nat × Nat)) :=
  .sub "target".toList (.leaf "w".toList (some ([4, 2], 7, 78)) .nil) (.sub "state".toList (.leaf "step".toList (some ([], 5, 79)) .nil) .nil)

/-- The accumulators are not read; the parameter was saved as bfloat16 and is restored as float32. -/
example : ∃ o, writeState exOps (some 1) "/m/c.tmp-1".toList
      (parameterInfos exOps "/m".toList (fun p => p.getLast? ≠ some "step".toList) (SaveRestore.exState 0)) (SaveRestore.exState 10) = .ok o ∧
    ∀ ws, ws.Perm (writes o) → ∀ dsk, Moved "/m/c.tmp-1".toList "gs://b/c".toList (disk ws) dsk →
      restore exOps (some 0) true "gs://b/c".toList dsk (parameterInfos exOps "/n".toList (fun _ => true) exSmall) (file o) =
        .ok (.sub "target".toList (.leaf "w".toList (some ([4, 2], 0, 10)) .nil) (.sub "state".toList (.leaf "step".toList (some ([], 5, 11)) .nil) .nil)) := by
  obtain ⟨o, h1, h2⟩ := C127_part exOps exOps_good (some 1) (some 0) true "/m".toList "/m/c.tmp-1".toList "/n".toList
    "gs://b/c".toList (fun h => absurd h (by decide)) (fun _ => by decide) (by decide) (fun p => p.getLast? ≠ some "step".toList)
    (fun _ => true) (SaveRestore.exState 10) (SaveRestore.exState 0) exSmall
    (by simp only [SaveRestore.exState, SaveRestore.Spec.Clean]; repeat' (first | exact trivial | refine And.intro ?_ ?_ | decide))
    (by simp only [SaveRestore.exState, Like, SameKind]; decide)
    (by simp only [exSmall, Ordinary]; repeat' (first | exact trivial | refine And.intro ?_ ?_ | decide))
    (by simp [exSmall, Full])
    (by
      simp only [exSmall, Every]
      exact ⟨⟨⟨_, rfl, rfl⟩, trivial⟩, ⟨⟨_, rfl, rfl⟩, trivial⟩, trivial⟩)
    (fun _ _ => Or.inl rfl)
    (by
      simp only [SaveRestore.exState, Every]
      refine ⟨⟨?_, trivial⟩, ⟨?_, ⟨⟨?_, ⟨?_, trivial, trivial⟩⟩, trivial⟩⟩, trivial⟩ <;>
        · intro a ha _
          cases ha <;> decide)
    (fun h => by cases h) (fun _ => by decide)
  refine ⟨o, h1, fun ws hws dsk hm => ?_⟩
  obtain ⟨r, h3, h4⟩ := h2 ws hws dsk hm
  rw [h3]
  refine congrArg _ (like_fun (fun p _ y z hy hz => ?_) exSmall [] r _ h4 ?_)
  · obtain ⟨x, a1, rfl⟩ := hy
    obtain ⟨x', a2, rfl⟩ := hz
    rw [a1] at a2
    cases a2
    rfl
  · simp only [exSmall, Like]
    exact ⟨trivial, ⟨trivial, ⟨_, rfl, rfl⟩, trivial⟩, trivial, ⟨trivial, ⟨_, rfl, rfl⟩, trivial⟩, trivial⟩

/-- The checkpoints of the job of C126 are read as bfloat16 (1) by another checkpointer. -/
def exReader {P M : Type} (p : P) (mu : Option M) (dtype : Option Nat) : Reader (Arr P M) Nat where
  O := arrOps P M
  dtype := dtype
  onDevices := true
  dir := "/n".toList
  axes := fun _ => true
  like_ := ⟨some ((exCod P M).num 77), (exCod P M).encP p, none, (exCod P M).mutables mu, none⟩

theorem exReader_suits {P M : Type} (p q : P) (mu : Option M) (dtype : Option Nat) (dir : Str) : Suits (exSt p mu dir) (exU p mu) (exReader q mu dtype) where
  ops := rfl
  params := by simp [exReader, exU, exCod, Like, SameKind, exSt, arrOps]
  step := by simp [exReader, exU, exCod, SameKind, exSt, arrOps]
  mutables := by cases mu <;> simp [exReader, exU, exCod, Codec.mutables, Like, SameKind, exSt, arrOps]
  names := by
    cases mu <;> simp only [exReader, exCod, Codec.mutables, iStateDict, whole, optState, orNone, Option.map_none, Option.map_some, Option.getD_none,
      Option.getD_some, List.isEmpty_nil, List.isEmpty_cons, if_true, Bool.false_eq_true, if_false, ofColls, Ordinary]
    all_goals repeat' (first | exact trivial | refine And.intro ?_ ?_ | decide | simp [Dict.keys])
  full := by
    cases mu <;> simp [exReader, exCod, Codec.mutables, iStateDict, whole, orNone, ofColls, Full]
  axes _ _ := .inl rfl

/-- The latest checkpoint is the one of step 5. -/
theorem exLatest : latestStep (TrainJob.job exProg (exActs _ _)).fs = some 5 := by decide +kernel

/-- After the job has been killed twice and its files have been copied, the inference job has the parameters after five steps, as bfloat16. -/
example : (latest (exReader 0 (some 0) (some 1)) "/copy".toList (TrainJob.job exProg (exActs _ _)).fs).map (fun t => (t.step.bind (exCod Nat Nat).val, (exCod Nat Nat).decP t.params,
    (exCod Nat Nat).decM t.mutables, (leaves [] t.params).map fun x => x.2.map fun a => a.2.1)) = some (some 5, some 125003, some 10, [some 1]) := by
  decide +kernel

example : ∃ k s, 5 = 0 + k ∧ Train.Spec.run (Train.trainStep exCfg) exInit (batches exPipe 0 exGlue 2 k) = .ok s ∧
    latest (exReader 3 (some 0) (some 1)) "gs://b".toList (TrainJob.job exProg (exActs _ _)).fs =
      some ⟨some ([], 5, .inr (.inl 5)), .leaf "w".toList (some ([4, 2], 1, .inl s.params)) .nil, none, (exCod Nat Nat).mutables s.mutables, none⟩ :=
  C127_restore (exSt_fine 0 _ _ exDir) (exSt_keeps 0 _ _ _ _ rfl fun _ _ _ m h => by simpa [exCfg] using h) (exCod_good _ _) (exReader_suits 0 3 _ _ _) (exTmp_ok _ _)
    exRun (exActs _ _) (exActs_ok _) 5 exLatest "gs://b".toList (fun _ => by decide)

section
open Verif.Transformer Verif.ArrT5 Verif.ArrT5.Spec Verif.PackedTrain Verif.PackedTrain.Spec Verif.PackedLoss Verif.PackedLoss.Spec Verif.MicroLoss
  Verif.ExportScore.Spec
open Verif.OfflineInfer (scoreStep)

/-- The arrays of `demoNets q`. -/
noncomputable def demoArrays (q : Kernel 1 2) : ArrT5.Params :=
  { demoParams with logitsDense := some ⟨[1, 2], fun i => if i.getD 1 0 = 0 then q 0 0 else q 0 1⟩ }

theorem demoArrays_are (q : Kernel 1 2) : ParamsAre ⟨1, 1, 1, 2, 1e-6⟩ (demoArrays q) (demoNets q) := by
  have h := demo_params
  refine ⟨h.numHeads, h.headDim, h.mlpDim, h.vocabSize, h.eps, h.table, h.encRel, h.enc, h.encNorm, h.decRel, h.dec, h.decNorm, .dense ⟨rfl, fun i j => ?_⟩⟩
  have hi : i = 0 := Subsingleton.elim _ _
  subst hi
  match j with
  | 0 => rfl
  | 1 => rfl

/-- Read from the nested dict of parameters. -/
noncomputable def demoLoad {P : Type} (kernel : P → Kernel 1 2) (d : Dict (Option (Arr P M))) : ArrT5.Params :=
  match (exCod P M).decP d with
  | some p => demoArrays (kernel p)
  | none => demoParams

/-- Three examples are scored with the checkpoint of that job, the parameter of which is an entry of the kernel of the logits. -/
example {lg : ℕ → ℝ} : ∃ k s out, 5 = 0 + k ∧ Train.Spec.run (Train.trainStep exCfg) exInit (batches exPipe 0 exGlue 2 k) = .ok s ∧
    infer (exReader 3 (some 0) (some 1)) "gs://b".toList (demoLoad fun p : Nat => ![![(p : ℝ), 1]]) 2 2 (fun p _ b => scoreStep flushed lg ⟨1, 1, 1, 2, 1e-6⟩ p 3 2 b)
      [([1, 1], [1]), ([1], [1, 1]), ([1, 1, 1, 1], [1])] (TrainJob.job exProg (exActs _ _)).fs = some out ∧
    List.Forall₂ (fun x y => OfflineInfer.Good x → IsLogLikelihood flushed lg (demoNets ![![(s.params : ℝ), 1]]) (x.1.take 3) (x.2.take 2) y)
      [([1, 1], [1]), ([1], [1, 1]), ([1, 1, 1, 1], [1])] (Infer.extract out) :=
  C127_scores (Bd := 7) (exSt_fine 0 _ _ exDir) (exSt_keeps 0 _ _ _ _ rfl fun _ _ _ m h => by simpa [exCfg] using h) (exCod_good _ _) (exReader_suits 0 3 _ _ _)
    (exTmp_ok _ _) exRun (exActs _ _) (exActs_ok _) 5 exLatest "gs://b".toList (fun _ => by decide) DecoderOnly.flushed_underflows (by norm_num)
    (fun p : Nat => demoNets ![![(p : ℝ), 1]]) _ _ (fun p => demoArrays_are _) (fun _ _ _ => demoNets_tame _) 3 2 (by decide) 2 2 (by decide) (by decide) _ (by simp)

/-- The jobs of C126: the checkpoint of the one is read as bfloat16, the one of the other as it is. -/
example {lg : ℕ → ℝ} (tr : Train.Cfg ℝ (Kernel 1 2) (Kernel 1 2 →L[ℝ] ℝ) Nat Unit R Cells) (q : Kernel 1 2) (N : Nat)
    (hl : latestStep (TrainJob.job (prog (exSt q none "/m".toList) (comp .plain (exU q none) (exCod _ _)
      { tr with lossGrad := lossGrad (encDec flushed lg demoNets (.const 3) 0 0 4 3), microbatches := some 2 } ⟨0, q, 0, none⟩ exPipe 0 packedGlue) exTmp)
      (exActs _ _)).fs = some N)
    (hl' : latestStep (TrainJob.job (prog (exSt q none "/m".toList) (comp .plain (exU q none) (exCod _ _)
      { tr with lossGrad := lossGrad (encDec flushed lg demoNets (.const 3) 0 0 3 5), microbatches := some 3 } ⟨0, q, 0, none⟩ exPipe 1 paddedGlue) exTmp)
      [.attempt (exAttempt _ _ true 2 none)]).fs = some N) :
    ∃ out out', infer (exReader q none (some 1)) "/a".toList (demoLoad id) 2 4 (fun p _ b => scoreStep flushed lg ⟨1, 1, 1, 2, 1e-6⟩ p 3 2 b)
        [([1, 1], [1]), ([1], [1, 1]), ([1, 1, 1, 1], [1])]
        (TrainJob.job (prog (exSt q none "/m".toList) (comp .plain (exU q none) (exCod _ _)
          { tr with lossGrad := lossGrad (encDec flushed lg demoNets (.const 3) 0 0 4 3), microbatches := some 2 } ⟨0, q, 0, none⟩ exPipe 0 packedGlue) exTmp)
          (exActs _ _)).fs = some out ∧
      infer (exReader q none none) "/copy".toList (demoLoad id) 1 1 (fun p _ b => scoreStep flushed lg ⟨1, 1, 1, 2, 1e-6⟩ p 3 2 b)
        [([1, 1], [1]), ([1], [1, 1]), ([1, 1, 1, 1], [1])]
        (TrainJob.job (prog (exSt q none "/m".toList) (comp .plain (exU q none) (exCod _ _)
          { tr with lossGrad := lossGrad (encDec flushed lg demoNets (.const 3) 0 0 3 5), microbatches := some 3 } ⟨0, q, 0, none⟩ exPipe 1 paddedGlue) exTmp)
          [.attempt (exAttempt _ _ true 2 none)]).fs = some out' ∧ Infer.extract out = Infer.extract out' :=
  C127_packed (Bd := 7) (Bd' := 7) DecoderOnly.flushed_underflows (by norm_num) demoNets tr true _ (by simp [PackedLoss.Spec.PackingSafe]) (.inr ⟨3, rfl⟩) 0 0
    (fun _ => demoGroups)
    (fun _ => demo_wf) (fun _ => by simp [PackedLoss.Spec.Fits, demoGroups]) (fun _ => by simp [PackedLoss.Spec.Fits, demoGroups]) 2 3
    (fun _ => by simp [demoGroups]) (fun _ => by simp [demoGroups]) ⟨0, q, 0, none⟩ rfl
    (pipe := exPipe) (seed := 0) (glue := packedGlue) (S := 2) (pipe' := exPipe) (seed' := 1) (glue' := paddedGlue) (S' := 2)
    (fun _ => C118_features _) (fun _ => C118_features _)
    (fun _ _ _ => ⟨Filter.Eventually.of_forall demoNets_tame, demoNets_smooth true _ _ _ (C118_features _).packed, demoNets_smooth false _ _ _ (C118_features _).packed⟩)
    (exSt_fine q _ _ exDir) (exCod_good _ _) (exTmp_ok _ _) (exSt_keeps q _ _ _ _ rfl fun _ _ _ _ h => h)
    (exSt_fine q _ _ exDir) (exCod_good _ _) (exTmp_ok _ _) (exSt_keeps q _ _ _ _ rfl fun _ _ _ _ h => h)
    (exActs _ _) (exActs_ok _) [.attempt (exAttempt _ _ true 2 none)]
    (fun a ha => by
      simp only [List.mem_cons, List.not_mem_nil, or_false, TrainJob.Act.attempt.injEq] at ha
      subst ha
      exact ⟨TrainJob.demoCluster_good true, JobFiles.twice_writes, fun _ _ _ => rfl⟩) N hl hl'
    (exReader_suits q q _ _ _) (exReader_suits q q _ _ _) "/a".toList "/copy".toList (fun h => by cases h) (fun h => by cases h) DecoderOnly.flushed_underflows (by norm_num)
    demoNets _ _ _ _ (fun p => demoArrays_are p) (fun p => demoArrays_are p) demoNets_tame 3 2 (by decide) 2 4 1 1 (by decide) (by decide) (by decide) (by decide)
    _ (by simp) (by simp [OfflineInfer.Good])

end

end

end Verif.TrainInfer
