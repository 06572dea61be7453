import Verif.Lemmas.Fallback
/- C72: restoring a checkpoint of another model, with a fallback state. -/
namespace Verif.Fallback
open Verif.StateDict Verif.SaveRestore
open Verif.SaveRestore.Spec (Good conv)
open Verif.OptaxState.Spec (arrayAt)
open Verif.Fallback.Spec
open Verif.TsPath (Str)

variable {A T : Type} [DecidableEq T]

theorem restoreCast_conv (O : Ops A T) (hO : Good O) (rest : Option T) (p : List Key) (v : A) :
    restoreCast O rest p v = if p.head? = some "target".toList then conv O rest v else v := by
  unfold restoreCast isTarget
  by_cases ht : p.head? = some "target".toList
  · rw [if_pos ht]
    cases rest with
    | none => rw [Option.isSome_none, Bool.and_false, if_neg (by simp)]; rfl
    | some t => rw [decide_eq_true ht, Option.isSome_some, Bool.and_true, if_pos rfl, castTo_some O hO]; rfl
  · rw [if_neg ht, decide_eq_false ht, Bool.false_and, if_neg (by simp)]

/-- What a successful read returns. -/
theorem readLeaf_holds (O : Ops A T) (rest : Option T) (dev : Bool) (D : Str) (dsk : TsPath.Spec → Option A) (p : List Key) (i : Info T)
    (x : Option (FLeaf A T)) (v : A) (h : readLeaf O rest dev D dsk p i x = .ok v) :
    Readable O dev D dsk i x ∧ ∃ a, Holds D dsk i x a ∧ v = restoreCast O rest p a := by
  match x with
  | none => cases h
  | some (.val a) =>
    cases h
    exact ⟨⟨⟨a, Or.inl rfl⟩, fun s hs => by cases hs⟩, a, Or.inl rfl, rfl⟩
  | some (.spec s) =>
    simp only [readLeaf] at h
    cases hu : TsPath.updatePath D s.loc with
    | error e => rw [hu] at h; cases h
    | ok loc =>
      rw [hu] at h
      simp only at h
      split_ifs at h with g1 g2 g3
      cases hd : dsk loc with
      | none => rw [hd] at h; cases h
      | some a =>
        rw [hd] at h
        cases h
        have hh : Holds D dsk i (some (.spec s)) a := Or.inr ⟨s, loc, rfl, not_not.1 g1, hu, hd⟩
        refine ⟨⟨⟨a, hh⟩, fun s' hs' => ?_⟩, a, hh, rfl⟩
        cases hs'
        refine ⟨g2, fun hdev => ?_⟩
        rw [hdev, Bool.true_and] at g3
        cases hsp : i.spec with
        | none => rw [hsp] at g3; exact absurd rfl g3
        | some y => rfl

theorem readLeaf_ok (O : Ops A T) (rest : Option T) (dev : Bool) (D : Str) (dsk : TsPath.Spec → Option A) (p : List Key) (i : Info T)
    (x : Option (FLeaf A T)) (h : Readable O dev D dsk i x) : ∃ v, readLeaf O rest dev D dsk p i x = .ok v := by
  obtain ⟨⟨a, ha⟩, hs⟩ := h
  rcases ha with rfl | ⟨s, loc, rfl, h1, h2, h3⟩
  · exact ⟨_, rfl⟩
  · obtain ⟨g1, g2⟩ := hs s rfl
    have g3 : (dev && i.spec.isNone) = false := by
      cases dev with
      | false => rfl
      | true =>
        have := g2 rfl
        cases hsp : i.spec with
        | none => rw [hsp] at this; cases this
        | some y => rfl
    exact ⟨_, by simp only [readLeaf, h2, h1, ne_eq, not_true_eq_false, if_false, g1, g3, Bool.false_eq_true, h3]; rfl⟩

theorem holds_unique (D : Str) (dsk : TsPath.Spec → Option A) (i : Info T) (x : Option (FLeaf A T)) (a a' : A) (h : Holds D dsk i x a)
    (h' : Holds D dsk i x a') : a = a' := by
  rcases h with rfl | ⟨s, loc, rfl, _, h2, h3⟩
  · rcases h' with h' | ⟨s, loc, h', _⟩
    · cases h'; rfl
    · cases h'
  · rcases h' with h' | ⟨s', loc', h', _, h4, h5⟩
    · cases h'
    · cases h'
      rw [h2] at h4
      cases h4
      rw [h3] at h5
      exact Option.some.inj h5

/-- **C72**: the restored state of a model whose parameter infos are `infos` and whose fallback state has the same entries.  Let `c` be the entries
of the checkpoint after the transformations.  If restoring succeeds, then the result has exactly the entries of the model; an entry that `c` also
has is the stored array (parameters cast to the restore dtype), never the fallback value; any other entry is the fallback's, unchanged. -/
theorem C72_fallback (O : Ops A T) (hO : Good O) (rest : Option T) (dev : Bool) (D : Str) (dsk : TsPath.Spec → Option A)
    (tr : Dict (Option (FLeaf A T)) → Except Err (Dict (Option (FLeaf A T)))) (infos : Dict (Option (Info T)))
    (f f' c : Dict (Option (FLeaf A T))) (fb r : Dict (Option A)) (h1 : convert D f = .ok f') (h2 : tr f' = .ok c) (hi : Ordinary infos)
    (hc : Ordinary c) (hf : Ordinary fb) (hsame : ∀ p, (arrayAt fb p).isSome ↔ (arrayAt infos p).isSome)
    (h : restoreFallback O rest dev D dsk tr infos f fb = .ok r) (p : List Key) :
    (∀ i x, arrayAt infos p = some (some i) → arrayAt c p = some x →
      ∃ a, Holds D dsk i x a ∧ arrayAt r p = some (some (if p.head? = some "target".toList then conv O rest a else a))) ∧
    (∀ x, arrayAt infos p = some none → arrayAt c p = some x → arrayAt r p = some none) ∧
    (∀ y, arrayAt fb p = some y → arrayAt c p = none → arrayAt r p = some y) ∧
    (arrayAt infos p = none → arrayAt r p = none) := by
  obtain ⟨b, hb, e1, e2⟩ := restoreFallback_eq O rest dev D dsk tr infos f f' c fb h1 h2 hi hc
  rw [e2] at h
  cases hz : zipT (readLeaf O rest dev D dsk) [] (mapL (fun _ x => x.1) [] b)
      (mapL (fun _ (x : Option (Info T) × Option (FLeaf A T)) => if x.1.isSome = true then x.2 else none) [] b) with
  | error e => rw [hz] at h; cases h
  | ok r0 =>
    rw [hz] at h
    simp only [finish] at h
    split_ifs at h
    have hro : Ordinary r0 := (zipT_shape _ _ _ _ _ hz).2 ((ordinary_mapL _ _ _).2 hb)
    have hat : ∀ p, (∀ i x, arrayAt b p = some (some i, x) →
        ∃ v, readLeaf O rest dev D dsk p i x = .ok v ∧ arrayAt r0 p = some (some v)) ∧
        (∀ x, arrayAt b p = some (none, x) → arrayAt r0 p = some none) ∧ (arrayAt b p = none → arrayAt r0 p = none) := by
      intro p
      obtain ⟨z1, z2, z3⟩ := zipT_at _ p _ _ _ _ hz
      rw [arrayAt_mapL, arrayAt_mapL] at z1
      rw [arrayAt_mapL] at z2 z3
      refine ⟨fun i x hx => ?_, fun x hx => z2 (by rw [hx]; rfl), fun hx => z3 (by rw [hx]; rfl)⟩
      obtain ⟨b', c', g1, g2, g3⟩ := z1 i (by rw [hx]; rfl)
      rw [hx] at g1
      cases g1
      exact ⟨c', g2, g3⟩
    obtain ⟨m, m1, m2, m3⟩ := merge_spec r0 fb hro hf (fun p hp => by
      rw [hsame]
      cases hbp : arrayAt b p with
      | none => rw [(hat p).2.2 hbp] at hp; cases hp
      | some y => rw [((e1 p y.1 y.2).1 hbp).1]; rfl)
    rw [m1] at h
    cases h
    rw [m3]
    obtain ⟨a1, a2, a3⟩ := hat p
    refine ⟨fun i x hx hcx => ?_, fun x hx hcx => ?_, fun y hy hcx => ?_, fun hx => ?_⟩
    · obtain ⟨v, g1, g2⟩ := a1 i x ((e1 p _ _).2 ⟨hx, hcx⟩)
      obtain ⟨_, a, g3, g4⟩ := readLeaf_holds O rest dev D dsk p i x v g1
      exact ⟨a, g3, by rw [g2, g4, restoreCast_conv O hO]; rfl⟩
    · rw [a2 x ((e1 p _ _).2 ⟨hx, hcx⟩)]; rfl
    · have hbp : arrayAt b p = none := by
        cases hbp : arrayAt b p with
        | none => rfl
        | some y => have := ((e1 p y.1 y.2).1 hbp).2; rw [hcx] at this; cases this
      rw [a3 hbp, hy]; rfl
    · have hbp : arrayAt b p = none := by
        cases hbp : arrayAt b p with
        | none => rfl
        | some y => have := ((e1 p y.1 y.2).1 hbp).1; rw [hx] at this; cases this
      have hfp : arrayAt fb p = none := by
        cases hfp : arrayAt fb p with
        | none => rfl
        | some y => have := (hsame p).1 (by rw [hfp]; rfl); rw [hx] at this; cases this
      rw [a3 hbp, hfp]; rfl

theorem reads_ok (O : Ops A T) (rest : Option T) (dev : Bool) (D : Str) (dsk : TsPath.Spec → Option A)
    (b : Dict (Option (Info T) × Option (FLeaf A T))) (hb : Ordinary b)
    (hr : ∀ p i x, arrayAt b p = some (some i, x) → Readable O dev D dsk i x) :
    ∃ r0, zipT (readLeaf O rest dev D dsk) [] (mapL (fun _ x => x.1) [] b)
      (mapL (fun _ (x : Option (Info T) × Option (FLeaf A T)) => if x.1.isSome = true then x.2 else none) [] b) = .ok r0 := by
  classical
  have hv : ∀ p i x, ∃ v : Option A, Readable O dev D dsk i x → ∃ w, v = some w ∧ readLeaf O rest dev D dsk p i x = .ok w := by
    intro p i x
    by_cases h : Readable O dev D dsk i x
    · obtain ⟨w, hw⟩ := readLeaf_ok O rest dev D dsk p i x h
      exact ⟨some w, fun _ => ⟨w, rfl, hw⟩⟩
    · exact ⟨none, fun h' => absurd h' h⟩
  choose v hv using hv
  refine ⟨_, zipT_ordinary _ _ _ (fun p x => x.1.bind fun i => v p i x.2) b b [] hb (fun _ _ => rfl) fun e he => ?_⟩
  obtain ⟨q, q1, q2⟩ := mem_leaves b hb [] e he
  rw [List.nil_append] at q1
  obtain ⟨p, i, x⟩ := e
  cases i with
  | none => rfl
  | some i =>
    obtain ⟨w, w1, w2⟩ := hv p i x (hr q i x (by rw [q2]))
    simp only [Option.isSome_some, if_true, stepF, w2, Option.bind_some, w1]

/-- **C72**: restoring succeeds whenever the entries that the model and the checkpoint have in common can be read, however much of the model is
missing from the checkpoint and however much else the checkpoint has — provided that, if a restore dtype is given, one of the common entries is a
parameter. -/
theorem C72_succeeds (O : Ops A T) (rest : Option T) (dev : Bool) (D : Str) (dsk : TsPath.Spec → Option A)
    (tr : Dict (Option (FLeaf A T)) → Except Err (Dict (Option (FLeaf A T)))) (infos : Dict (Option (Info T)))
    (f f' c : Dict (Option (FLeaf A T))) (fb : Dict (Option A)) (h1 : convert D f = .ok f') (h2 : tr f' = .ok c) (hi : Ordinary infos)
    (hc : Ordinary c) (hf : Ordinary fb) (hsame : ∀ p, (arrayAt fb p).isSome ↔ (arrayAt infos p).isSome)
    (hr : ∀ p i x, arrayAt infos p = some (some i) → arrayAt c p = some x → Readable O dev D dsk i x)
    (ht : rest ≠ none → ∃ p, p.head? = some "target".toList ∧ (arrayAt infos p).isSome ∧ (arrayAt c p).isSome) :
    ∃ r, restoreFallback O rest dev D dsk tr infos f fb = .ok r := by
  obtain ⟨b, hb, e1, e2⟩ := restoreFallback_eq O rest dev D dsk tr infos f f' c fb h1 h2 hi hc
  obtain ⟨r0, hz⟩ := reads_ok O rest dev D dsk b hb fun p i x h => hr p i x ((e1 p _ _).1 h).1 ((e1 p _ _).1 h).2
  obtain ⟨hk, ho⟩ := zipT_shape _ _ _ _ _ hz
  rw [keys_mapL] at hk
  have hro := ho ((ordinary_mapL _ _ _).2 hb)
  have hbnone : ∀ p, arrayAt b p = none → arrayAt r0 p = none := by
    intro p hp
    have := (zipT_at _ p _ _ _ _ hz).2.2
    rw [arrayAt_mapL, hp] at this
    exact this rfl
  obtain ⟨m, m1, _, _⟩ := merge_spec r0 fb hro hf (fun p hp => by
    rw [hsame]
    cases hbp : arrayAt b p with
    | none => rw [hbnone p hbp] at hp; cases hp
    | some y => rw [((e1 p y.1 y.2).1 hbp).1]; rfl)
  refine ⟨m, ?_⟩
  rw [e2, hz]
  simp only [finish]
  rw [if_neg, m1]
  rw [Bool.and_eq_true, Bool.not_eq_true']
  rintro ⟨g1, g2⟩
  obtain ⟨p, p1, p2, p3⟩ := ht (by rintro rfl; cases g1)
  obtain ⟨i, hi'⟩ := Option.isSome_iff_exists.1 p2
  obtain ⟨x, hx⟩ := Option.isSome_iff_exists.1 p3
  have hbp := (e1 p i x).2 ⟨hi', hx⟩
  cases p with
  | nil => cases p1
  | cons k ks =>
    cases p1
    have := arrayAt_head b _ ks (by rw [hbp]; rfl)
    rw [hk, List.contains_iff_mem.2 this] at g2
    cases g2

/-- **C72, finding**: with a restore dtype, a checkpoint none of whose parameters belongs to the model is rejected, even though the fallback state
has all of them (and the steps, say, could be restored). -/
theorem C72_no_target (O : Ops A T) (t : T) (dev : Bool) (D : Str) (dsk : TsPath.Spec → Option A)
    (tr : Dict (Option (FLeaf A T)) → Except Err (Dict (Option (FLeaf A T)))) (infos : Dict (Option (Info T)))
    (f f' c : Dict (Option (FLeaf A T))) (fb : Dict (Option A)) (h1 : convert D f = .ok f') (h2 : tr f' = .ok c) (hi : Ordinary infos)
    (hc : Ordinary c)
    (hr : ∀ p i x, arrayAt infos p = some (some i) → arrayAt c p = some x → Readable O dev D dsk i x)
    (ht : ∀ p, p.head? = some "target".toList → (arrayAt infos p).isSome → arrayAt c p = none) :
    restoreFallback O (some t) dev D dsk tr infos f fb = .error .noTarget := by
  obtain ⟨i', i1, i2, i3, i4⟩ := intersect_spec infos c hi hc
  obtain ⟨b, e5, e6, e7⟩ := fill_base i' i2 i3 [] c (fun p hp => by
    by_contra h
    rw [i4, if_neg h] at hp
    cases hp)
  have hb : Ordinary b := by rw [e5, ordinary_mapL] at i2; exact i2
  obtain ⟨r0, hz⟩ := reads_ok O (some t) dev D dsk b hb (fun p i x h => by
    have hx := e7 p _ h
    refine hr p i x ?_ hx
    have := i4 p
    rw [hx, e5, arrayAt_mapL, h] at this
    exact this.symm)
  obtain ⟨hk, _⟩ := zipT_shape _ _ _ _ _ hz
  have hno : "target".toList ∉ r0.keys := by
    rw [hk, ← e5]
    intro hmem
    have key : ∀ d : Dict (Option (Info T)), Full d → ∀ k, k ∈ d.keys → Ordinary d → ∃ ks, (arrayAt d (k :: ks)).isSome := by
      intro d
      induction d with
      | nil => intro _ k hk; cases hk
      | leaf k' a r ih =>
        intro hf k hk ho
        by_cases he : k' = k
        · exact ⟨[], by rw [arrayAt_leaf, if_pos he, if_pos rfl]; rfl⟩
        · rcases List.mem_cons.1 hk with rfl | hk
          · exact absurd rfl he
          · obtain ⟨ks, h⟩ := ih hf k hk ho.2.2.2
            exact ⟨ks, by rw [arrayAt_leaf, if_neg he]; exact h⟩
      | sub k' d r _ ih =>
        intro hf k hk ho
        by_cases he : k' = k
        · obtain ⟨q, hq⟩ := full_leaf hf.2.1 hf.1
          exact ⟨q, by rw [arrayAt_sub, if_pos he]; exact hq⟩
        · rcases List.mem_cons.1 hk with rfl | hk
          · exact absurd rfl he
          · obtain ⟨ks, h⟩ := ih hf.2.2 k hk ho.2.2.2.2
            exact ⟨ks, by rw [arrayAt_sub, if_neg he]; exact h⟩
    obtain ⟨ks, hks⟩ := key i' i3 _ hmem i2
    rw [i4] at hks
    by_cases hcs : (arrayAt c ("target".toList :: ks)).isSome = true
    · rw [if_pos hcs] at hks
      rw [ht _ rfl hks] at hcs
      cases hcs
    · rw [if_neg hcs] at hks
      cases hks
  unfold restoreFallback
  rw [h1]
  simp only
  rw [h2]
  simp only [i1]
  rw [e6]
  simp only
  rw [e5, hz]
  simp only
  rw [if_pos]
  rw [Bool.and_eq_true, Bool.not_eq_true']
  refine ⟨rfl, ?_⟩
  rw [Bool.eq_false_iff]
  exact fun h => hno (List.contains_iff_mem.1 h)

open Verif.SaveRestore.Spec (Clean Like SameKind Every Moved) in
/-- **C72**, end to end: a state `s` saved by one model is restored, from wherever the files have been moved to, into another model with state `s1`,
which also serves as the fallback state.  The result has exactly the entries of `s1`; a parameter or optimizer state that both models have is the
saved one (parameters cast to the dtypes asked for), one that only the new model has keeps its value in `s1`.

Hypotheses: those of C64 about the saving, arrays that both models have of the same shape, and one common parameter if a restore dtype is given. -/
theorem C72_other_model (O : Ops A T) (hO : Good O) (save rest : Option T) (dev : Bool) (D0 D D1 D2 : Str) (hD : TsPath.Spec.Dir D)
    (hD2 : TsPath.Spec.Dir D2) (hk : TsPath.gsPrefix.isPrefixOf D0 = TsPath.gsPrefix.isPrefixOf D) (ax0 ax1 : List Key → Bool)
    (s s0 s1 : Dict (Option A)) (hs : Clean s) (hso : Ordinary s) (hs1 : Ordinary s1)
    (h0 : Like (fun _ x y => SameKind O x y ∧ x.map O.dtype = y.map O.dtype) [] s s0)
    (h1 : ∀ p x y, arrayAt s p = some x → arrayAt s1 p = some y → SameKind O x y)
    (hax : ∀ p, ax0 p = true → ax1 p = true ∨ dev = false)
    (hu : Every (fun p x => ∀ a, x = some a → ax0 p = true →
      O.dtype (conv O (if p.head? = some "target".toList then save else none) a) ≠ O.u16) [] s)
    (hsave : save = none → ∀ p, p.head? = some "target".toList → ax0 p = true)
    (hrest : rest ≠ none → ∃ p, p.head? = some "target".toList ∧ (arrayAt s p).isSome ∧ (arrayAt s1 p).isSome) :
    ∃ o, writeState O save D (parameterInfos O D0 ax0 s0) s = .ok o ∧
      ∀ ws, ws.Perm (writes o) → ∀ dsk, Moved D D2 (disk ws) dsk →
        ∃ r, restoreFallback O rest dev D2 dsk (fun c => .ok c) (parameterInfos O D1 ax1 s1) (file o) s1 = .ok r ∧
          ∀ p, (∀ x y, arrayAt s p = some x → arrayAt s1 p = some y →
              arrayAt r p = some (x.map fun a => if p.head? = some "target".toList then conv O rest (conv O save a) else a)) ∧
            (arrayAt s p = none → arrayAt r p = arrayAt s1 p) ∧ (arrayAt s1 p = none → arrayAt r p = none) := by
  obtain ⟨o, ho, hall⟩ := C64_round_trip O hO save none false D0 D D1 D2 hD hD2 hk ax0 ax1 s s0 s hs h0 (like_self O s [])
    (fun p _ => Or.inr rfl) hu hsave (fun h => absurd rfl h)
  refine ⟨o, ho, fun ws hws dsk hmv => ?_⟩
  obtain ⟨r', hr', hlike⟩ := hall ws hws dsk hmv
  -- the parts of the restoring into the same model
  unfold restore at hr'
  cases hcv : convert D2 (file o) with
  | error e => rw [hcv] at hr'; cases hr'
  | ok c =>
    rw [hcv] at hr'
    simp only at hr'
    cases hfl : fill (parameterInfos O D1 ax1 s) c with
    | error e => rw [hfl] at hr'; cases hr'
    | ok w =>
      rw [hfl] at hr'
      simp only at hr'
      cases hz : zipT (readLeaf O none false D2 dsk) [] (parameterInfos O D1 ax1 s) w with
      | error e => rw [hz] at hr'; cases hr'
      | ok r'' =>
        rw [hz] at hr'
        simp only [Option.isSome_none, Bool.false_and, Bool.false_eq_true, if_false] at hr'
        cases hr'
        -- what has been written
        unfold writeState at ho
        split_ifs at ho
        obtain ⟨_, hoo⟩ := zipT_shape _ _ _ _ _ ho
        have hfo : Ordinary (file o) := (ordinary_mapL _ _ _).2 (hoo hso)
        obtain ⟨_, hco, hcat⟩ := convert_shape D2 (file o) c hcv
        have hco := hco hfo
        have hread : ∀ p a, arrayAt s p = some (some a) → ∃ y, arrayAt c p = some y ∧
            (∃ i : Info T, i.shape = O.shape a ∧ Readable O false D2 dsk i y ∧
              Holds D2 dsk i y (if p.head? = some "target".toList then conv O save a else a)) ∧
            (∀ sp, y = some (.spec sp) → ax0 p = true) := by
          intro p a ha
          have hinf : arrayAt (parameterInfos O D1 ax1 s) p = some (paramInfo O D1 ax1 p (some a)) := by
            unfold parameterInfos
            rw [arrayAt_mapL, ha]
            rfl
          obtain ⟨i, hi⟩ : ∃ i, paramInfo O D1 ax1 p (some a) = some i := ⟨_, rfl⟩
          have hish : i.shape = O.shape a := by
            unfold paramInfo at hi
            simp only [Option.map_some, Option.some.injEq] at hi
            rw [← hi]
            split_ifs <;> rfl
          rw [hi] at hinf
          obtain ⟨x, y, v, g1, g2, g3, g4⟩ := restore_at O none false D2 dsk p [] _ _ c w _ hcv hfl hz i hinf
          obtain ⟨y', g5, g6⟩ := hcat p x g1
          rw [g2] at g5
          cases g5
          refine ⟨y, g6, ⟨i, hish, ?_⟩, ?_⟩
          · obtain ⟨q1, v', q2, q3⟩ := readLeaf_holds O none false D2 dsk _ i y v g3
            refine ⟨q1, ?_⟩
            obtain ⟨z, q4, q5⟩ := (like_at _ s [] r' hlike p).1 _ ha
            rw [g4] at q4
            cases q4
            simp only [Option.map_some, Option.some.injEq, List.nil_append] at q5
            have : v = v' := by rw [q3]; unfold restoreCast; simp
            rw [← this, q5] at q2
            exact q2
          · rintro sp rfl
            by_contra hno
            have hno' : ax0 p = false := by simpa using hno
            obtain ⟨z1, _, _⟩ := zipT_at _ p _ _ _ _ ho
            obtain ⟨b', c', q1, q2, q3⟩ := z1 a ha
            unfold parameterInfos at q1
            rw [arrayAt_mapL, Option.map_eq_some_iff] at q1
            obtain ⟨a0, _, q5⟩ := q1
            have hspec : b'.bind (·.spec) = none := by
              rw [← q5]
              unfold paramInfo
              cases a0 with
              | none => rfl
              | some a0 => simp only [List.nil_append, Option.map_some, hno', Bool.false_eq_true, if_false, Option.bind_some]
            unfold writeLeaf at q2
            rw [hspec] at q2
            cases q2
            unfold file at g1
            rw [arrayAt_mapL, q3] at g1
            cases g1
            cases g2
        have hnone : ∀ p, arrayAt s p = none → arrayAt c p = none := by
          intro p hp
          refine convert_none D2 p _ _ hcv ?_
          unfold file
          rw [arrayAt_mapL, (zipT_at _ p _ _ _ _ ho).2.2 hp]
          rfl
        have hnone' : ∀ p, arrayAt s p = some none → (arrayAt c p).isSome := by
          intro p hp
          have h2 := (zipT_at _ p _ _ _ _ ho).2.1 hp
          obtain ⟨y, _, q⟩ := hcat p none (by unfold file; rw [arrayAt_mapL, h2]; rfl)
          rw [q]; rfl
        have hsome : ∀ p, (arrayAt s p).isSome → (arrayAt c p).isSome := by
          intro p hp
          obtain ⟨x, hx⟩ := Option.isSome_iff_exists.1 hp
          cases x with
          | none => exact hnone' p hx
          | some a => obtain ⟨y, hy, _⟩ := hread p a hx; rw [hy]; rfl
        -- the new model
        have hio : Ordinary (parameterInfos O D1 ax1 s1) := (ordinary_mapL _ _ _).2 hs1
        have hinfos : ∀ p, arrayAt (parameterInfos O D1 ax1 s1) p = (arrayAt s1 p).map (paramInfo O D1 ax1 p) := by
          intro p
          unfold parameterInfos
          rw [arrayAt_mapL]
          rfl
        have hsame : ∀ p, (arrayAt s1 p).isSome ↔ (arrayAt (parameterInfos O D1 ax1 s1) p).isSome := by
          intro p
          rw [hinfos, Option.isSome_map]
        -- a common entry
        have hcommon : ∀ p i x, arrayAt (parameterInfos O D1 ax1 s1) p = some (some i) → arrayAt c p = some x →
            ∃ a, arrayAt s p = some (some a) ∧ Readable O dev D2 dsk i x ∧
              Holds D2 dsk i x (if p.head? = some "target".toList then conv O save a else a) := by
          intro p i x hi hx
          rw [hinfos, Option.map_eq_some_iff] at hi
          obtain ⟨y1, k1, k2⟩ := hi
          cases y1 with
          | none => cases k2
          | some a1 =>
            cases hsp : arrayAt s p with
            | none => rw [hnone p hsp] at hx; cases hx
            | some xs =>
              have hkind := h1 p xs _ hsp k1
              cases xs with
              | none => cases hkind
              | some a =>
                unfold SameKind at hkind
                simp only [Option.map_some, Option.some.injEq] at hkind
                obtain ⟨y, l1, ⟨i0, l2, l3, l4⟩, l5⟩ := hread p a hsp
                rw [hx] at l1
                cases l1
                have hish : i.shape = O.shape a1 ∧ (ax1 p = true → i.spec.isSome) := by
                  unfold paramInfo at k2
                  simp only [Option.map_some, Option.some.injEq] at k2
                  rw [← k2]
                  split_ifs with hax1
                  · exact ⟨rfl, fun _ => rfl⟩
                  · exact ⟨rfl, fun h => absurd h hax1⟩
                have htr : ∀ v, Holds D2 dsk i0 x v → Holds D2 dsk i x v := by
                  intro v hv
                  rcases hv with hv | ⟨sp, loc, m1, m2, m3, m4⟩
                  · exact Or.inl hv
                  · exact Or.inr ⟨sp, loc, m1, by rw [m2, l2, hkind, hish.1], m3, m4⟩
                refine ⟨a, rfl, ⟨⟨_, htr _ l4⟩, fun sp hsp' => ⟨(l3.2 sp hsp').1, fun hdev => ?_⟩⟩, htr _ l4⟩
                rcases hax p (l5 sp hsp') with h | h
                · exact hish.2 h
                · rw [hdev] at h; cases h
        obtain ⟨r, hr⟩ := C72_succeeds O rest dev D2 dsk (fun c => .ok c) (parameterInfos O D1 ax1 s1) (file o) c c s1 hcv rfl hio hco hs1 hsame
          (fun p i x hi hx => (hcommon p i x hi hx).choose_spec.2.1)
          (fun hr => by
            obtain ⟨p, p1, p2, p3⟩ := hrest hr
            exact ⟨p, p1, (hsame p).1 p3, hsome p p2⟩)
        refine ⟨r, hr, fun p => ?_⟩
        obtain ⟨t1, t2, t3, t4⟩ := C72_fallback O hO rest dev D2 dsk (fun c => .ok c) (parameterInfos O D1 ax1 s1) (file o) c c s1 r hcv rfl hio hco hs1
          hsame hr p
        refine ⟨fun x y hx hy => ?_, fun hx => ?_, fun hy => t4 (by rw [hinfos, hy]; rfl)⟩
        · have hkind := h1 p x y hx hy
          obtain ⟨cx, hcx⟩ := Option.isSome_iff_exists.1 (hsome p (by rw [hx]; rfl))
          cases y with
          | none =>
            cases x with
            | none => exact t2 cx (by rw [hinfos, hy]; rfl) hcx
            | some a => cases hkind
          | some a1 =>
            have hi' : arrayAt (parameterInfos O D1 ax1 s1) p = some (paramInfo O D1 ax1 p (some a1)) := by rw [hinfos, hy]; rfl
            obtain ⟨i, hi⟩ : ∃ i, paramInfo O D1 ax1 p (some a1) = some i := ⟨_, rfl⟩
            rw [hi] at hi'
            obtain ⟨a', u1, u2⟩ := t1 i cx hi' hcx
            obtain ⟨a, v1, _, v2⟩ := hcommon p i cx hi' hcx
            rw [hx] at v1
            cases v1
            rw [u2, holds_unique D2 dsk i cx _ _ u1 v2]
            simp only [Option.map_some]
            split_ifs <;> rfl
        · cases hy : arrayAt s1 p with
          | none => exact t4 (by rw [hinfos, hy]; rfl)
          | some y => exact t3 y hy (hnone p hx)

/-! ### Instances and findings -/

/-- A new model: the parameter `w` of `exState` and a new one, the step, no accumulators. -/
def exNew : Dict (Option (List Nat × Nat × Nat)) :=
  .sub "target".toList (.leaf "new".toList (some ([3], 0, 77)) (.leaf "w".toList (some ([4, 2], 0, 78)) .nil))
    (.sub "state".toList (.leaf "step".toList (some ([], 5, 79)) .nil) .nil)

/-- The hypotheses of `C72_other_model` are met: the state of C64's example, restored into a model that has a new parameter and lacks the
accumulators. -/
example : ∃ o, writeState exOps (some 1) "/m/c.tmp-1".toList
      (parameterInfos exOps "/m".toList (fun p => p.getLast? ≠ some "step".toList) (SaveRestore.exState 0)) (SaveRestore.exState 10) = .ok o ∧
    ∀ ws, ws.Perm (writes o) → ∀ dsk, Verif.SaveRestore.Spec.Moved "/m/c.tmp-1".toList "gs://b/c".toList (disk ws) dsk →
      ∃ r, restoreFallback exOps (some 0) true "gs://b/c".toList dsk (fun c => .ok c) (parameterInfos exOps "/n".toList (fun _ => true) exNew)
          (file o) exNew = .ok r ∧
        arrayAt r ["target".toList, "w".toList] = some (some ([4, 2], 0, 10)) ∧
        arrayAt r ["target".toList, "new".toList] = some (some ([3], 0, 77)) ∧
        arrayAt r ["state".toList, "step".toList] = some (some ([], 5, 11)) ∧
        arrayAt r ["state".toList, "param_states".toList, "w".toList] = none := by
  have hord : Ordinary (SaveRestore.exState 10) ∧ Ordinary exNew := by
    simp only [SaveRestore.exState, exNew, Ordinary]
    repeat' (first | exact trivial | refine And.intro ?_ ?_ | decide)
  have hcommon : ∀ p x y, arrayAt (SaveRestore.exState 10) p = some x → arrayAt exNew p = some y → Verif.SaveRestore.Spec.SameKind exOps x y := by
    have key : Verif.SaveRestore.Spec.Every (fun p y => ∀ x, arrayAt (SaveRestore.exState 10) p = some x → x.map exOps.shape = y.map exOps.shape) [] exNew := by
      simp only [exNew, Verif.SaveRestore.Spec.Every]
      refine ⟨⟨?_, ?_, trivial⟩, ⟨?_, trivial⟩, trivial⟩ <;>
        · intro x hx
          cases hx <;> rfl
    intro p x y hx hy
    have hbase : exNew = mapL (fun _ z => z) [] exNew := rfl
    rw [hbase] at key
    have h2 := every_mapL _ _ [] exNew key
    have h3 : ∀ (b : Dict (Option (List Nat × Nat × Nat))) (pre q : List Key) (y : Option (List Nat × Nat × Nat)), arrayAt b q = some y →
        (pre ++ q, y) ∈ leaves pre b := by
      intro b
      induction b with
      | nil =>
        intro pre q y h
        cases q with
        | nil => cases h
        | cons k ks => rw [arrayAt_cons, Dict.get, sel_none] at h; cases h
      | leaf k a r ih =>
        intro pre q y h
        cases q with
        | nil => rw [arrayAt_nil] at h; cases h
        | cons k' ks =>
          rw [arrayAt_leaf] at h
          by_cases he : k = k'
          · rw [if_pos he] at h
            by_cases hk : ks = []
            · rw [if_pos hk] at h
              cases h
              rw [he, hk]
              exact List.mem_cons_self ..
            · rw [if_neg hk] at h; cases h
          · rw [if_neg he] at h
            exact List.mem_cons_of_mem _ (ih pre _ y h)
      | sub k d r ihd ih =>
        intro pre q y h
        cases q with
        | nil => rw [arrayAt_nil] at h; cases h
        | cons k' ks =>
          rw [arrayAt_sub] at h
          by_cases he : k = k'
          · rw [if_pos he] at h
            have := ihd (pre ++ [k]) ks y h
            rw [List.append_assoc, he] at this
            rw [← he] at this ⊢
            exact List.mem_append_left _ this
          · rw [if_neg he] at h
            exact List.mem_append_right _ (ih pre _ y h)
    exact h2 (p, y) (h3 exNew [] p y hy) x hx
  obtain ⟨o, h1, h2⟩ := C72_other_model exOps exOps_good (some 1) (some 0) true "/m".toList "/m/c.tmp-1".toList "/n".toList
    "gs://b/c".toList (fun h => absurd h (by decide)) (fun _ => by decide) (by decide) (fun p => p.getLast? ≠ some "step".toList)
    (fun _ => true) (SaveRestore.exState 10) (SaveRestore.exState 0) exNew
    (by simp only [SaveRestore.exState, Verif.SaveRestore.Spec.Clean]; repeat' (first | exact trivial | refine And.intro ?_ ?_ | decide)) hord.1 hord.2
    (by simp only [SaveRestore.exState, Verif.SaveRestore.Spec.Like, Verif.SaveRestore.Spec.SameKind]; decide) hcommon (fun _ _ => Or.inl rfl)
    (by
      simp only [SaveRestore.exState, Verif.SaveRestore.Spec.Every]
      refine ⟨⟨?_, trivial⟩, ⟨?_, ⟨⟨?_, ⟨?_, trivial, trivial⟩⟩, trivial⟩⟩, trivial⟩ <;>
        · intro a ha _
          cases ha <;> decide)
    (fun h => by cases h) (fun _ => ⟨["target".toList, "w".toList], by decide, by decide, by decide⟩)
  refine ⟨o, h1, fun ws hws dsk hmv => ?_⟩
  obtain ⟨r, h3, h4⟩ := h2 ws hws dsk hmv
  refine ⟨r, h3, ?_, ?_, ?_, ?_⟩
  · exact (h4 _).1 (some ([4, 2], 0, 10)) (some ([4, 2], 0, 78)) (by decide) (by decide)
  · exact ((h4 _).2.1 (by decide)).trans (by decide)
  · exact (h4 _).1 (some ([], 5, 11)) (some ([], 5, 79)) (by decide) (by decide)
  · exact (h4 _).2.2 (by decide)

/-- **C72, finding**: the values that come from the fallback state are not cast.  With restore dtype 1 (bfloat16), the parameter that the checkpoint
has is restored as bfloat16, and the one it does not have stays float32. -/
theorem C72_fallback_not_cast : ∃ (infos : Dict (Option (Info Nat))) (f : Dict (Option (FLeaf (List Nat × Nat × Nat) Nat))) (fb r : _),
    restoreFallback exOps (some 1) true "/m/c".toList (fun _ => none) (fun c => .ok c) infos f fb = .ok r ∧
    arrayAt r ["target".toList, "w".toList] = some (some ([2], 1, 5)) ∧ arrayAt r ["target".toList, "v".toList] = some (some ([2], 0, 7)) :=
  ⟨.sub "target".toList (.leaf "v".toList (some ⟨"target.v".toList, [2], none⟩) (.leaf "w".toList (some ⟨"target.w".toList, [2], none⟩) .nil)) .nil,
    .sub "target".toList (.leaf "w".toList (some (.val ([2], 0, 5))) .nil) .nil,
    .sub "target".toList (.leaf "v".toList (some ([2], 0, 7)) (.leaf "w".toList (some ([2], 0, 8)) .nil)) .nil,
    .sub "target".toList (.leaf "w".toList (some ([2], 1, 5)) (.leaf "v".toList (some ([2], 0, 7)) .nil)) .nil, rfl, rfl, rfl⟩

/-- **C72, finding**: empty dicts of the model's state are lost on the way through a fallback state (restoring without one keeps them). -/
theorem C72_empty_dropped : ∃ (infos : Dict (Option (Info Nat))) (f : Dict (Option (FLeaf (List Nat × Nat × Nat) Nat))) (fb r r' : _),
    restoreFallback exOps none true "/m/c".toList (fun _ => none) (fun c => .ok c) infos f fb = .ok r ∧
    restore exOps none true "/m/c".toList (fun _ => none) infos f = .ok r' ∧
    fb.get "state".toList = some (.dict .nil) ∧ r.get "state".toList = none ∧ r'.get "state".toList = some (.dict .nil) :=
  ⟨.leaf "w".toList (some ⟨"w".toList, [2], none⟩) (.sub "state".toList .nil .nil),
    .leaf "w".toList (some (.val ([2], 0, 5))) (.sub "state".toList .nil .nil),
    .leaf "w".toList (some ([2], 0, 8)) (.sub "state".toList .nil .nil), .leaf "w".toList (some ([2], 0, 5)) .nil,
    .leaf "w".toList (some ([2], 0, 5)) (.sub "state".toList .nil .nil), rfl, rfl, rfl, rfl, rfl⟩

/-- `C72_no_target` applies. -/
example : restoreFallback exOps (some 1) true "/m/c".toList (fun _ => none) (fun c => .ok c)
    (.sub "target".toList (.leaf "v".toList (some ⟨"target.v".toList, [2], none⟩) .nil) .nil)
    (.sub "target".toList (.leaf "w".toList (some (.val ([2], 0, 5))) .nil) .nil)
    (.sub "target".toList (.leaf "v".toList (some ([2], 0, 7)) .nil) .nil) = .error .noTarget := rfl

end Verif.Fallback
