import Verif.Spec.ApplyGrad
import Verif.Lemmas.MultiOpt
namespace Verif.ApplyGrad
open Verif Verif.StateDict Verif.StateDict.Spec Verif.MultiOpt Verif.ND Verif.OptaxState.Spec Verif.ApplyGrad.Spec

variable {P S E β : Type}

theorem get_flatS (d : Dict β) (hd : ProperDict d) (p : List Key) (hp : Named p) : PyDict.get (flatS d) (join p) = arrayAt d p := by
  have h := get_joined (items d) (items_nodup d hd) (items_named d hd) p hp
  rw [Option.ext_iff]
  intro a
  rw [← mem_items d hd]
  exact h a

/-- One parameter with what belongs to it: path, value, state, gradient. -/
structure Row (P S : Type) where
  path : List Key
  val : P
  st : S
  grad : NDArray ℝ

theorem lookup_rows (st : Dict S) (grads : Dict (NDArray ℝ)) (hs : ProperDict st) (hg : ProperDict grads) :
    ∀ L : List (List Key × P), (∀ e ∈ L, Named e.1) → (∀ e ∈ L, arrayAt st e.1 ≠ none ∧ arrayAt grads e.1 ≠ none) →
    ∃ T : List (Row P S), T.map (fun t => (t.path, t.val)) = L ∧
      (∀ t ∈ T, arrayAt st t.path = some t.st ∧ arrayAt grads t.path = some t.grad) ∧
      lookupAll (flatS st) (L.map fun e => join e.1) = some (T.map Row.st) ∧
      lookupAll (flatS grads) (L.map fun e => join e.1) = some (T.map Row.grad) := by
  intro L
  induction L with
  | nil => intro _ _; exact ⟨[], rfl, by simp, rfl, rfl⟩
  | cons e L ih =>
    intro hn hc
    obtain ⟨T, h1, h2, h3, h4⟩ := ih (fun x hx => hn x (List.mem_cons_of_mem _ hx)) (fun x hx => hc x (List.mem_cons_of_mem _ hx))
    obtain ⟨c1, c2⟩ := hc e List.mem_cons_self
    obtain ⟨s, c1⟩ := Option.ne_none_iff_exists'.mp c1
    obtain ⟨g, c2⟩ := Option.ne_none_iff_exists'.mp c2
    refine ⟨⟨e.1, e.2, s, g⟩ :: T, by simp [h1], ?_, ?_, ?_⟩
    · intro t ht
      rcases List.mem_cons.mp ht with rfl | ht
      · exact ⟨c1, c2⟩
      · exact h2 t ht
    · simp only [List.map_cons, lookupAll, get_flatS st hs e.1 (hn e List.mem_cons_self), c1, h3]
    · simp only [List.map_cons, lookupAll, get_flatS grads hg e.1 (hn e List.mem_cons_self), c2, h4]

theorem lookup_none (d : Dict β) (hd : ProperDict d) : ∀ L : List (List Key × P), (∀ e ∈ L, Named e.1) →
    (∃ e ∈ L, arrayAt d e.1 = none) → lookupAll (flatS d) (L.map fun e => join e.1) = none := by
  intro L
  induction L with
  | nil => rintro _ ⟨e, he, _⟩; cases he
  | cons x L ih =>
    rintro hn ⟨e, he, h⟩
    simp only [List.map_cons, lookupAll, get_flatS d hd x.1 (hn x List.mem_cons_self)]
    rcases List.mem_cons.mp he with rfl | he
    · rw [h]
    · rw [ih (fun y hy => hn y (List.mem_cons_of_mem _ hy)) ⟨e, he, h⟩]
      cases arrayAt d x.1 <;> rfl

theorem updateAll_ok (upd : Key → P → S → NDArray ℝ → Except E (P × S)) (f : NDArray ℝ → NDArray ℝ) : ∀ T : List (Row P S),
    ((∃ out, updateAll upd (T.map fun t => (join t.path, t.val)) (T.map Row.st) (T.map fun t => f t.grad) = .ok out) ↔
      ∀ t ∈ T, ∃ o, upd (join t.path) t.val t.st (f t.grad) = .ok o) ∧
    ∀ out, updateAll upd (T.map fun t => (join t.path, t.val)) (T.map Row.st) (T.map fun t => f t.grad) = .ok out →
      ∃ R : List (Row P S × (P × S)), R.map Prod.fst = T ∧ R.map Prod.snd = out ∧
        ∀ r ∈ R, upd (join r.1.path) r.1.val r.1.st (f r.1.grad) = .ok r.2 := by
  intro T
  induction T with
  | nil =>
    refine ⟨⟨fun _ => by simp, fun _ => ⟨[], rfl⟩⟩, ?_⟩
    intro out h
    simp only [List.map_nil, updateAll, Except.ok.injEq] at h
    exact ⟨[], rfl, by simpa using h, by simp⟩
  | cons t T ih =>
    obtain ⟨ih1, ih2⟩ := ih
    simp only [List.map_cons, updateAll]
    cases hu : upd (join t.path) t.val t.st (f t.grad) with
    | error e =>
      refine ⟨⟨?_, ?_⟩, ?_⟩
      · rintro ⟨out, h⟩; cases h
      · intro h
        obtain ⟨o, h⟩ := h t List.mem_cons_self
        rw [hu] at h; cases h
      · intro out h; cases h
    | ok o =>
      dsimp only
      cases hr : updateAll upd (T.map fun t => (join t.path, t.val)) (T.map Row.st) (T.map fun t => f t.grad) with
      | error e =>
        rw [hr] at ih1 ih2
        refine ⟨⟨?_, ?_⟩, ?_⟩
        · rintro ⟨out, h⟩; cases h
        · intro h
          obtain ⟨o, h⟩ := ih1.2 (fun t ht => h t (List.mem_cons_of_mem _ ht))
          cases h
        · intro out h; cases h
      | ok os =>
        rw [hr] at ih1 ih2
        refine ⟨⟨?_, ?_⟩, ?_⟩
        · rintro _ t' ht'
          rcases List.mem_cons.mp ht' with rfl | ht'
          · exact ⟨o, hu⟩
          · exact ih1.1 ⟨os, rfl⟩ t' ht'
        · intro _; exact ⟨_, rfl⟩
        · intro out h
          simp only [Except.ok.injEq] at h
          obtain ⟨R, r1, r2, r3⟩ := ih2 os rfl
          refine ⟨(t, o) :: R, by simp [r1], by simp [r2, h], ?_⟩
          intro r hr
          rcases List.mem_cons.mp hr with rfl | hr
          · exact hu
          · exact r3 r hr

theorem sumSq_nonneg (g : NDArray ℝ) : 0 ≤ sumSq g := by
  unfold sumSq
  apply List.sum_nonneg
  intro x hx
  obtain ⟨i, _, rfl⟩ := List.mem_map.mp hx
  exact mul_self_nonneg _

theorem sumSq_scaled (c : ℝ) (g : NDArray ℝ) : sumSq (scaled c g) = c ^ 2 * sumSq g := by
  unfold sumSq scaled
  rw [← List.sum_map_mul_left]
  congr 1
  apply List.map_congr_left
  intro i _
  ring

theorem scaled_one (g : NDArray ℝ) : scaled 1 g = g := by
  cases g
  simp [scaled]

theorem norm_nonneg (gs : List (NDArray ℝ)) : 0 ≤ globalNorm gs := Real.sqrt_nonneg _

theorem scaleOf_eq (t N : ℝ) (ht : t ≠ 0) (hN : 0 ≤ N) : scaleOf t N = clipFactor (some t) N := by
  unfold scaleOf clipFactor
  by_cases h0 : N = 0
  · rw [if_pos h0]
    have : t ≤ 0 ∨ N ≤ t := by rw [h0]; exact le_total t 0
    simp only [if_pos this]
    field_simp
  · have hN' : 0 < N := lt_of_le_of_ne hN (Ne.symm h0)
    rw [if_neg h0]
    dsimp only
    rcases lt_or_gt_of_ne ht with ht | ht
    · rw [if_pos (Or.inl ht.le), min_eq_left]
      · field_simp
      · exact (one_div_neg.mpr ht).le.trans (one_div_pos.mpr hN').le
    · by_cases hle : N ≤ t
      · rw [if_pos (Or.inr hle), min_eq_left (one_div_le_one_div_of_le hN' hle)]
        field_simp
      · rw [if_neg (by push Not; exact ⟨ht, not_le.mp hle⟩), min_eq_right (one_div_le_one_div_of_le ht (not_le.mp hle).le)]
        ring

theorem clip_eq (thr : Option ℝ) (gs : List (NDArray ℝ)) : clip thr gs = gs.map (scaled (clipFactor thr (globalNorm gs))) := by
  have one : gs.map (scaled 1) = gs := by
    conv_rhs => rw [← List.map_id gs]
    exact List.map_congr_left fun g _ => scaled_one g
  cases thr with
  | none => exact one.symm
  | some t =>
    unfold clip
    by_cases ht : t = 0
    · simp only [if_pos ht]
      have : clipFactor (some t) (globalNorm gs) = 1 := by
        unfold clipFactor; simp only [if_pos (Or.inl ht.le : t ≤ 0 ∨ globalNorm gs ≤ t)]
      rw [this]; exact one.symm
    · simp only [if_neg ht]
      rw [scaleOf_eq t _ ht (norm_nonneg gs)]
      rfl

theorem norm_scaled (c : ℝ) (hc : 0 ≤ c) (gs : List (NDArray ℝ)) : globalNorm (gs.map (scaled c)) = c * globalNorm gs := by
  unfold globalNorm
  rw [List.map_map]
  have : gs.map (sumSq ∘ scaled c) = gs.map (fun g => c ^ 2 * sumSq g) := List.map_congr_left fun g _ => sumSq_scaled c g
  rw [this, List.sum_map_mul_left, Real.sqrt_mul (sq_nonneg c), Real.sqrt_sq hc]

/-- C59: clipping brings the global norm to the minimum of itself and the threshold by multiplying all gradients with one factor
between 0 and 1; gradients whose norm is within the threshold are unchanged, and so are all without a positive threshold. -/
theorem C59_clip (t : ℝ) (gs : List (NDArray ℝ)) :
    (0 < t → globalNorm (clip (some t) gs) = min t (globalNorm gs) ∧
      (∃ c, 0 < c ∧ c ≤ 1 ∧ clip (some t) gs = gs.map (scaled c)) ∧ (globalNorm gs ≤ t → clip (some t) gs = gs)) ∧
    (t ≤ 0 → clip (some t) gs = gs) ∧ clip none gs = gs := by
  have one : gs.map (scaled 1) = gs := by
    conv_rhs => rw [← List.map_id gs]
    exact List.map_congr_left fun g _ => scaled_one g
  refine ⟨?_, ?_, rfl⟩
  · intro ht
    by_cases hle : globalNorm gs ≤ t
    · have hf : clipFactor (some t) (globalNorm gs) = 1 := by
        unfold clipFactor; simp only [if_pos (Or.inr hle : t ≤ 0 ∨ globalNorm gs ≤ t)]
      rw [clip_eq, hf]
      exact ⟨by rw [one, min_eq_right hle], ⟨1, one_pos, le_refl _, rfl⟩, fun _ => one⟩
    · have hlt := not_le.mp hle
      have hN : 0 < globalNorm gs := ht.trans hlt
      have hf : clipFactor (some t) (globalNorm gs) = t / globalNorm gs := by
        unfold clipFactor
        exact if_neg (by push Not; exact ⟨ht, hlt⟩)
      rw [clip_eq, hf]
      refine ⟨?_, ⟨t / globalNorm gs, div_pos ht hN, (div_le_one hN).mpr hlt.le, rfl⟩, fun h => absurd h hle⟩
      rw [norm_scaled _ (div_pos ht hN).le, min_eq_left hlt.le]
      field_simp
  · intro ht
    have hf : clipFactor (some t) (globalNorm gs) = 1 := by
      unfold clipFactor; simp only [if_pos (Or.inl ht : t ≤ 0 ∨ globalNorm gs ≤ t)]
    rw [clip_eq, hf, one]

theorem squares_some (g : NDArray ℝ) : squares (some g) = sumSq g := by
  unfold squares sumSq
  dsimp only
  congr 1
  exact List.map_congr_left fun i _ => pow_two _

theorem restore_rows {R : Type} (l : List R) (path : R → List Key) (f : R → β) (hn : (l.map path).Nodup) (hk : ∀ r ∈ l, Named (path r))
    (hp : ∀ r ∈ l, ∀ r' ∈ l, path r <+: path r' → path r = path r') :
    ∃ d, restore (l.map fun r => (join (path r), f r)) = some d ∧ ProperDict d ∧
      ∀ p a, arrayAt d p = some a ↔ ∃ r ∈ l, path r = p ∧ f r = a := by
  have he : (l.map fun r => (join (path r), f r)).map (fun e => (split e.1, e.2)) = l.map fun r => (path r, f r) := by
    have := split_joined (l.map fun r => (path r, f r)) (by
      intro e he
      obtain ⟨r, hr, rfl⟩ := List.mem_map.mp he
      exact hk r hr)
    simp only [List.map_map] at this ⊢
    exact this
  obtain ⟨d, h1, h2, h3⟩ := unflat_spec (l.map fun r => (path r, f r)) (by rw [List.map_map]; exact hn) (by
      intro e he
      obtain ⟨r, hr, rfl⟩ := List.mem_map.mp he
      exact hk r hr) (by
      intro e he e' he'
      obtain ⟨r, hr, rfl⟩ := List.mem_map.mp he
      obtain ⟨r', hr', rfl⟩ := List.mem_map.mp he'
      exact hp r hr r' hr')
  refine ⟨d, by unfold restore; rw [he]; exact h1, h2, ?_⟩
  intro p a
  rw [h3, List.mem_map]
  simp only [Prod.mk.injEq]

theorem keys_flatS (d : Dict β) : PyDict.keys (flatS d) = (items d).map fun e => join e.1 := by
  unfold PyDict.keys flatS
  rw [List.map_map]; rfl

/-- C59: one gradient step on a whole tree.  The parameters have leaves at the paths `ps`.
* If a state or a gradient is missing at one of them, the step raises a KeyError.
* Otherwise it succeeds exactly if the update of every single parameter does, and then every parameter and its state are those
computed from its own parameter, state and gradient — the one at the same path, whatever the order of the three dicts — with the
gradient scaled by the clipping factor for the norm of all gradients.  There are no other leaves and the step advances by one. -/
theorem C59_apply (upd : Nat → Key → P → S → NDArray ℝ → Except E (P × S)) (thr : Option ℝ) (params : Dict P) (state : Nat × Dict S)
    (grads : Dict (NDArray ℝ)) (hp : ProperDict params) (hs : ProperDict state.2) (hg : ProperDict grads)
    (ps : List (List Key)) (hps : Enumerates ps params) :
    ((∃ p ∈ ps, arrayAt state.2 p = none ∨ arrayAt grads p = none) → applyGradient upd thr params state grads = .error .keyError) ∧
    ((∀ p ∈ ps, arrayAt state.2 p ≠ none ∧ arrayAt grads p ≠ none) →
      let c := clipFactor thr (normAll grads ps)
      ((∃ r, applyGradient upd thr params state grads = .ok r) ↔
        ∀ p x s g, arrayAt params p = some x → arrayAt state.2 p = some s → arrayAt grads p = some g →
          ∃ o, upd state.1 (join p) x s (scaled c g) = .ok o) ∧
      ∀ r, applyGradient upd thr params state grads = .ok r →
        r.2.1 = state.1 + 1 ∧ ProperDict r.1 ∧ ProperDict r.2.2 ∧
        (∀ p, p ∉ ps → arrayAt r.1 p = none ∧ arrayAt r.2.2 p = none) ∧
        ∀ p x s g, arrayAt params p = some x → arrayAt state.2 p = some s → arrayAt grads p = some g →
          ∃ o, upd state.1 (join p) x s (scaled c g) = .ok o ∧ arrayAt r.1 p = some o.1 ∧ arrayAt r.2.2 p = some o.2) := by
  obtain ⟨hnd, hmem⟩ := hps
  have hin : ∀ p, p ∈ (items params).map Prod.fst ↔ p ∈ ps := by
    intro p
    rw [hmem, List.mem_map]
    constructor
    · rintro ⟨e, he, rfl⟩
      rw [(mem_items params hp e.1 e.2).1 he]; simp
    · intro h
      obtain ⟨a, ha⟩ := Option.ne_none_iff_exists'.mp h
      exact ⟨(p, a), (mem_items params hp p a).2 ha, rfl⟩
  constructor
  · rintro ⟨p, hpm, h⟩
    obtain ⟨e, he, rfl⟩ := List.mem_map.mp ((hin p).2 hpm)
    unfold applyGradient
    simp only [keys_flatS]
    rcases h with h | h
    · rw [lookup_none state.2 hs (items params) (items_named params hp) ⟨e, he, h⟩]
    · rw [lookup_none grads hg (items params) (items_named params hp) ⟨e, he, h⟩]
      cases lookupAll (flatS state.2) ((items params).map fun e => join e.1) <;> rfl
  · intro hcov c
    obtain ⟨T, t1, t2, t3, t4⟩ := lookup_rows state.2 grads hs hg (items params) (items_named params hp)
      (fun e he => hcov e.1 ((hin e.1).1 (List.mem_map_of_mem he)))
    have tpath : T.map Row.path = (items params).map Prod.fst := by rw [← t1, List.map_map]; rfl
    have tval : ∀ t ∈ T, arrayAt params t.path = some t.val := by
      intro t ht
      refine (mem_items params hp t.path t.val).1 ?_
      rw [← t1]
      exact List.mem_map_of_mem (f := fun t : Row P S => (t.path, t.val)) ht
    have tex : ∀ p x s g, arrayAt params p = some x → arrayAt state.2 p = some s → arrayAt grads p = some g →
        (⟨p, x, s, g⟩ : Row P S) ∈ T := by
      intro p x s g h1 h2 h3
      have : (p, x) ∈ items params := (mem_items params hp p x).2 h1
      rw [← t1] at this
      obtain ⟨t, ht, he⟩ := List.mem_map.mp this
      simp only [Prod.mk.injEq] at he
      obtain ⟨a, b⟩ := t2 t ht
      rw [he.1] at a b
      rw [h2] at a; rw [h3] at b
      cases t
      simp only [Option.some.injEq] at a b he
      rw [← he.1, ← he.2, a, b]
      exact ht
    have hperm : (T.map Row.path).Perm ps := by
      rw [tpath]
      refine (List.perm_ext_iff_of_nodup (items_nodup params hp) hnd).2 hin
    have hnorm : globalNorm (T.map Row.grad) = normAll grads ps := by
      unfold globalNorm normAll
      congr 1
      rw [← (hperm.map fun p => squares (arrayAt grads p)).sum_eq, List.map_map, List.map_map]
      congr 1
      apply List.map_congr_left
      intro t ht
      simp only [Function.comp]
      rw [(t2 t ht).2, squares_some]
    have hclip : clip thr (T.map Row.grad) = T.map fun t => scaled c t.grad := by
      rw [clip_eq, hnorm, List.map_map]; rfl
    have hflat : flatS params = T.map fun t => (join t.path, t.val) := by
      unfold flatS
      rw [← t1, List.map_map]; rfl
    obtain ⟨u1, u2⟩ := updateAll_ok (upd state.1) (scaled c) T
    have hfin : ∀ out, updateAll (upd state.1) (T.map fun t => (join t.path, t.val)) (T.map Row.st) (T.map fun t => scaled c t.grad) = .ok out →
        ∃ r, applyGradient upd thr params state grads = .ok r ∧ r.2.1 = state.1 + 1 ∧ ProperDict r.1 ∧ ProperDict r.2.2 ∧
        (∀ p, p ∉ ps → arrayAt r.1 p = none ∧ arrayAt r.2.2 p = none) ∧
        ∀ t ∈ T, ∃ o, upd state.1 (join t.path) t.val t.st (scaled c t.grad) = .ok o ∧ arrayAt r.1 t.path = some o.1 ∧ arrayAt r.2.2 t.path = some o.2 := by
      intro out hout
      obtain ⟨R, r1, r2, r3⟩ := u2 out hout
      have rpath : R.map (fun r => r.1.path) = (items params).map Prod.fst := by
        rw [← tpath, ← r1, List.map_map]; rfl
      have rn : (R.map (fun r => r.1.path)).Nodup := by rw [rpath]; exact items_nodup params hp
      have rm : ∀ r ∈ R, r.1 ∈ T := by intro r hr; rw [← r1]; exact List.mem_map_of_mem hr
      have rk : ∀ r ∈ R, Named r.1.path := by
        intro r hr
        have : (r.1.path, r.1.val) ∈ items params := (mem_items params hp _ _).2 (tval _ (rm r hr))
        exact items_named params hp _ this
      have rp : ∀ r ∈ R, ∀ r' ∈ R, r.1.path <+: r'.1.path → r.1.path = r'.1.path := by
        intro r hr r' hr' h
        exact arrayAt_prefix params _ _ _ _ (tval _ (rm r hr)) (tval _ (rm r' hr')) h
      obtain ⟨np, n1, n2, n3⟩ := restore_rows R (fun r => r.1.path) (fun r => r.2.1) rn rk rp
      obtain ⟨ns, s1, s2, s3⟩ := restore_rows R (fun r => r.1.path) (fun r => r.2.2) rn rk rp
      have zipkeys : ∀ (γ : Type) (f : P × S → γ), List.zip ((items params).map fun e => join e.1) (out.map f) =
          R.map fun r => (join r.1.path, f r.2) := by
        intro γ f
        have hk : ((items params).map fun e => join e.1) = R.map fun r => join r.1.path := by
          have := congrArg (List.map join) rpath
          rw [List.map_map, List.map_map] at this
          exact this.symm
        rw [hk, ← r2, List.map_map, List.zip_map']
        rfl
      refine ⟨(np, (state.1 + 1, ns)), ?_, rfl, n2, s2, ?_, ?_⟩
      · unfold applyGradient
        simp only [keys_flatS, t3, t4, hclip]
        rw [hflat, hout]
        simp only [zipkeys, n1, s1]
      · intro p hpn
        have hno : ∀ r ∈ R, r.1.path ≠ p := by
          rintro r hr rfl
          apply hpn
          rw [hmem, tval _ (rm r hr)]; simp
        constructor
        · cases h : arrayAt np p with
          | none => rfl
          | some a => obtain ⟨r, hr, he, _⟩ := (n3 p a).1 h; exact absurd he (hno r hr)
        · cases h : arrayAt ns p with
          | none => rfl
          | some a => obtain ⟨r, hr, he, _⟩ := (s3 p a).1 h; exact absurd he (hno r hr)
      · intro t ht
        rw [← r1] at ht
        obtain ⟨r, hr, rfl⟩ := List.mem_map.mp ht
        exact ⟨r.2, r3 r hr, (n3 _ _).2 ⟨r, hr, rfl, rfl⟩, (s3 _ _).2 ⟨r, hr, rfl, rfl⟩⟩
    have herr : ∀ r, applyGradient upd thr params state grads = .ok r →
        ∃ out, updateAll (upd state.1) (T.map fun t => (join t.path, t.val)) (T.map Row.st) (T.map fun t => scaled c t.grad) = .ok out := by
      intro r h
      unfold applyGradient at h
      simp only [keys_flatS, t3, t4, hclip] at h
      rw [hflat] at h
      cases hu : updateAll (upd state.1) (T.map fun t => (join t.path, t.val)) (T.map Row.st) (T.map fun t => scaled c t.grad) with
      | error e => rw [hu] at h; cases h
      | ok out => exact ⟨out, rfl⟩
    constructor
    · constructor
      · rintro ⟨r, h⟩ p x s g h1 h2 h3
        obtain ⟨out, hout⟩ := herr r h
        exact u1.1 ⟨out, hout⟩ _ (tex p x s g h1 h2 h3)
      · intro h
        obtain ⟨out, hout⟩ := u1.2 (fun t ht => h t.path t.val t.st t.grad (tval t ht) (t2 t ht).1 (t2 t ht).2)
        obtain ⟨r, hr, _⟩ := hfin out hout
        exact ⟨r, hr⟩
    · intro r h
      obtain ⟨out, hout⟩ := herr r h
      obtain ⟨r', h', q1, q2, q3, q4, q5⟩ := hfin out hout
      rw [h] at h'
      cases h'
      exact ⟨q1, q2, q3, q4, fun p x s g h1 h2 h3 => q5 _ (tex p x s g h1 h2 h3)⟩

theorem initAll_ok (init : Key → P → Except E S) : ∀ L : List (List Key × P),
    ((∃ out, initAll init (L.map fun e => (join e.1, e.2)) = .ok out) ↔ ∀ e ∈ L, ∃ s, init (join e.1) e.2 = .ok s) ∧
    ∀ out, initAll init (L.map fun e => (join e.1, e.2)) = .ok out →
      ∃ R : List ((List Key × P) × S), R.map Prod.fst = L ∧ R.map Prod.snd = out ∧ ∀ r ∈ R, init (join r.1.1) r.1.2 = .ok r.2 := by
  intro L
  induction L with
  | nil =>
    refine ⟨⟨fun _ => by simp, fun _ => ⟨[], rfl⟩⟩, ?_⟩
    intro out h
    simp only [List.map_nil, initAll, Except.ok.injEq] at h
    exact ⟨[], rfl, by simpa using h, by simp⟩
  | cons e L ih =>
    obtain ⟨ih1, ih2⟩ := ih
    simp only [List.map_cons, initAll]
    cases hu : init (join e.1) e.2 with
    | error x =>
      refine ⟨⟨?_, ?_⟩, ?_⟩
      · rintro ⟨out, h⟩; cases h
      · intro h
        obtain ⟨o, h⟩ := h e List.mem_cons_self
        rw [hu] at h; cases h
      · intro out h; cases h
    | ok o =>
      dsimp only
      cases hr : initAll init (L.map fun e => (join e.1, e.2)) with
      | error x =>
        rw [hr] at ih1
        refine ⟨⟨?_, ?_⟩, ?_⟩
        · rintro ⟨out, h⟩; cases h
        · intro h
          obtain ⟨o, h⟩ := ih1.2 (fun t ht => h t (List.mem_cons_of_mem _ ht))
          cases h
        · intro out h; cases h
      | ok os =>
        rw [hr] at ih1 ih2
        refine ⟨⟨?_, ?_⟩, ?_⟩
        · rintro _ t' ht'
          rcases List.mem_cons.mp ht' with rfl | ht'
          · exact ⟨o, hu⟩
          · exact ih1.1 ⟨os, rfl⟩ t' ht'
        · intro _; exact ⟨_, rfl⟩
        · intro out h
          simp only [Except.ok.injEq] at h
          obtain ⟨R, r1, r2, r3⟩ := ih2 os rfl
          refine ⟨(e, o) :: R, by simp [r1], by simp [r2, h], ?_⟩
          intro r hr
          rcases List.mem_cons.mp hr with rfl | hr
          · exact hu
          · exact r3 r hr

/-- C59: the initial state has step 0 and at every parameter's path the initial state of that parameter, and no other leaves. -/
theorem C59_init (init : Key → P → Except E S) (params : Dict P) (hp : ProperDict params) :
    ((∃ r, initState init params = .ok r) ↔ ∀ p x, arrayAt params p = some x → ∃ s, init (join p) x = .ok s) ∧
    ∀ r, initState init params = .ok r → r.1 = 0 ∧ ProperDict r.2 ∧
      ∀ p, (arrayAt params p = none → arrayAt r.2 p = none) ∧
        ∀ x, arrayAt params p = some x → ∃ s, init (join p) x = .ok s ∧ arrayAt r.2 p = some s := by
  obtain ⟨u1, u2⟩ := initAll_ok init (items params)
  have hfin : ∀ out, initAll init (flatS params) = .ok out → ∃ r, initState init params = .ok r ∧ r.1 = 0 ∧ ProperDict r.2 ∧
      ∀ p, (arrayAt params p = none → arrayAt r.2 p = none) ∧
        ∀ x, arrayAt params p = some x → ∃ s, init (join p) x = .ok s ∧ arrayAt r.2 p = some s := by
    intro out hout
    obtain ⟨R, r1, r2, r3⟩ := u2 out hout
    have rpath : R.map (fun r => r.1.1) = (items params).map Prod.fst := by rw [← r1, List.map_map]; rfl
    have rm : ∀ r ∈ R, r.1 ∈ items params := by intro r hr; rw [← r1]; exact List.mem_map_of_mem hr
    obtain ⟨ns, s1, s2, s3⟩ := restore_rows R (fun r => r.1.1) (fun r => r.2) (by rw [rpath]; exact items_nodup params hp)
      (fun r hr => items_named params hp _ (rm r hr))
      (fun r hr r' hr' h => arrayAt_prefix params _ _ _ _ ((mem_items params hp _ _).1 (rm r hr)) ((mem_items params hp _ _).1 (rm r' hr')) h)
    refine ⟨(0, ns), ?_, rfl, s2, ?_⟩
    · unfold initState
      have hz : List.zip ((items params).map fun e => join e.1) out = R.map fun r => (join r.1.1, r.2) := by
        have hk : ((items params).map fun e => join e.1) = R.map fun r => join r.1.1 := by rw [← r1, List.map_map]; rfl
        rw [hk, ← r2, List.zip_map']
      simp only [hout, keys_flatS, hz, s1]
    · intro p
      constructor
      · intro hn
        cases h : arrayAt ns p with
        | none => rfl
        | some a =>
          obtain ⟨r, hr, he, _⟩ := (s3 p a).1 h
          have := (mem_items params hp _ _).1 (rm r hr)
          rw [he, hn] at this; cases this
      · intro x hx
        have : (p, x) ∈ items params := (mem_items params hp p x).2 hx
        rw [← r1] at this
        obtain ⟨r, hr, he⟩ := List.mem_map.mp this
        have h3 := r3 r hr
        rw [he] at h3
        exact ⟨r.2, h3, (s3 _ _).2 ⟨r, hr, by rw [he], rfl⟩⟩
  have herr : ∀ r, initState init params = .ok r → ∃ out, initAll init (flatS params) = .ok out := by
    intro r h
    unfold initState at h
    cases hu : initAll init (flatS params) with
    | error e => simp only [hu] at h; cases h
    | ok out => exact ⟨out, rfl⟩
  constructor
  · constructor
    · rintro ⟨r, h⟩ p x hx
      exact u1.1 (herr r h) _ ((mem_items params hp p x).2 hx)
    · intro h
      obtain ⟨out, hout⟩ := u1.2 (fun e he => h e.1 e.2 ((mem_items params hp _ _).1 he))
      obtain ⟨r, hr, _⟩ := hfin out hout
      exact ⟨r, hr⟩
  · intro r h
    obtain ⟨out, hout⟩ := herr r h
    obtain ⟨r', h', q⟩ := hfin out hout
    rw [h] at h'
    cases h'
    exact q

/-! ### Concrete cases -/

/-- Norm 5 clipped to 1: one gradient of elements 3 and 4. -/
example : globalNorm [⟨[2], fun i => if i = [0] then 3 else 4⟩] = 5 := by
  have : ((List.map sumSq [(⟨[2], fun i => if i = [0] then 3 else 4⟩ : NDArray ℝ)]).sum) = 25 := by
    simp [sumSq, Adafactor.box, List.range, List.range.loop]; norm_num
  unfold globalNorm
  rw [this, show (25 : ℝ) = 5 ^ 2 by norm_num]
  exact Real.sqrt_sq (by norm_num)
/-- Trees that meet the hypotheses of `C59_apply`, with the gradients in another order. -/
example : let params : Dict Nat := .leaf ['a'] 1 (.sub ['b'] (.leaf ['c'] 2 .nil) .nil)
    let grads : Dict Nat := .sub ['b'] (.leaf ['c'] 2 .nil) (.leaf ['a'] 1 .nil)
    (∀ p ∈ [[['a']], [['b'], ['c']]], arrayAt params p ≠ none ∧ arrayAt grads p ≠ none) ∧
      flatS params = [(['a'], 1), (['b', '/', 'c'], 2)] ∧ flatS grads = [(['b', '/', 'c'], 2), (['a'], 1)] := by decide
example : ProperDict (.leaf ['a'] 1 (.sub ['b'] (.leaf ['c'] 2 .nil) .nil) : Dict Nat) :=
  ⟨by decide, by decide, by decide, by decide, Or.inr ⟨by decide, by decide, trivial⟩, trivial⟩

end Verif.ApplyGrad
