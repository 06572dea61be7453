import Verif.Spec.Train
import Verif.Props.Metrics
/- Properties C30 and C57. -/
namespace Verif.Train
open Spec Verif.Metrics Verif.Metrics.Spec

variable {K P G O Mu R Row : Type}

/-- C30: a successful call of `train` with n steps takes exactly the next n batches, one per step, in order; the new
state is that of stepping through them. -/
theorem C30_steps {S B M : Type} (step : S → B → Except Err (S × M)) (add : Option M → M → Except Err M) (n : Nat) (s : S)
    (m0 : Option M) (bs rest : List B) (s' : S) (m : Option M) (h : trainLoop step add n s m0 bs = (rest, .ok (s', m))) :
    n ≤ bs.length ∧ rest = bs.drop n ∧ run step s (bs.take n) = .ok s' := by
  induction n generalizing s m0 bs with
  | zero => simp only [trainLoop, Prod.mk.injEq, Except.ok.injEq] at h; obtain ⟨h1, h2, h3⟩ := h; subst h1; subst h2; exact ⟨by omega, by simp, by simp [run]⟩
  | succ n ih =>
    cases bs with
    | nil => simp [trainLoop] at h
    | cons b bs =>
      simp only [trainLoop] at h
      cases hs : step s b with
      | error e => simp [hs] at h
      | ok r =>
        obtain ⟨s1, u⟩ := r
        simp only [hs] at h
        cases ha : add m0 u with
        | error e => simp [ha] at h
        | ok m1 =>
          simp only [ha] at h
          obtain ⟨h1, h2, h3⟩ := ih s1 (some m1) bs h
          exact ⟨by simp; omega, by simp [h2], by simp [run, hs, h3]⟩

/-- C30: a call of `train` that fails leaves the trainer's state as it was, and too short an iterator is a failure. -/
theorem C30_failure {S B M : Type} (step : S → B → Except Err (S × M)) (add : Option M → M → Except Err M) (stepOf : S → Nat)
    (s : S) (bs : List B) (n : Nat) (st : Option Nat) :
    ((∃ e, (train step add stepOf s bs n st).2.2 = .error e) → (train step add stepOf s bs n st).1 = s) ∧
    (bs.length < n → ∃ e, (train step add stepOf s bs n st).2.2 = .error e) := by
  constructor
  · rintro ⟨e, he⟩
    unfold train at he ⊢
    dsimp only at he ⊢
    split at he
    · rfl
    · cases he
  · intro hlt
    unfold train
    dsimp only
    split
    · exact ⟨_, rfl⟩
    · rename_i s' m h1
      have := (C30_steps step add n s none bs _ s' m (by rw [← h1])).1
      omega

section shape
variable [Field K] [AddMonoid G]

/-- The number of a step: n steps later it is n higher. -/
theorem run_step (c : Cfg K P G O Mu R Row) (s s' : State P O Mu) (bs : List (Batch Row)) (h : run (trainStep c) s bs = .ok s') :
    s'.step = s.step + bs.length := by
  induction bs generalizing s with
  | nil => simp only [run, Except.ok.injEq] at h; subst h; rfl
  | cons b bs ih =>
    simp only [run] at h
    cases hs : trainStep c s b with
    | error e => simp [hs] at h
    | ok r =>
      obtain ⟨s1, u⟩ := r
      simp only [hs] at h
      have h1 := ih s1 h
      simp only [trainStep] at hs
      split at hs
      · cases hs
      · simp only [Except.ok.injEq, Prod.mk.injEq] at hs
        have : s1.step = s.step + 1 := by rw [← hs.1]; rfl
        simp; omega

/-- C30: one training step without microbatching is exactly the documented step: loss and gradient at the current
parameters with the key folded from the base key and the step number, the learning rate of this step, the step number
plus one, and the mutables returned by the loss. -/
theorem C30_one_step [Add K] [One K] [AddMonoid G] (c : Cfg K P G O Mu R Row) (s : State P O Mu) (b : Batch Row)
    (hb : b ≠ []) (hm : ∀ n, c.microbatches = some n → n ≤ 1) :
    ∃ m, trainStep c s b = .ok (plainStep c s b, m) := by
  cases b with
  | nil => exact absurd rfl hb
  | cons e b =>
    unfold trainStep accumulate
    cases hn : c.microbatches with
    | none => exact ⟨_, rfl⟩
    | some n =>
      simp only [if_pos (hm n hn)]
      exact ⟨_, rfl⟩

/-- C30: the randomness and the learning rate of the k-th following step are those of step number `s.step + k`: for
the run from s over bs nothing else of `foldIn` and `lr` matters. -/
theorem C30_rng (c c' : Cfg K P G O Mu R Row) (s : State P O Mu) (bs : List (Batch Row))
    (hrest : c' = { c with foldIn := c'.foldIn, lr := c'.lr })
    (h : ∀ k, k < bs.length → c'.foldIn c.baseRng (s.step + k) = c.foldIn c.baseRng (s.step + k) ∧ c'.lr (s.step + k) = c.lr (s.step + k)) :
    run (trainStep c') s bs = run (trainStep c) s bs := by
  induction bs generalizing s with
  | nil => rfl
  | cons b bs ih =>
    have h0 := h 0 (by simp)
    simp only [Nat.add_zero] at h0
    have e : trainStep c' s b = trainStep c s b := by
      rw [hrest]
      simp only [trainStep, h0.1, applyGradient, h0.2]
    simp only [run, e]
    cases hs : trainStep c s b with
    | error e => rfl
    | ok r =>
      obtain ⟨s1, u⟩ := r
      simp only
      apply ih
      intro k hk
      have h1 : s1.step = s.step + 1 := by
        have := run_step c s s1 [b] (by simp [run, hs])
        simpa using this
      have := h (k + 1) (by simp; omega)
      rw [show s.step + (k + 1) = s1.step + k by omega] at this
      exact this

theorem shape_merge (shape : List (List Char × Option Kind)) (m1 m2 : Metrics.Dict K) (h1 : HasShape shape m1) (h2 : HasShape shape m2) :
    ∃ r, mergeDict m1 m2 = .ok r ∧ HasShape shape r := by
  have hl1 := congrArg List.length h1.1
  have hl2 := congrArg List.length h2.1
  simp only [List.length_map] at hl1 hl2
  have one : ∀ (i : Nat) (m n : Metric K) (k : Option Kind), (m1.map (·.2))[i]? = some m → (m2.map (·.2))[i]? = some n →
      (shape.map (·.2))[i]? = some k → ∃ r, merge m n = .ok r ∧ (match k with | some k => IsKind k r | none => ∃ v, r = .last v) := by
    intro i m n k hm hn hk
    have a := h1.2 i m k hm hk
    have b := h2.2 i n k hn hk
    cases k with
    | some k => obtain ⟨z, hz, kz, _⟩ := merge_kind k m n a b; exact ⟨z, hz, kz⟩
    | none =>
      obtain ⟨v, rfl⟩ := a
      obtain ⟨w, rfl⟩ := b
      exact ⟨_, rfl, w, rfl⟩
  have hk : ∀ (i : Nat) (m : Metric K), (m1.map (·.2))[i]? = some m → ∃ k, (shape.map (·.2))[i]? = some k := by
    intro i m hm
    have h3 := (List.getElem?_eq_some_iff.1 hm).1
    simp only [List.length_map] at h3
    exact ⟨_, List.getElem?_eq_getElem (by simp; omega)⟩
  obtain ⟨r, hr, kr, er⟩ := mergeDict_ok m1 m2 (by rw [h1.1, h2.1]) (by
    intro i m n hm hn
    obtain ⟨k, hk⟩ := hk i m hm
    obtain ⟨z, hz, _⟩ := one i m n k hm hn hk
    exact ⟨z, hz⟩)
  refine ⟨r, hr, by rw [kr, h1.1], ?_⟩
  intro i x k hx hkk
  have hlt := (List.getElem?_eq_some_iff.1 hkk).1
  simp only [List.length_map] at hlt
  have e1 : (m1.map (·.2))[i]? = some ((m1.map (·.2))[i]'(by simp; omega)) := List.getElem?_eq_getElem _
  have e2 : (m2.map (·.2))[i]? = some ((m2.map (·.2))[i]'(by simp; omega)) := List.getElem?_eq_getElem _
  obtain ⟨w, hw, hmw⟩ := er i _ _ e1 e2
  rw [hx] at hw
  cases hw
  obtain ⟨z, hz, kz⟩ := one i _ _ k e1 e2 hkk
  rw [hmw] at hz
  cases hz
  exact kz

theorem shape_uniform (shape : List (List Char × Option Kind)) (t : MTree (Metrics.Dict K)) (dflt : Metric K)
    (h : ∀ d ∈ t.leaves, HasShape shape d) (i : Nat) (hi : i < shape.length) :
    Uniform (t.leaves.map (fun d => (d.map (·.2)).getD i dflt)) := by
  have one : ∀ d ∈ t.leaves, (match shape[i].2 with
      | some k => IsKind k ((d.map (·.2)).getD i dflt) | none => ∃ v, (d.map (·.2)).getD i dflt = .last v) := by
    intro d hd
    have hl := congrArg List.length (h d hd).1
    simp only [List.length_map] at hl
    have e1 : (d.map (·.2))[i]? = some ((d.map (·.2))[i]'(by simp; omega)) := List.getElem?_eq_getElem _
    have := (h d hd).2 i _ shape[i].2 e1 (by rw [List.getElem?_map, List.getElem?_eq_getElem hi]; rfl)
    rw [List.getD_eq_getElem?_getD, e1]
    exact this
  cases hk : shape[i].2 with
  | some k =>
    left
    refine ⟨k, fun m hm => ?_⟩
    obtain ⟨d, hd, rfl⟩ := List.mem_map.1 hm
    have := one d hd
    rw [hk] at this
    exact this
  | none =>
    right
    intro m hm
    obtain ⟨d, hd, rfl⟩ := List.mem_map.1 hm
    have := one d hd
    rw [hk] at this
    exact this

theorem map_eval_group (t1 t2 : MTree (Metric K)) (h : t1.leaves = t2.leaves) (hu : Uniform t1.leaves) :
    t1.eval merge = t2.eval merge := by
  rcases hu with ⟨k, hk⟩ | hl
  · exact C32_order k t1 t2 hk (by rw [h])
  · have hne : ∀ t : MTree (Metric K), t.leaves ≠ [] := by
      intro t
      induction t with
      | leaf a => simp [MTree.leaves]
      | node l r ihl ihr => simp [MTree.leaves, ihl]
    rw [C32_last t1 hl (hne t1), C32_last t2 (by rw [← h]; exact hl) (hne t2)]
    simp only [h]

/-- Regrouping the same metrics in the same order changes nothing. -/
theorem dict_regroup (shape : List (List Char × Option Kind)) (t1 t2 : MTree (Metrics.Dict K)) (h : t1.leaves = t2.leaves)
    (hs : ∀ d ∈ t1.leaves, HasShape shape d) : t1.eval mergeDict = t2.eval mergeDict := by
  have hs2 : ∀ d ∈ t2.leaves, HasShape shape d := by rw [← h]; exact hs
  have hlen : (shape.map (·.1)).length = shape.length := by simp
  obtain ⟨r1, e1, k1, m1⟩ := C32_dict (shape.map (·.1)) t1 (fun d hd => (hs d hd).1) (.last 0)
    (fun i hi => shape_uniform shape t1 _ hs i (by omega))
  obtain ⟨r2, e2, k2, m2⟩ := C32_dict (shape.map (·.1)) t2 (fun d hd => (hs2 d hd).1) (.last 0)
    (fun i hi => shape_uniform shape t2 _ hs2 i (by omega))
  rw [e1, e2]
  congr 1
  have hl1 := congrArg List.length k1
  have hl2 := congrArg List.length k2
  simp only [List.length_map] at hl1 hl2
  apply List.ext_getElem (by omega)
  intro i h1 h2
  have g1 := m1 i (by simp; omega)
  have g2 := m2 i (by simp; omega)
  rw [map_eval_group _ ((t2.map (fun d => (d.map (·.2)).getD i (.last 0)))) (by rw [leaves_map, leaves_map, h])
    (by rw [leaves_map]; exact shape_uniform shape t1 _ hs i (by omega)), g2] at g1
  simp only [Except.ok.injEq, List.getD_eq_getElem?_getD, List.getElem?_map, List.getElem?_eq_getElem h1,
    List.getElem?_eq_getElem h2, Option.map_some, Option.getD_some] at g1
  have n1 : (r1.map (·.1))[i]'(by simpa using h1) = (r2.map (·.1))[i]'(by simpa using h2) := by simp only [k1, k2]
  simp only [List.getElem_map] at n1
  exact Prod.ext n1 g1.symm

theorem mergeDict_assoc (shape : List (List Char × Option Kind)) (a b c ab bc r : Metrics.Dict K) (ha : HasShape shape a)
    (hb : HasShape shape b) (hc : HasShape shape c) (h1 : mergeDict a b = .ok ab) (h2 : mergeDict ab c = .ok r)
    (h3 : mergeDict b c = .ok bc) : mergeDict a bc = .ok r := by
  have := dict_regroup shape (.node (.node (.leaf a) (.leaf b)) (.leaf c)) (.node (.leaf a) (.node (.leaf b) (.leaf c)))
    (by simp [MTree.leaves]) (by simp only [MTree.leaves]; intro d hd; simp at hd; rcases hd with rfl | rfl | rfl <;> assumption)
  simp only [MTree.eval, bind, Except.bind, h1, h2, h3] at this
  exact this.symm

theorem addMetrics_shape (shape : List (List Char × Option Kind)) (a u : Metrics.Dict K) (ha : HasShape shape a) (hu : HasShape shape u) :
    ∃ r, addMetrics (some a) u = .ok r ∧ mergeDict a u = .ok r ∧ HasShape shape r := by
  obtain ⟨r, hr, hs⟩ := shape_merge shape a u ha hu
  refine ⟨r, ?_, hr, hs⟩
  cases a with
  | nil =>
    have h1 : shape = [] := by simpa using ha.1.symm
    have h2 : u = [] := by have := hu.1; rw [h1] at this; simpa using this
    subst h2
    simp only [mergeDict, Except.ok.injEq] at hr
    subst hr; rfl
  | cons e a => simp only [addMetrics, hr]

variable {S B : Type}

/-- Shifting the accumulated metrics by an earlier part. -/
theorem trainLoop_shift (step : S → B → Except Err (S × Metrics.Dict K)) (shape : List (List Char × Option Kind)) (m : Nat) (s : S)
    (bs : List B) (hlen : m ≤ bs.length)
    (hstep : ∀ s, ∀ b ∈ bs, ∃ s' u, step s b = .ok (s', u) ∧ HasShape shape u) (a u au : Metrics.Dict K)
    (ha : HasShape shape a) (hu : HasShape shape u) (hau : mergeDict a u = .ok au) (hsau : HasShape shape au) :
    ∃ s2 x y, trainLoop step addMetrics m s (some au) bs = (bs.drop m, .ok (s2, some x)) ∧
      trainLoop step addMetrics m s (some u) bs = (bs.drop m, .ok (s2, some y)) ∧ mergeDict a y = .ok x ∧ HasShape shape y := by
  induction m generalizing s bs u au with
  | zero => exact ⟨s, au, u, rfl, rfl, hau, hu⟩
  | succ m ih =>
    cases bs with
    | nil => simp at hlen
    | cons b bs =>
      obtain ⟨s1, v, h1, hv⟩ := hstep s b (List.mem_cons_self ..)
      obtain ⟨r1, e1, d1, q1⟩ := addMetrics_shape shape au v hsau hv
      obtain ⟨r2, e2, d2, q2⟩ := addMetrics_shape shape u v hu hv
      have := ih s1 bs (by simpa using hlen) (fun s b hb => hstep s b (List.mem_cons_of_mem _ hb)) r2 r1 q2
        (mergeDict_assoc shape a u v au r2 r1 ha hu hv hau d1 d2) q1
      simpa only [trainLoop, h1, e1, e2, List.drop_succ_cons] using this

/-- As long as steps succeed with metrics of one shape, so does the loop. -/
theorem trainLoop_ok (step : S → B → Except Err (S × Metrics.Dict K)) (shape : List (List Char × Option Kind)) (n : Nat) (s : S)
    (m0 : Option (Metrics.Dict K)) (hm0 : ∀ a, m0 = some a → HasShape shape a) (bs : List B) (hlen : n ≤ bs.length)
    (hstep : ∀ s, ∀ b ∈ bs, ∃ s' u, step s b = .ok (s', u) ∧ HasShape shape u) :
    ∃ s1 m1, trainLoop step addMetrics n s m0 bs = (bs.drop n, .ok (s1, m1)) ∧ (∀ a, m1 = some a → HasShape shape a) ∧
      (0 < n → m1.isSome) := by
  induction n generalizing s m0 bs with
  | zero => exact ⟨s, m0, rfl, hm0, by omega⟩
  | succ n ih =>
    cases bs with
    | nil => simp at hlen
    | cons b bs =>
      obtain ⟨s1, v, h1, hv⟩ := hstep s b (List.mem_cons_self ..)
      have hadd : ∃ r, addMetrics m0 v = .ok r ∧ HasShape shape r := by
        cases m0 with
        | none => exact ⟨v, rfl, hv⟩
        | some a => obtain ⟨r, e, _, q⟩ := addMetrics_shape shape a v (hm0 a rfl) hv; exact ⟨r, e, q⟩
      obtain ⟨r, e, q⟩ := hadd
      obtain ⟨s2, m2, e2, q2, _⟩ := ih s1 (some r) (by rintro a ⟨⟩; exact q) bs (by simpa using hlen)
        (fun s b hb => hstep s b (List.mem_cons_of_mem _ hb))
      refine ⟨s2, m2, by simp only [trainLoop, h1, e, e2, List.drop_succ_cons], q2, fun _ => ?_⟩
      cases n with
      | zero => simp only [trainLoop, Prod.mk.injEq, Except.ok.injEq] at e2; rw [← e2.2.2]; rfl
      | succ n =>
        by_contra hc
        have hn : m2 = none := by simpa using hc
        subst hn
        have : ∀ (k : Nat) (s : S) (m : Metrics.Dict K) (bs rest : List B) (s' : S),
            trainLoop step addMetrics k s (some m) bs ≠ (rest, .ok (s', none)) := by
          intro k
          induction k with
          | zero => intro s m bs rest s' h; simp [trainLoop] at h
          | succ k ihk =>
            intro s m bs rest s' h
            cases bs with
            | nil => simp [trainLoop] at h
            | cons b bs =>
              simp only [trainLoop] at h
              split at h
              · simp at h
              · split at h
                · simp at h
                · exact ihk _ _ _ _ _ h
        exact this _ _ _ _ _ _ e2

theorem trainLoop_append (step : S → B → Except Err (S × Metrics.Dict K)) (n m : Nat) (s s1 : S) (m0 m1 : Option (Metrics.Dict K))
    (bs rest : List B) (h : trainLoop step addMetrics n s m0 bs = (rest, .ok (s1, m1))) :
    trainLoop step addMetrics (n + m) s m0 bs = trainLoop step addMetrics m s1 m1 rest := by
  induction n generalizing s m0 bs with
  | zero => simp only [trainLoop, Prod.mk.injEq, Except.ok.injEq] at h; obtain ⟨h1, h2, h3⟩ := h; subst h1; subst h2; subst h3; rw [Nat.zero_add]
  | succ n ih =>
    cases bs with
    | nil => simp [trainLoop] at h
    | cons b bs =>
      rw [show n + 1 + m = (n + m) + 1 by omega]
      simp only [trainLoop] at h ⊢
      cases hs : step s b with
      | error e => simp [hs] at h
      | ok r =>
        obtain ⟨s2, u⟩ := r
        simp only [hs] at h ⊢
        cases ha : addMetrics m0 u with
        | error e => simp [ha] at h
        | ok a =>
          simp only [ha] at h ⊢
          exact ih s2 (some a) bs h

/-- C30: n steps, saving and restoring, and m further steps on the remaining batches give the same state as n + m
steps at once, use up the same batches, and the metrics of the two parts merge to those of the whole.  `enc`/`dec`
stand for saving and restoring the state. -/
theorem C30_split {C : Type} (step : S → B → Except Err (S × Metrics.Dict K)) (stepOf : S → Nat) (shape : List (List Char × Option Kind))
    (n m : Nat) (hn : 0 < n) (hm : 0 < m) (s : S) (bs : List B) (hlen : n + m ≤ bs.length)
    (hstep : ∀ s, ∀ b ∈ bs, ∃ s' u, step s b = .ok (s', u) ∧ HasShape shape u)
    (enc : S → C) (dec : C → S) (hdec : ∀ s, dec (enc s) = s) (st1 st2 st3 : Option Nat) :
    ∃ s1 s2 bs1 bs2 m1 m2 mm k1 k2 k3, train step addMetrics stepOf s bs n st1 = (s1, bs1, .ok (some m1, k1)) ∧
      train step addMetrics stepOf (dec (enc s1)) bs1 m st2 = (s2, bs2, .ok (some m2, k2)) ∧
      train step addMetrics stepOf s bs (n + m) st3 = (s2, bs2, .ok (some mm, k3)) ∧
      bs1 = bs.drop n ∧ bs2 = bs.drop (n + m) ∧ mergeDict m1 m2 = .ok mm := by
  obtain ⟨s1, m1, e1, q1, t1⟩ := trainLoop_ok step shape n s none (by simp) bs (by omega) hstep
  obtain ⟨m1, rfl⟩ := Option.isSome_iff_exists.1 (t1 hn)
  have q1 := q1 m1 rfl
  obtain ⟨m', rfl⟩ : ∃ m', m = m' + 1 := ⟨m - 1, by omega⟩
  have hd : ∃ b bs', bs.drop n = b :: bs' := by
    cases h : bs.drop n with
    | nil => have := congrArg List.length h; simp at this; omega
    | cons b bs' => exact ⟨b, bs', rfl⟩
  obtain ⟨b, bs', hd⟩ := hd
  have hmem : ∀ x ∈ b :: bs', x ∈ bs := by intro x hx; rw [← hd] at hx; exact List.mem_of_mem_drop hx
  have hlen' : m' ≤ bs'.length := by have := congrArg List.length hd; simp at this; omega
  obtain ⟨sb, u, hb, hu⟩ := hstep s1 b (hmem b (List.mem_cons_self ..))
  obtain ⟨au, ea, da, qa⟩ := addMetrics_shape shape m1 u q1 hu
  obtain ⟨s2, x, y, ex, ey, hxy, _⟩ := trainLoop_shift step shape m' sb bs' hlen'
    (fun s b hb => hstep s b (hmem b (List.mem_cons_of_mem _ hb))) m1 u au q1 hu da qa
  have hdrop : bs'.drop m' = bs.drop (n + (m' + 1)) := by
    rw [← List.drop_drop, hd]; rfl
  refine ⟨s1, s2, bs.drop n, bs.drop (n + (m' + 1)), m1, y, x, st1.getD (stepOf s) + n,
    st2.getD (stepOf (dec (enc s1))) + (m' + 1), st3.getD (stepOf s) + (n + (m' + 1)), ?_, ?_, ?_, rfl, rfl, hxy⟩
  · simp only [train, e1]
  · rw [hdec, hd]
    have : trainLoop step addMetrics (m' + 1) s1 none (b :: bs') = (bs'.drop m', .ok (s2, some y)) := by
      simp only [trainLoop, hb, addMetrics, ey]
    simp only [train, this, hdrop]
  · have : trainLoop step addMetrics (n + (m' + 1)) s none bs = (bs'.drop m', .ok (s2, some x)) := by
      rw [trainLoop_append step n (m' + 1) s s1 none (some m1) bs (bs.drop n) e1, hd]
      simp only [trainLoop, hb, ea, ex]
    simp only [train, this, hdrop]

end shape

/-- The step function of a trainer satisfies the assumption of C30_split when the loss and the weight metrics always
have the same names and kinds and no microbatches are used. -/
theorem trainStep_shape [Field K] [AddMonoid G] (c : Cfg K P G O Mu R Row) (shape1 shape2 : List (List Char × Option Kind))
    (h1 : ∀ p b r mu, HasShape shape1 (c.lossGrad p b r mu).1) (h2 : ∀ g p p', HasShape shape2 (c.weightMetrics g p p'))
    (hmb : c.microbatches = none) (s : State P O Mu) (b : Batch Row) (hb : b ≠ []) :
    ∃ s' u, trainStep c s b = .ok (s', u) ∧
      HasShape (shape1 ++ [("learning_rate".toList, some .average), ("learning_rate/current".toList, none)] ++ shape2) u := by
  have app : ∀ (a b : List (List Char × Option Kind)) (x y : Metrics.Dict K), HasShape a x → HasShape b y → HasShape (a ++ b) (x ++ y) := by
    intro a b x y hx hy
    have hl := congrArg List.length hx.1
    simp only [List.length_map] at hl
    refine ⟨by simp [hx.1, hy.1], ?_⟩
    intro i z k hz hk
    simp only [List.map_append, List.getElem?_append, List.length_map] at hz hk
    rw [hl] at hz
    split_ifs at hz hk
    · exact hx.2 i z k hz hk
    · exact hy.2 _ z k hz hk
  cases b with
  | nil => exact absurd rfl hb
  | cons e b =>
    refine ⟨_, _, by simp only [trainStep, accumulate, hmb]; rfl, ?_⟩
    refine app _ _ _ _ (app _ _ _ _ (h1 ..) ⟨rfl, ?_⟩) (h2 ..)
    intro i x k hx hk
    match i with
    | 0 => simp at hx hk; subst hx; subst hk; trivial
    | 1 => simp at hx hk; subst hx; subst hk; exact ⟨_, rfl⟩
    | i + 2 => simp at hx

/-- C57: with the data set saved along, a job that is interrupted any number of times at any time is always in the
state an uninterrupted run has after the same number of steps. -/
theorem C57_restarts {S C B : Type} (step : S → B → S) (ds : Nat → B) (enc : S → C) (dec : C → S) (hdec : ∀ s, dec (enc s) = s)
    (init : S) (es : List Event) :
    (job step ds enc dec init true es).cur = steps step ds (job step ds enc dec init true es).cur.2 (init, 0) := by
  have pos : ∀ n (x : S × Nat), (steps step ds n x).2 = x.2 + n := by
    intro n
    induction n with
    | zero => intro x; rfl
    | succ n ih => intro x; simp only [steps, ih]; omega
  have add : ∀ n m (x : S × Nat), steps step ds m (steps step ds n x) = steps step ds (n + m) x := by
    intro n
    induction n with
    | zero => intro m x; rw [Nat.zero_add]; rfl
    | succ n ih => intro m x; rw [show n + 1 + m = (n + m) + 1 by omega]; simp only [steps, ih]
  have key : ∀ (es : List Event) (j : Job S C), j.cur = steps step ds j.cur.2 (init, 0) →
      (∀ c k, j.saved = some (c, k) → ∃ s, c = enc s ∧ (s, k) = steps step ds k (init, 0)) →
      (es.foldl (event step ds enc dec init true) j).cur = steps step ds (es.foldl (event step ds enc dec init true) j).cur.2 (init, 0) := by
    intro es
    induction es with
    | nil => intro j h _; exact h
    | cons e es ih =>
      intro j h1 h2
      rw [List.foldl_cons]
      apply ih
      · cases e with
        | train n =>
          simp only [event]
          rw [pos, ← add, ← h1]
        | save => exact h1
        | restart =>
          simp only [event]
          cases hs : j.saved with
          | none => rfl
          | some ck =>
            obtain ⟨c, k⟩ := ck
            obtain ⟨s, e1, e2⟩ := h2 c k hs
            subst e1
            simp only [hdec, if_true]
            exact e2
      · intro c k hs
        cases e with
        | train n => exact h2 c k hs
        | save =>
          simp only [event, Option.some.injEq, Prod.mk.injEq] at hs
          exact ⟨j.cur.1, hs.1.symm, by rw [← hs.2]; exact h1⟩
        | restart => exact h2 c k hs
  exact key es ⟨(init, 0), none⟩ rfl (by simp)

/-- C57, its limit: without saving the data set a restart reads the first batches again and the state differs. -/
theorem C57_needs_dataset : ∃ es : List Event,
    (job (fun s b => s ++ [b]) (fun k => k) id id ([] : List Nat) false es).cur.1 = [0, 1, 0] ∧
    (job (fun s b => s ++ [b]) (fun k => k) id id ([] : List Nat) true es).cur.1 = [0, 1, 2] :=
  ⟨[.train 2, .save, .train 5, .restart, .train 1], by decide, by decide⟩

/-- A run of three steps. -/
example : (trainLoop (S := Nat) (B := Nat) (M := Metrics.Dict ℚ) (fun s b => .ok (s + b, [("loss".toList, .avgStep b 1)])) addMetrics 2 10 none
    [1, 2, 3]).1 = [3] ∧ (trainLoop (S := Nat) (B := Nat) (M := Metrics.Dict ℚ) (fun s b => .ok (s + b, [("loss".toList, .avgStep b 1)]))
      addMetrics 2 10 none [1, 2, 3]).2.toOption = some (13, some [("loss".toList, .avgStep 3 2)]) := by decide +kernel

example : HasShape (K := ℚ) [("loss".toList, some .avgStep), ("lr".toList, none)] [("loss".toList, .avgStep 3 1), ("lr".toList, .last 1)] := by
  refine ⟨rfl, ?_⟩
  intro i x k hx hk
  match i with
  | 0 => simp at hx hk; subst hx; subst hk; trivial
  | 1 => simp at hx hk; subst hx; subst hk; exact ⟨_, rfl⟩
  | i + 2 => simp at hx

end Verif.Train
