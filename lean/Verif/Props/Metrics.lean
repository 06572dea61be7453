import Verif.Spec.Metrics
/- Property C32. -/
namespace Verif.Metrics
open Spec

variable {K : Type} [Field K]

/-- What merging pieces of one kind must give. -/
theorem merge_kind (k : Kind) (a b : Metric K) (ha : IsKind k a) (hb : IsKind k b) :
    ∃ r, merge a b = .ok r ∧ IsKind k r ∧ amount r = amount a + amount b ∧ weight r = weight a + weight b ∧
      steps r = steps a + steps b := by
  cases k <;> cases a <;> simp only [IsKind] at ha <;> cases b <;> simp only [IsKind] at hb <;>
    first
    | exact ⟨_, rfl, trivial, by simp [amount], by simp [weight], by simp [steps]⟩
    | (rename_i d1 _ d2
       cases d1 <;> simp only [IsKind] at ha
       cases d2 <;> simp only [IsKind] at hb
       exact ⟨_, rfl, trivial, by simp [amount], by simp [weight], by simp [steps]⟩)

/-- C32: however the partial metrics are grouped, merging succeeds and adds up their parts. -/
theorem C32_totals (k : Kind) (t : MTree (Metric K)) (h : ∀ m ∈ t.leaves, IsKind k m) :
    ∃ r, t.eval merge = .ok r ∧ IsKind k r ∧ amount r = (t.leaves.map amount).sum ∧
      weight r = (t.leaves.map weight).sum ∧ steps r = (t.leaves.map steps).sum := by
  induction t with
  | leaf a => exact ⟨a, rfl, h a (by simp [MTree.leaves]), by simp [MTree.leaves], by simp [MTree.leaves], by simp [MTree.leaves]⟩
  | node l r ihl ihr =>
    obtain ⟨x, hx, kx, ax, wx, sx⟩ := ihl (fun m hm => h m (by simp [MTree.leaves, hm]))
    obtain ⟨y, hy, ky, ay, wy, sy⟩ := ihr (fun m hm => h m (by simp [MTree.leaves, hm]))
    obtain ⟨z, hz, kz, az, wz, sz⟩ := merge_kind k x y kx ky
    refine ⟨z, ?_, kz, ?_, ?_, ?_⟩
    · simp only [MTree.eval, hx, hy]; exact hz
    · simp [MTree.leaves, az, ax, ay]
    · simp [MTree.leaves, wz, wx, wy]
    · simp [MTree.leaves, sz, sx, sy]

theorem kind_ext (k : Kind) (a b : Metric K) (ha : IsKind k a) (hb : IsKind k b) (h1 : amount a = amount b)
    (h2 : weight a = weight b) (h3 : steps a = steps b) : a = b := by
  cases k <;> cases a <;> simp only [IsKind] at ha <;> cases b <;> simp only [IsKind] at hb <;>
    first
    | (simp only [amount] at h1; simp only [weight] at h2; simp only [steps] at h3; subst h1; subst h2; subst h3; rfl)
    | (simp only [amount] at h1; simp only [steps] at h3; subst h1; subst h3; rfl)
    | (simp only [amount] at h1; simp only [weight] at h2; subst h1; subst h2; rfl)
    | (simp only [amount] at h1; subst h1; rfl)
    | (rename_i d1 _ d2
       cases d1 <;> simp only [IsKind] at ha
       cases d2 <;> simp only [IsKind] at hb
       first
       | (simp only [amount] at h1; subst h1; rfl)
       | (simp only [steps] at h3; subst h3; rfl))

/-- C32: the merged metric does not depend on order or grouping. -/
theorem C32_order (k : Kind) (t1 t2 : MTree (Metric K)) (h : ∀ m ∈ t1.leaves, IsKind k m) (hp : t1.leaves.Perm t2.leaves) :
    t1.eval merge = t2.eval merge := by
  obtain ⟨x, hx, kx, ax, wx, sx⟩ := C32_totals k t1 h
  obtain ⟨y, hy, ky, ay, wy, sy⟩ := C32_totals k t2 (fun m hm => h m (hp.mem_iff.2 hm))
  rw [hx, hy, kind_ext k x y kx ky]
  · rw [ax, ay]; exact (hp.map _).sum_eq
  · rw [wx, wy]; exact (hp.map _).sum_eq
  · rw [sx, sy]; exact (hp.map _).sum_eq

/-- C32: what is written to the summary is the sum, the sum per training step, the sum per second, the training steps
per second or the weighted average — in whatever way the pieces were combined, and whatever step counts the pieces
carry (microbatches would count a step several times). -/
theorem C32_summary (k : Kind) (t : MTree (Metric K)) (h : ∀ m ∈ t.leaves, IsKind k m) (d : K) (n : Nat) :
    ∃ r, t.eval merge = .ok r ∧ summarize d n r = .ok (reported k d n t.leaves) := by
  obtain ⟨x, hx, kx, ax, wx, sx⟩ := C32_totals k t h
  refine ⟨x, hx, ?_⟩
  unfold reported
  cases k <;> cases x <;> simp only [IsKind] at kx <;>
    simp only [amount] at ax <;> simp only [weight] at wx <;>
    simp only [summarize, setDuration, setSteps, compute, ← ax, ← wx]

/-- C32: a LastValue metric is that of the last piece, however the pieces are grouped. -/
theorem C32_last (t : MTree (Metric K)) (h : ∀ m ∈ t.leaves, ∃ v, m = .last v) (hne : t.leaves ≠ []) :
    t.eval merge = .ok (t.leaves.getLast hne) := by
  have key : ∀ t : MTree (Metric K), (∀ m ∈ t.leaves, ∃ v, m = .last v) → ∃ h, t.eval merge = .ok (t.leaves.getLast h) := by
    intro t
    induction t with
    | leaf a => intro _; exact ⟨by simp [MTree.leaves], rfl⟩
    | node l r ihl ihr =>
      intro h
      have hr : ∀ m ∈ r.leaves, ∃ v, m = .last v := fun m hm => h m (by simp [MTree.leaves, hm])
      have hl : ∀ m ∈ l.leaves, ∃ v, m = .last v := fun m hm => h m (by simp [MTree.leaves, hm])
      obtain ⟨n1, e1⟩ := ihl hl
      obtain ⟨n2, e2⟩ := ihr hr
      obtain ⟨v1, w1⟩ := hl _ (List.getLast_mem n1)
      obtain ⟨v2, w2⟩ := hr _ (List.getLast_mem n2)
      refine ⟨by simp [MTree.leaves, n1], ?_⟩
      simp only [MTree.leaves, List.getLast_append_of_ne_nil _ n2]
      simp only [MTree.eval, e1, e2, w1, w2]
      rfl
  exact (key t h).2

theorem uniform_eval (t : MTree (Metric K)) (h : Uniform t.leaves) : ∃ r, t.eval merge = .ok r := by
  rcases h with ⟨k, h⟩ | h
  · obtain ⟨r, hr, _⟩ := C32_totals k t h; exact ⟨r, hr⟩
  · have : t.leaves ≠ [] := by
      clear h
      induction t with
      | leaf a => simp [MTree.leaves]
      | node l r ihl ihr => simp [MTree.leaves, ihl]
    exact ⟨_, C32_last t h this⟩

theorem leaves_map {α β : Type} (f : α → β) (t : MTree α) : (t.map f).leaves = t.leaves.map f := by
  induction t with
  | leaf a => rfl
  | node l r ihl ihr => simp [MTree.map, MTree.leaves, ihl, ihr]

theorem mergeDict_ok (a b : Dict K) (hab : a.map (·.1) = b.map (·.1))
    (h : ∀ (i : Nat) (m n : Metric K), (a.map (·.2))[i]? = some m → (b.map (·.2))[i]? = some n → ∃ r, merge m n = .ok r) :
    ∃ r, mergeDict a b = .ok r ∧ r.map (·.1) = a.map (·.1) ∧
      ∀ (i : Nat) (m n : Metric K), (a.map (·.2))[i]? = some m → (b.map (·.2))[i]? = some n → ∃ x, (r.map (·.2))[i]? = some x ∧ merge m n = .ok x := by
  induction a generalizing b with
  | nil =>
    cases b with
    | nil => exact ⟨[], rfl, rfl, by intro i m n hm; simp at hm⟩
    | cons y b => simp at hab
  | cons x a ih =>
    cases b with
    | nil => simp at hab
    | cons y b =>
      simp only [List.map_cons, List.cons.injEq] at hab
      obtain ⟨k, m⟩ := x
      obtain ⟨l, n⟩ := y
      obtain ⟨hkl, hab⟩ := hab
      simp only at hkl
      subst hkl
      obtain ⟨r0, hr0⟩ := h 0 m n rfl rfl
      obtain ⟨rs, hrs, hks, hes⟩ := ih b hab (fun i m n h1 h2 => h (i + 1) m n (by simpa using h1) (by simpa using h2))
      refine ⟨(k, r0) :: rs, by simp [mergeDict, hr0, hrs], by simp [hks], ?_⟩
      intro i m' n' h1 h2
      cases i with
      | zero => simp only [List.map_cons, List.getElem?_cons_zero, Option.some.injEq] at h1 h2 ⊢; subst h1; subst h2; exact ⟨_, rfl, hr0⟩
      | succ i => exact hes i m' n' (by simpa using h1) (by simpa using h2)

/-- C32 for dicts of metrics: if all pieces have the same keys and the metrics under each key are of one kind, merging
succeeds in every order and grouping, the result has these keys, and under each key is the merge of the pieces under
that key; nothing is mixed between keys. -/
theorem C32_dict (ks : List (List Char)) (t : MTree (Dict K)) (hk : ∀ d ∈ t.leaves, d.map (·.1) = ks) (dflt : Metric K)
    (hm : ∀ i, i < ks.length → Uniform (t.leaves.map (fun d => (d.map (·.2)).getD i dflt))) :
    ∃ r, t.eval mergeDict = .ok r ∧ r.map (·.1) = ks ∧
      ∀ i, i < ks.length → (t.map (fun d => (d.map (·.2)).getD i dflt)).eval merge = .ok ((r.map (·.2)).getD i dflt) := by
  induction t with
  | leaf a => exact ⟨a, rfl, hk a (by simp [MTree.leaves]), fun i hi => rfl⟩
  | node l r ihl ihr =>
    have hul : ∀ i, i < ks.length → Uniform (l.leaves.map (fun d => (d.map (·.2)).getD i dflt)) := by
      intro i hi
      rcases hm i hi with ⟨k, h⟩ | h
      · exact Or.inl ⟨k, fun m hm => h m (by simp only [MTree.leaves, List.map_append, List.mem_append]; exact Or.inl hm)⟩
      · exact Or.inr (fun m hm => h m (by simp only [MTree.leaves, List.map_append, List.mem_append]; exact Or.inl hm))
    have hur : ∀ i, i < ks.length → Uniform (r.leaves.map (fun d => (d.map (·.2)).getD i dflt)) := by
      intro i hi
      rcases hm i hi with ⟨k, h⟩ | h
      · exact Or.inl ⟨k, fun m hm => h m (by simp only [MTree.leaves, List.map_append, List.mem_append]; exact Or.inr hm)⟩
      · exact Or.inr (fun m hm => h m (by simp only [MTree.leaves, List.map_append, List.mem_append]; exact Or.inr hm))
    obtain ⟨x, hx, kx, ex⟩ := ihl (fun d hd => hk d (by simp [MTree.leaves, hd])) hul
    obtain ⟨y, hy, ky, ey⟩ := ihr (fun d hd => hk d (by simp [MTree.leaves, hd])) hur
    have hboth : ∀ i, i < ks.length → ∃ z, merge ((x.map (·.2)).getD i dflt) ((y.map (·.2)).getD i dflt) = .ok z := by
      intro i hi
      obtain ⟨z, hz⟩ := uniform_eval ((MTree.node l r).map (fun d => (d.map (·.2)).getD i dflt)) (by rw [leaves_map]; exact hm i hi)
      simp only [MTree.map, MTree.eval, ex i hi, ey i hi] at hz
      exact ⟨z, hz⟩
    have hlx : x.length = ks.length := by rw [← kx]; simp
    have hly : y.length = ks.length := by rw [← ky]; simp
    obtain ⟨z, hz, kz, ez⟩ := mergeDict_ok x y (by rw [kx, ky]) (by
      intro i m n h1 h2
      have hi : i < ks.length := by
        have := (List.getElem?_eq_some_iff.1 h1).1; simp at this; omega
      have := hboth i hi
      simpa only [List.getD_eq_getElem?_getD, h1, h2, Option.getD_some] using this)
    refine ⟨z, by simp only [MTree.eval, hx, hy]; exact hz, by rw [kz, kx], ?_⟩
    intro i hi
    simp only [MTree.map, MTree.eval, ex i hi, ey i hi]
    have h1 : (x.map (·.2))[i]? = some ((x.map (·.2))[i]'(by simp; omega)) := List.getElem?_eq_getElem _
    have h2 : (y.map (·.2))[i]? = some ((y.map (·.2))[i]'(by simp; omega)) := List.getElem?_eq_getElem _
    obtain ⟨w, hw, hmw⟩ := ez i _ _ h1 h2
    simp only [List.getD_eq_getElem?_getD, h1, h2, hw, Option.getD_some]
    exact hmw

/-- C32: metrics made from arrays of values.  However they are merged, `Sum` computes the sum of all values, and `AveragePerStep` that sum
divided by the number of arrays: each stands for one step. -/
theorem C32_from_values (t : MTree (Metric K)) (vs : List (List K)) :
    (t.leaves = vs.map (sumFrom ·) → ∃ r, t.eval merge = .ok r ∧ compute r = .ok vs.flatten.sum) ∧
    (t.leaves = vs.map (avgStepFrom ·) → ∃ r, t.eval merge = .ok r ∧ compute r = .ok (vs.flatten.sum / vs.length)) := by
  have hflat : (vs.map List.sum).sum = vs.flatten.sum := by rw [List.sum_flatten]
  constructor
  · intro hl
    obtain ⟨x, hx, kx, ax, -, -⟩ := C32_totals .sum t (by rw [hl]; simp [sumFrom, IsKind])
    refine ⟨x, hx, ?_⟩
    rw [hl, List.map_map] at ax
    cases x <;> simp only [IsKind] at kx
    simp only [amount] at ax
    simp only [compute, ax, ← hflat]
    rfl
  · intro hl
    obtain ⟨x, hx, kx, ax, -, sx⟩ := C32_totals .avgStep t (by rw [hl]; simp [avgStepFrom, IsKind])
    refine ⟨x, hx, ?_⟩
    rw [hl, List.map_map] at ax sx
    cases x <;> simp only [IsKind] at kx
    simp only [amount] at ax
    simp only [steps] at sx
    have hs : (vs.map (steps ∘ fun v => avgStepFrom v)).sum = vs.length := by
      simp [Function.comp_def, avgStepFrom, steps]
    rw [hs] at sx
    simp only [compute, ax, sx, ← hflat]
    rfl

example : (MTree.node (.leaf (avgStepFrom [1, 2])) (.leaf (avgStepFrom [(3 : ℚ)]))).leaves = [[1, 2], [3]].map (avgStepFrom ·) := rfl

/-- Merging is refused, not wrong, once a rate has been given a duration. -/
theorem C32_no_merge_after_duration (a b d : K) (m : Metric K) (h : m = setDuration d (.timeRate a none)) :
    merge m (.timeRate b none) = .error .assertion ∧ merge (.timeRate b none) m = .error .assertion := by
  subst h; exact ⟨rfl, rfl⟩

/-- Two hosts, two steps of two microbatches: the loss is 10 over 2 steps although four pieces were merged. -/
example : ∃ r, (MTree.node (.node (.leaf (avgStepFrom [1, 2])) (.leaf (avgStepFrom [3]))) (.node (.leaf (.avgStep 2 1)) (.leaf (.avgStep 2 1)))).eval
    (merge (K := ℚ)) = .ok r ∧ r = .avgStep 10 4 ∧ summarize 7 2 r = .ok 5 := by
  refine ⟨.avgStep 10 4, ?_, rfl, ?_⟩
  · decide +kernel
  · decide +kernel

example : Uniform [Metric.timeRate (3 : ℚ) none, .timeRate 4 none] ∧ Uniform [Metric.last (3 : ℚ), .last 4] := by
  refine ⟨Or.inl ⟨.timeRate, by simp [IsKind]⟩, Or.inr (by simp)⟩

example : ∃ t : MTree (Dict ℚ), (∀ d ∈ t.leaves, d.map (·.1) = ["loss".toList, "lr".toList]) ∧
    t.eval mergeDict = .ok [("loss".toList, .avgStep 7 2), ("lr".toList, .last 2)] :=
  ⟨.node (.leaf [("loss".toList, .avgStep 3 1), ("lr".toList, .last 1)]) (.leaf [("loss".toList, .avgStep 4 1), ("lr".toList, .last 2)]),
    by simp [MTree.leaves], by decide +kernel⟩

end Verif.Metrics
