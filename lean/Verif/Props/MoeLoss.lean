import Verif.Spec.MoeLoss
import Verif.Props.BaseMetrics
/- Property C78. -/
namespace Verif.MoeLoss
open Verif Verif.Metrics Verif.Metrics.Spec Verif.BaseMetrics Verif.BaseMetrics.Spec Verif.MoeLoss.Spec

variable {K : Type} [Field K] [LinearOrder K]

omit [LinearOrder K] in
theorem sum_zipWith (s v : List K) (h : s.length = v.length) : (List.zipWith (· + ·) s v).sum = s.sum + v.sum := by
  induction s generalizing v with
  | nil =>
    cases v with
    | nil => simp
    | cons x v => cases h
  | cons y s ih =>
    cases v with
    | nil => cases h
    | cons x v =>
      simp only [List.zipWith_cons_cons, List.sum_cons, ih v (by simpa using h)]
      ring

omit [LinearOrder K] in
theorem sumValues_spec (m : Str) (state : State K) (n : Nat) (h : ∀ v ∈ sown state m, v.length = n) (s : Option (List K)) (c : Nat)
    (hs : ∀ x, s = some x → x.length = n) :
    (sumValues m state s c).2 = c + (sown state m).length ∧
    ((sumValues m state s c).1 = none ↔ s = none ∧ sown state m = []) ∧
    ∀ y, (sumValues m state s c).1 = some y → y.length = n ∧ y.sum = (s.elim 0 List.sum) + ((sown state m).map List.sum).sum := by
  induction state generalizing s c with
  | nil =>
    refine ⟨rfl, by simp [sumValues, sown], fun y hy => ?_⟩
    simp only [sumValues] at hy
    subst hy
    exact ⟨hs y rfl, by simp [sown]⟩
  | cons e rest ih =>
    obtain ⟨path, v⟩ := e
    by_cases hp : path.getLast? = some m
    · have hsown : sown ((path, v) :: rest) m = v :: sown rest m := by
        simp [sown, hp]
      have hv : v.length = n := h v (by rw [hsown]; exact List.mem_cons_self)
      have hrest : ∀ w ∈ sown rest m, w.length = n := fun w hw => h w (by rw [hsown]; exact List.mem_cons_of_mem _ hw)
      simp only [sumValues, if_pos hp]
      obtain ⟨h1, h2, h3⟩ := ih hrest (some (s.elim (v.map (0 + ·)) fun s => List.zipWith (· + ·) s v)) (c + 1) (by
        intro x hx
        cases hx
        cases s with
        | none => simpa using hv
        | some s =>
          have := hs s rfl
          simp [this, hv])
      refine ⟨by rw [h1, hsown, List.length_cons]; omega, ?_, ?_⟩
      · rw [hsown]
        exact ⟨fun hn => absurd (h2.1 hn).1 (by simp), fun hn => absurd hn.2 (by simp)⟩
      · intro y hy
        obtain ⟨h4, h5⟩ := h3 y hy
        refine ⟨h4, ?_⟩
        rw [h5, hsown, List.map_cons, List.sum_cons]
        cases s with
        | none => simp
        | some s =>
          simp only [Option.elim]
          rw [sum_zipWith s v (by rw [hs s rfl, hv])]
          ring
    · have hsown : sown ((path, v) :: rest) m = sown rest m := by
        simp [sown, hp]
      simp only [sumValues, if_neg hp]
      rw [hsown] at h ⊢
      exact ih h s c hs

omit [LinearOrder K] in
theorem average_spec (state : State K) (h : SameShape state) (m : Str) :
    (sown state m = [] ∧ average state m = .error .missing) ∨
    (sown state m ≠ [] ∧ ∃ v, average state m = .ok v ∧ mean v = layerMean state m) := by
  obtain ⟨n, hn⟩ : ∃ n, ∀ v ∈ sown state m, v.length = n := by
    cases hv : sown state m with
    | nil => exact ⟨0, fun v hv => by cases hv⟩
    | cons v0 vs =>
      refine ⟨v0.length, fun v hv' => ?_⟩
      rw [← hv] at hv'
      exact h m v hv' v0 (by rw [hv]; exact List.mem_cons_self)
  obtain ⟨h1, h2, h3⟩ := sumValues_spec m state n hn none 0 (by simp)
  unfold average
  cases hv : sumValues m state none 0 with
  | mk s c =>
    rw [hv] at h1 h2 h3
    cases s with
    | none => exact Or.inl ⟨(h2.1 rfl).2, rfl⟩
    | some y =>
      have hne : sown state m ≠ [] := fun e => by
        have := h2.2 ⟨rfl, e⟩
        cases this
      have hc : c ≠ 0 := by
        simp only at h1
        have := List.length_pos_iff.2 hne
        omega
      obtain ⟨h4, h5⟩ := h3 y rfl
      refine Or.inr ⟨hne, _, if_neg hc, ?_⟩
      have hdiv : ∀ (l : List K) (d : K), (l.map (· / d)).sum = l.sum / d := by
        intro l d
        induction l with
        | nil => simp
        | cons x l ih => simp only [List.map_cons, List.sum_cons, ih, add_div]
      have hmap : ((sown state m).map fun v => v.sum / ((v.length : Nat) : K)) = ((sown state m).map List.sum).map (· / (n : K)) := by
        rw [List.map_map]
        exact List.map_congr_left fun v hv => by rw [hn v hv]; rfl
      unfold mean layerMean
      simp only at h1
      rw [hdiv, List.length_map, h4, h5, hmap, hdiv, h1]
      simp only [Option.elim, zero_add]
      rw [div_right_comm]

omit [LinearOrder K] in
theorem extract_spec (state : State K) (h : SameShape state) (ms : List Str) :
    ((∃ m ∈ ms, sown state m = []) ∧ extract state ms = .error .missing) ∨
    ((∀ m ∈ ms, sown state m ≠ []) ∧ ∃ d, extract state ms = .ok d ∧ ∀ m ∈ ms, meanOf d m = layerMean state m) := by
  induction ms with
  | nil => exact Or.inr ⟨fun m hm => (by cases hm), [], rfl, fun m hm => (by cases hm)⟩
  | cons m ms ih =>
    rcases average_spec state h m with ⟨h1, h2⟩ | ⟨h1, v, h2, h3⟩
    · exact Or.inl ⟨⟨m, List.mem_cons_self, h1⟩, by simp only [extract, h2]⟩
    · rcases ih with ⟨⟨m', hm', h4⟩, h5⟩ | ⟨h4, d, h5, h6⟩
      · exact Or.inl ⟨⟨m', List.mem_cons_of_mem _ hm', h4⟩, by simp only [extract, h2, h5]⟩
      · refine Or.inr ⟨fun m' hm' => ?_, (m, v) :: d, by simp only [extract, h2, h5], fun m' hm' => ?_⟩
        · rcases List.mem_cons.1 hm' with rfl | hm'
          · exact h1
          · exact h4 m' hm'
        · unfold meanOf
          simp only [PyDict.get]
          by_cases hmm : m = m'
          · subst hmm
            rw [if_pos rfl]
            exact h3
          · rw [if_neg hmm]
            rcases List.mem_cons.1 hm' with e | hm'
            · exact absurd e.symm hmm
            · exact h6 m' hm'

/-- The value of the function. -/
theorem moeLoss_spec (devices : Nat) (auxFactor zFactor : K) (a : Args K) (h : SameShape a.state) :
    ((∃ m ∈ moeMetrics, sown a.state m = []) ∧ moeLoss devices auxFactor zFactor a = .error .missing) ∨
    ((∀ m ∈ moeMetrics, sown a.state m ≠ []) ∧ ∃ dm : List (Str × List K), (∀ m ∈ moeMetrics, meanOf dm m = layerMean a.state m) ∧
      moeLoss devices auxFactor zFactor a =
        .ok (a.base.loss + (auxFactor * layerMean a.state "auxiliary_loss".toList + zFactor * layerMean a.state "router_z_loss".toList),
          PyDict.update (baseMetrics devices { a.base with
              loss := a.base.loss + (auxFactor * layerMean a.state "auxiliary_loss".toList + zFactor * layerMean a.state "router_z_loss".toList)
              zLoss := some a.z, segments := none })
            (expertMetrics dm (a.base.loss + (auxFactor * layerMean a.state "auxiliary_loss".toList + zFactor * layerMean a.state "router_z_loss".toList))
              a.z (auxFactor * layerMean a.state "auxiliary_loss".toList) (zFactor * layerMean a.state "router_z_loss".toList)
              (size a.base.targets)))) := by
  rcases extract_spec a.state h moeMetrics with ⟨h1, h2⟩ | ⟨h1, d, h2, h3⟩
  · exact Or.inl ⟨h1, by simp only [moeLoss, h2]⟩
  · refine Or.inr ⟨h1, d, h3, ?_⟩
    have e1 := h3 "auxiliary_loss".toList (by decide)
    have e2 := h3 "router_z_loss".toList (by decide)
    simp only [moeLoss, h2, expertLosses, e1, e2]

/-- **C78.** The loss is the cross entropy plus, each with its factor, the load balancing loss and the router z-loss averaged over the layers. -/
theorem C78_loss (devices : Nat) (auxFactor zFactor : K) (a : Args K) (h : SameShape a.state) (loss : K) (d : Dict K)
    (hr : moeLoss devices auxFactor zFactor a = .ok (loss, d)) :
    loss = a.base.loss + auxFactor * layerMean a.state "auxiliary_loss".toList + zFactor * layerMean a.state "router_z_loss".toList := by
  rcases moeLoss_spec devices auxFactor zFactor a h with ⟨-, e⟩ | ⟨-, dm, -, e⟩
  · rw [e] at hr; cases hr
  · rw [e] at hr
    cases hr
    ring

/-- **C78.** It fails exactly if some of the five metrics has been sown by no layer. -/
theorem C78_missing (devices : Nat) (auxFactor zFactor : K) (a : Args K) (h : SameShape a.state) :
    (∃ r, moeLoss devices auxFactor zFactor a = .ok r) ↔
      ∀ m ∈ ["auxiliary_loss".toList, "router_z_loss".toList, "fraction_tokens_left_behind".toList, "expert_usage".toList, "router_confidence".toList],
        sown a.state m ≠ [] := by
  rcases moeLoss_spec devices auxFactor zFactor a h with ⟨⟨m, hm, e1⟩, e⟩ | ⟨h1, dm, -, e⟩
  · rw [e]
    exact ⟨fun ⟨_, hr⟩ => (by cases hr), fun hr => absurd e1 (hr m hm)⟩
  · exact ⟨fun _ => h1, fun _ => ⟨_, e⟩⟩

def expertKeys : List Str :=
  ["experts/auxiliary_loss".toList, "experts/router_z_loss".toList, "experts/fraction_tokens_left_behind".toList, "experts/expert_usage".toList,
   "experts/router_confidence".toList, "cross_ent_loss".toList, "cross_ent_loss_per_all_target_tokens".toList]

/-- The arguments with which the base metrics are computed. -/
def baseArgs (auxFactor zFactor : K) (a : Args K) : BaseMetrics.Args K :=
  { a.base with
    loss := a.base.loss + (auxFactor * layerMean a.state "auxiliary_loss".toList + zFactor * layerMean a.state "router_z_loss".toList)
    zLoss := some a.z, segments := none }

omit [LinearOrder K] in
theorem expert_wf (dm : List (Str × List K)) (x z y w : K) (n : Nat) : PyDict.WF (expertMetrics dm x z y w n) :=
  show expertKeys.Nodup by decide

/-- **C78.** What is reported for the pieces of a period: the loss with the expert losses, the cross entropy without them and without z-loss, and per
step the sums of the expert losses and of the layer means of the router's metrics. -/
theorem C78_report (devices : Nat) (auxFactor zFactor : K) (t : MTree (Args K)) (hg : ∀ a ∈ t.leaves, Good a.base) (hs : ∀ a ∈ t.leaves, SameShape a.state)
    (out : Args K → K × Dict K) (ho : ∀ a ∈ t.leaves, moeLoss devices auxFactor zFactor a = .ok (out a)) (dur : K) (n : Nat) :
    let R := Reports (fun a => (out a).2) t dur n
    R "loss".toList ((total t fun a => (out a).1) / n) ∧
    R "z_loss".toList ((total t fun a => a.z) / n) ∧
    R "cross_ent_loss".toList ((total t fun a => a.base.loss - a.z) / n) ∧
    R "cross_ent_loss_per_all_target_tokens".toList ((total t fun a => a.base.loss - a.z) / total t fun a => tokens a.base) ∧
    R "accuracy".toList ((total t fun a => correct a.base) / total t fun a => unmasked a.base) ∧
    R "experts/auxiliary_loss".toList ((total t fun a => auxFactor * layerMean a.state "auxiliary_loss".toList) / n) ∧
    R "experts/router_z_loss".toList ((total t fun a => zFactor * layerMean a.state "router_z_loss".toList) / n) ∧
    R "experts/fraction_tokens_left_behind".toList ((total t fun a => layerMean a.state "fraction_tokens_left_behind".toList) / n) ∧
    R "experts/expert_usage".toList ((total t fun a => layerMean a.state "expert_usage".toList) / n) ∧
    R "experts/router_confidence".toList ((total t fun a => layerMean a.state "router_confidence".toList) / n) := by
  -- the dict of one piece
  have hpiece : ∀ a ∈ t.leaves, ∃ dm : List (Str × List K), (∀ m ∈ moeMetrics, meanOf dm m = layerMean a.state m) ∧
      out a = ((baseArgs auxFactor zFactor a).loss, PyDict.update (baseMetrics devices (baseArgs auxFactor zFactor a))
        (expertMetrics dm (baseArgs auxFactor zFactor a).loss a.z (auxFactor * layerMean a.state "auxiliary_loss".toList)
          (zFactor * layerMean a.state "router_z_loss".toList) (size a.base.targets))) := by
    intro a ha
    rcases moeLoss_spec devices auxFactor zFactor a (hs a ha) with ⟨-, e⟩ | ⟨-, dm, hdm, e⟩
    · rw [ho a ha] at e; cases e
    · rw [ho a ha] at e
      exact ⟨dm, hdm, Except.ok.inj e⟩
  have hgood : ∀ a ∈ t.leaves, Good (baseArgs auxFactor zFactor a) := fun a ha =>
    ⟨(hg a ha).logits, (hg a ha).classes, (hg a ha).mask, fun segs h => (by cases h), List.nodup_nil, by simp [baseArgs]⟩
  obtain ⟨b, hb⟩ := leaves_ne t
  have hshape : ∀ a ∈ t.leaves, shape (out a).2 = shape (out b).2 := by
    intro a ha
    obtain ⟨dm, -, e⟩ := hpiece a ha
    obtain ⟨dm', -, e'⟩ := hpiece b hb
    rw [e, e', shape_update, shape_update, base_shape devices _ _ (hgood a ha) (hgood b hb) rfl rfl rfl]
    rfl
  have hS : ∀ e ∈ shape (out b).2, e.2 ≠ .bad := by
    obtain ⟨dm', -, e'⟩ := hpiece b hb
    rw [e']
    refine update_good _ _ (base_good devices _) ?_
    intro e he
    simp only [expertMetrics, shape, List.map_cons, List.map_nil, List.mem_cons, List.not_mem_nil, or_false, sortOf, avgStepFrom] at he
    rcases he with rfl | rfl | rfl | rfl | rfl | rfl | rfl <;> simp
  have expert : ∀ (k : Str) (κ : Kind) (g : Args K → Metric K) (v : K), (∀ a ∈ t.leaves, ∀ dm : List (Str × List K),
      (∀ m ∈ moeMetrics, meanOf dm m = layerMean a.state m) → (k, g a) ∈ expertMetrics dm (baseArgs auxFactor zFactor a).loss a.z
        (auxFactor * layerMean a.state "auxiliary_loss".toList) (zFactor * layerMean a.state "router_z_loss".toList) (size a.base.targets)) →
      (∀ a, IsKind κ (g a)) → reported κ dur n (t.leaves.map g) = v → Reports (fun a => (out a).2) t dur n k v := by
    intro k κ g v h1 h2 h3
    rw [← h3]
    refine reports_kind _ t _ hS hshape dur n k κ g (fun a ha => ?_) h2
    obtain ⟨dm, hdm, e⟩ := hpiece a ha
    rw [e]
    exact get_update_of_mem _ _ (expert_wf _ _ _ _ _ _) _ _ (h1 a ha dm hdm)
  have base : ∀ (k : Str) (κ : Kind) (g : Args K → Metric K) (v : K), k ∉ expertKeys →
      (∀ a ∈ t.leaves, PyDict.get (baseMetrics devices (baseArgs auxFactor zFactor a)) k = some (g a)) →
      (∀ a, IsKind κ (g a)) → reported κ dur n (t.leaves.map g) = v → Reports (fun a => (out a).2) t dur n k v := by
    intro k κ g v h0 h1 h2 h3
    rw [← h3]
    refine reports_kind _ t _ hS hshape dur n k κ g (fun a ha => ?_) h2
    obtain ⟨dm, hdm, e⟩ := hpiece a ha
    rw [e]
    dsimp only
    rw [get_update_of_not_mem _ _ _ h0]
    exact h1 a ha
  have hce : ∀ a : Args K, (baseArgs auxFactor zFactor a).loss - a.z - auxFactor * layerMean a.state "auxiliary_loss".toList -
      zFactor * layerMean a.state "router_z_loss".toList = a.base.loss - a.z := by
    intro a
    simp only [baseArgs]
    ring
  have hloss : ∀ a ∈ t.leaves, (out a).1 = (baseArgs auxFactor zFactor a).loss := by
    intro a ha
    obtain ⟨dm, -, e⟩ := hpiece a ha
    rw [e]
  have avg1 : ∀ x : K, avgStepFrom [x] = .avgStep x 1 := fun x => by simp [avgStepFrom]
  refine ⟨?_, ?_, ?_, ?_, ?_, ?_, ?_, ?_, ?_, ?_⟩
  · refine base _ .avgStep (fun a => .avgStep (baseArgs auxFactor zFactor a).loss 1) _ (by decide) (fun a ha => ?_) (fun _ => trivial) ?_
    · exact get_common devices _ (hgood a ha) _ _ rfl (by decide) (by decide) (by decide)
    · simp only [reported, List.map_map, Function.comp_def, amount, total]
      rw [List.map_congr_left hloss]
  · refine base _ .avgStep (fun a => .avgStep a.z 1) _ (by decide) (fun a ha => ?_) (fun _ => trivial) ?_
    · exact get_z devices _ _ _ rfl (by decide)
    · simp only [reported, List.map_map, Function.comp_def, amount, total]
  · refine expert _ .avgStep (fun a => .avgStep (a.base.loss - a.z) 1) _ (fun a ha dm hdm => ?_) (fun _ => trivial) ?_
    · simp only [expertMetrics, hce]; simp
    · simp only [reported, List.map_map, Function.comp_def, amount, total]
  · refine expert _ .average (fun a => .average (a.base.loss - a.z) (tokens a.base)) _ (fun a ha dm hdm => ?_) (fun _ => trivial) ?_
    · simp only [expertMetrics, hce, size_eq]; simp [tokens]
    · simp only [reported, List.map_map, Function.comp_def, amount, weight, total]
  · refine base _ .average (fun a => .average (correct a.base) (unmasked a.base)) _ (by decide) (fun a ha => ?_) (fun _ => trivial) ?_
    · exact get_common devices _ (hgood a ha) _ _ (congrArg some (accuracy_eq _ (hgood a ha))) (by decide) (by decide) (by decide)
    · simp only [reported, List.map_map, Function.comp_def, amount, weight, total]
  · refine expert _ .avgStep (fun a => .avgStep (auxFactor * layerMean a.state "auxiliary_loss".toList) 1) _ (fun a ha dm hdm => ?_) (fun _ => trivial) ?_
    · simp only [expertMetrics, avg1]; simp
    · simp only [reported, List.map_map, Function.comp_def, amount, total]
  · refine expert _ .avgStep (fun a => .avgStep (zFactor * layerMean a.state "router_z_loss".toList) 1) _ (fun a ha dm hdm => ?_) (fun _ => trivial) ?_
    · simp only [expertMetrics, avg1]; simp
    · simp only [reported, List.map_map, Function.comp_def, amount, total]
  · refine expert _ .avgStep (fun a => .avgStep (layerMean a.state "fraction_tokens_left_behind".toList) 1) _ (fun a ha dm hdm => ?_) (fun _ => trivial) ?_
    · simp only [expertMetrics, avg1, hdm "fraction_tokens_left_behind".toList (by decide)]; simp
    · simp only [reported, List.map_map, Function.comp_def, amount, total]
  · refine expert _ .avgStep (fun a => .avgStep (layerMean a.state "expert_usage".toList) 1) _ (fun a ha dm hdm => ?_) (fun _ => trivial) ?_
    · simp only [expertMetrics, avg1, hdm "expert_usage".toList (by decide)]; simp
    · simp only [reported, List.map_map, Function.comp_def, amount, total]
  · refine expert _ .avgStep (fun a => .avgStep (layerMean a.state "router_confidence".toList) 1) _ (fun a ha dm hdm => ?_) (fun _ => trivial) ?_
    · simp only [expertMetrics, avg1, hdm "router_confidence".toList (by decide)]; simp
    · simp only [reported, List.map_map, Function.comp_def, amount, total]

/-- **C78, finding.** Of a step in `M` microbatches with the same router metrics, the reported expert usage is `M` times the usage (likewise the other
fractions), and the expert losses enter the loss `M` times, while the cross entropy is the sum over the microbatches. -/
theorem C78_microbatches (devices : Nat) (auxFactor zFactor : K) (t : MTree (Args K)) (hg : ∀ a ∈ t.leaves, Good a.base)
    (hs : ∀ a ∈ t.leaves, SameShape a.state) (out : Args K → K × Dict K) (ho : ∀ a ∈ t.leaves, moeLoss devices auxFactor zFactor a = .ok (out a))
    (dur usage aux : K) (hu : ∀ a ∈ t.leaves, layerMean a.state "expert_usage".toList = usage)
    (haux : ∀ a ∈ t.leaves, layerMean a.state "auxiliary_loss".toList = aux) :
    Reports (fun a => (out a).2) t dur 1 "experts/expert_usage".toList ((t.leaves.length : Nat) * usage) ∧
    (total t fun a => (out a).1) = (total t fun a => a.base.loss) + (t.leaves.length : Nat) * (auxFactor * aux) +
      total t fun a => zFactor * layerMean a.state "router_z_loss".toList := by
  have hconst : ∀ (l : List (Args K)) (f : Args K → K) (c : K), (∀ a ∈ l, f a = c) → (l.map f).sum = (l.length : Nat) * c := by
    intro l f c h
    induction l with
    | nil => simp
    | cons a l ih =>
      rw [List.map_cons, List.sum_cons, ih (fun a ha => h a (List.mem_cons_of_mem _ ha)), h a List.mem_cons_self, List.length_cons]
      push_cast
      ring
  constructor
  · have := (C78_report devices auxFactor zFactor t hg hs out ho dur 1).2.2.2.2.2.2.2.2.1
    rw [total, hconst _ _ _ hu, Nat.cast_one, div_one] at this
    exact this
  · have hl : ∀ a ∈ t.leaves, (out a).1 = a.base.loss + auxFactor * aux + zFactor * layerMean a.state "router_z_loss".toList := by
      intro a ha
      have := C78_loss devices auxFactor zFactor a (hs a ha) (out a).1 (out a).2 (ho a ha)
      rw [haux a ha] at this
      exact this
    unfold total
    rw [List.map_congr_left hl]
    generalize t.leaves = l
    induction l with
    | nil => simp
    | cons a l ih =>
      simp only [List.map_cons, List.sum_cons, List.length_cons, ih]
      push_cast
      ring

/-! Two layers. -/

def exState (u : ℚ) : State ℚ :=
  [(["l0".toList, "auxiliary_loss".toList], [1]), (["l1".toList, "auxiliary_loss".toList], [3]), (["l0".toList, "router_z_loss".toList], [2]),
   (["l0".toList, "fraction_tokens_left_behind".toList], [0]), (["l0".toList, "expert_usage".toList], [u]),
   (["l0".toList, "router_confidence".toList], [1])]

example : (moeLoss 1 (1 / 2) 1 ⟨exArgs 0, 1, exState 1⟩).toOption.map Prod.fst = some (6 + 1 + 2) := by decide +kernel
example (u : ℚ) : SameShape (exState u) := by
  intro m v hv w hw
  have hall : ∀ e ∈ exState u, e.2.length = 1 := by simp [exState]
  have : ∀ v ∈ sown (exState u) m, v.length = 1 := by
    intro v hv
    obtain ⟨e, he, rfl⟩ := List.mem_map.1 hv
    exact hall e (List.mem_filter.1 he).1
  rw [this v hv, this w hw]

end Verif.MoeLoss
