import Verif.Lemmas.BaseMetrics
import Mathlib.Data.Finset.Max
/- Property C77. -/
namespace Verif.BaseMetrics
open Verif Verif.Metrics Verif.Metrics.Spec Verif.BaseMetrics.Spec

variable {K : Type} [Field K] [LinearOrder K]

theorem size_eq {β : Type} (rows : List (List β)) : size rows = (rows.map List.length).sum := by
  simp [size, List.length_flatten]

theorem nonzero_eq (rows : List (List ℤ)) : nonzero rows = (rows.map fun r => r.countP fun x => decide (x ≠ 0)).sum := by
  induction rows with
  | nil => rfl
  | cons r rows ih =>
    unfold nonzero at ih ⊢
    rw [List.flatten_cons, List.filter_append, List.length_append, ih, List.map_cons, List.sum_cons, List.countP_eq_length_filter]

theorem argmax_spec (v : List K) (hv : v ≠ []) (t : ℤ) : ((argmax v : Nat) : ℤ) = t ↔ Predicts v t := by
  have hex : ∃ x ∈ v, v.all (fun y => decide (y ≤ x)) = true := by
    obtain ⟨x, hx, hmax⟩ := v.toFinset.exists_max_image id (by
      obtain ⟨a, ha⟩ := List.exists_mem_of_ne_nil v hv
      exact ⟨a, List.mem_toFinset.2 ha⟩)
    exact ⟨x, List.mem_toFinset.1 hx, List.all_eq_true.2 fun y hy => decide_eq_true (hmax y (List.mem_toFinset.2 hy))⟩
  have hlt : argmax v < v.length := List.findIdx_lt_length_of_exists hex
  have hat : v.all (fun y => decide (y ≤ v[argmax v])) = true := List.findIdx_getElem (w := hlt)
  have hmax : ∀ y ∈ v, y ≤ v[argmax v] := fun y hy => of_decide_eq_true (List.all_eq_true.1 hat y hy)
  have hbefore : ∀ (j : Nat) (y : K), j < argmax v → v[j]? = some y → y < v[argmax v] := by
    intro j y hj hy
    obtain ⟨hjl, rfl⟩ := List.getElem?_eq_some_iff.1 hy
    refine lt_of_le_of_ne (hmax _ (List.getElem_mem hjl)) fun e => ?_
    have := List.not_of_lt_findIdx hj
    rw [e, hat] at this
    cases this
  constructor
  · intro h
    exact ⟨argmax v, v[argmax v], h, List.getElem?_eq_getElem hlt, hmax, hbefore⟩
  · rintro ⟨i, x, rfl, hx, h1, h2⟩
    have : argmax v = i := by
      rcases Nat.lt_trichotomy (argmax v) i with h | h | h
      · have h3 := h2 _ _ h (List.getElem?_eq_getElem hlt)
        obtain ⟨hil, rfl⟩ := List.getElem?_eq_some_iff.1 hx
        exact absurd (hmax _ (List.getElem_mem hil)) (not_le.2 h3)
      · exact h
      · have h3 := hbefore _ _ h hx
        exact absurd (h1 _ (List.getElem_mem hlt)) (not_le.2 h3)
    rw [this]

open Classical in
theorem accuracy_lists (L : List (List K)) (T : List ℤ) (W : List K) (h1 : L.length = T.length) (h2 : W.length = T.length)
    (hv : ∀ v ∈ L, v ≠ []) :
    (List.zipWith (fun v (w : Bool) => if w then (if v then (1 : K) else 0) else 0)
      (List.zipWith (fun v (t : ℤ) => ((argmax v : Nat) : ℤ) == t) L T) (W.map fun w => decide (w ≠ 0))).sum =
    ((L.zip (T.zip W)).countP (fun p => decide (p.2.2 ≠ 0 ∧ Predicts p.1 p.2.1)) : Nat) ∧
    ((W.map fun w => decide (w ≠ 0)).map fun w => if w then (1 : K) else 0).sum = (W.countP fun w => decide (w ≠ 0) : Nat) := by
  induction L generalizing T W with
  | nil =>
    cases T with
    | cons t T => cases h1
    | nil =>
      cases W with
      | cons w W => cases h2
      | nil => simp
  | cons v L ih =>
    cases T with
    | nil => cases h1
    | cons t T =>
      cases W with
      | nil => cases h2
      | cons w W =>
        obtain ⟨ih1, ih2⟩ := ih T W (by simpa using h1) (by simpa using h2) (fun v hv' => hv v (List.mem_cons_of_mem _ hv'))
        have ha := argmax_spec v (hv v List.mem_cons_self) t
        constructor
        · simp only [List.zipWith_cons_cons, List.map_cons, List.sum_cons, List.zip_cons_cons, List.countP_cons, ih1]
          by_cases hw : w ≠ 0
          · by_cases hp : Predicts v t
            · simp [hw, hp, ha.2 hp, add_comm]
            · have : ¬ ((argmax v : Nat) : ℤ) = t := fun h => hp (ha.1 h)
              simp [hw, hp, this]
          · simp [hw]
        · simp only [List.map_cons, List.sum_cons, List.countP_cons, ih2]
          by_cases hw : w ≠ 0
          · simp [hw, add_comm]
          · simp [hw]

theorem flatten_length {β γ : Type} (x : List (List β)) (y : List (List γ)) (h : x.map List.length = y.map List.length) :
    x.flatten.length = y.flatten.length := by
  rw [List.length_flatten, List.length_flatten, h]

theorem accuracy_eq (a : Args K) (h : Good a) : accuracy a = .average (correct a) (unmasked a) := by
  have hL := flatten_length _ _ h.logits
  have hv : ∀ v ∈ a.logits.flatten, v ≠ [] := by
    intro v hv
    obtain ⟨r, hr, hv⟩ := List.mem_flatten.1 hv
    exact h.classes r hr v hv
  have hW : (weights a).length = a.targets.flatten.length := by
    unfold weights
    cases hm : a.mask with
    | none => exact List.length_map _
    | some m => exact flatten_length _ _ (h.mask m hm)
  have hmask : (a.mask.elim ((List.zipWith (fun v (t : ℤ) => ((argmax v : Nat) : ℤ) == t) a.logits.flatten a.targets.flatten).map fun _ => true)
      (fun m => m.flatten.map fun w => decide (w ≠ 0))) = (weights a).map fun w => decide (w ≠ 0) := by
    unfold weights
    cases hm : a.mask with
    | some m => rfl
    | none =>
      simp only [Option.elim, List.map_map]
      generalize a.targets.flatten = T at hL
      generalize a.logits.flatten = L at hL
      refine List.ext_getElem (by simp [hL]) fun i h1 h2 => ?_
      simp
  obtain ⟨h1, h2⟩ := accuracy_lists a.logits.flatten a.targets.flatten (weights a) hL hW hv
  unfold accuracy
  dsimp only
  rw [hmask, h1, h2]
  rfl

theorem nonpadding_eq (a : Args K) : nonpadding a = (weights a).sum := by
  unfold nonpadding weights size
  cases a.mask with
  | some m => rfl
  | none =>
    simp only [Option.elim]
    generalize a.targets.flatten = T
    simp

theorem kept_eq (a : Args K) (h : Good a) : kept (a.segments.getD []) = features a := by
  have key : ∀ segs : List (Str × Option (List (List ℤ))), (∀ f rows, (f, some rows) ∈ segs → Rect rows) →
      kept segs = (segs.filterMap fun e => e.2.map fun rows => (e.1, rows)).filter fun e => decide (∃ r ∈ e.2, r ≠ []) := by
    intro segs hr
    induction segs with
    | nil => rfl
    | cons e segs ih =>
      obtain ⟨f, rows⟩ := e
      have ih := ih (fun f rows hm => hr f rows (List.mem_cons_of_mem _ hm))
      unfold kept at ih ⊢
      cases rows with
      | none => simpa [List.filterMap_cons] using ih
      | some rows =>
        have hrect := hr f rows List.mem_cons_self
        simp only [List.filterMap_cons, Option.bind_some, Option.map_some, List.filter_cons]
        by_cases hc : (rows.head?.getD []).length = 0
        · have hn : ¬ ∃ r ∈ rows, r ≠ [] := by
            rintro ⟨r, hr1, hr2⟩
            cases rows with
            | nil => cases hr1
            | cons r0 rows =>
              have := hrect r hr1 r0 List.mem_cons_self
              simp only [List.head?_cons, Option.getD_some] at hc
              rw [hc] at this
              exact hr2 (List.length_eq_zero_iff.1 this)
          rw [if_pos hc, if_neg (by simpa using hn)]
          exact ih
        · have hy : ∃ r ∈ rows, r ≠ [] := by
            cases rows with
            | nil => exact absurd rfl hc
            | cons r0 rows => exact ⟨r0, List.mem_cons_self, fun e => hc (by simp [e])⟩
          rw [if_neg hc, if_pos (by simpa using hy)]
          exact congrArg _ ih
  refine key _ fun f rows hm => ?_
  cases hs : a.segments with
  | none => rw [hs] at hm; cases hm
  | some segs => rw [hs] at hm; exact h.rect segs hs f rows hm

theorem features_names (a : Args K) (h : Good a) : ((features a).map Prod.fst).Nodup ∧ ∀ f, f ∈ (features a).map Prod.fst → f ∈ (a.segments.getD []).map Prod.fst := by
  have key : ∀ segs : List (Str × Option (List (List ℤ))),
      (((segs.filterMap fun e => e.2.map fun rows => (e.1, rows)).filter fun e => decide (∃ r ∈ e.2, r ≠ [])).map Prod.fst).Sublist (segs.map Prod.fst) := by
    intro segs
    induction segs with
    | nil => exact List.Sublist.refl _
    | cons e segs ih =>
      obtain ⟨f, rows⟩ := e
      cases rows with
      | none => simpa only [List.filterMap_cons, Option.map_none, List.map_cons] using ih.cons f
      | some rows =>
        simp only [List.filterMap_cons, Option.map_some, List.filter_cons, List.map_cons]
        split_ifs
        · exact ih.cons_cons f
        · exact ih.cons f
  have hs := key (a.segments.getD [])
  exact ⟨hs.nodup h.names, fun f hf => hs.subset hf⟩

def zKeys : List Str := ["z_loss".toList, "z_loss_per_all_target_tokens".toList, "cross_ent_loss".toList, "cross_ent_loss_per_all_target_tokens".toList]

omit [LinearOrder K] in
theorem zPart_keys (a : Args K) : PyDict.keys (zPart a) = if a.zLoss.isSome then zKeys else [] := by
  unfold zPart
  cases a.zLoss <;> rfl

/-- Entries of the first part survive. -/
theorem get_common (devices : Nat) (a : Args K) (h : Good a) (k : Str) (m : Metric K) (hm : PyDict.get (common devices a) k = some m)
    (hz : k ∉ zKeys) (hk1 : ¬ "effective_batch_size/".toList <+: k) (hk2 : ("non_padding_fraction/".toList <+: k) → k = npf "loss_weights".toList) :
    PyDict.get (baseMetrics devices a) k = some m := by
  have hd : PyDict.get (PyDict.update (common devices a) (zPart a)) k = some m := by
    rw [get_update_of_not_mem _ _ _ ?_, hm]
    rw [zPart_keys]
    split_ifs
    · exact hz
    · simp
  unfold baseMetrics
  cases hs : a.segments with
  | none => exact hd
  | some segs =>
    have hkept : kept segs = features a := by have := kept_eq a h; rwa [hs] at this
    have hres := h.reserved
    dsimp only
    rw [segLoop_other, hd]
    · intro e
      have := npf_inj (hk2 (e ▸ List.prefix_append _ _) ▸ e)
      exact absurd this (by decide)
    · intro e he
      refine ⟨fun heq => hk1 (heq ▸ List.prefix_append _ _), fun heq => ?_⟩
      have h2 := npf_inj (hk2 (heq ▸ List.prefix_append _ _) ▸ heq)
      refine hres.1 ((features_names a h).2 _ ?_)
      rw [← hkept, List.mem_map]
      exact ⟨e, he, h2.symm⟩

theorem get_z (devices : Nat) (a : Args K) (k : Str) (m : Metric K) (hm : PyDict.get (zPart a) k = some m) (hz : k ∈ zKeys) :
    PyDict.get (baseMetrics devices a) k = some m := by
  have hwf : PyDict.WF (zPart a) := by
    unfold PyDict.WF
    rw [zPart_keys]
    split_ifs
    · decide
    · exact List.nodup_nil
  have hd : PyDict.get (PyDict.update (common devices a) (zPart a)) k = some m := get_update_of_mem _ _ hwf _ _ (PyDict.mem_of_get _ _ _ hm)
  have hno : ∀ k ∈ zKeys, k.head? ≠ some 'e' ∧ k.head? ≠ some 'n' := by decide
  have h1 := hno k hz
  unfold baseMetrics
  cases hs : a.segments with
  | none => exact hd
  | some segs =>
    dsimp only
    rw [segLoop_other, hd]
    · intro e; exact h1.2 (e ▸ rfl)
    · exact fun e he => ⟨fun heq => h1.1 (heq ▸ rfl), fun heq => h1.2 (heq ▸ rfl)⟩

theorem get_feature (devices : Nat) (a : Args K) (h : Good a) (f : Str) (hf : f ∈ (features a).map Prod.fst) :
    PyDict.get (baseMetrics devices a) (ebs f) = some (.avgStep ((LossWeights.countPackedExamples (feature f a) : ℤ) : K) 1) ∧
    PyDict.get (baseMetrics devices a) (npf f) = some (.average (nonzero (feature f a) : Nat) (size (feature f a) : Nat)) := by
  obtain ⟨hn, hsub⟩ := features_names a h
  obtain ⟨⟨f', rows⟩, hm, rfl⟩ := List.mem_map.1 hf
  have hfe : feature f' a = rows := by
    unfold feature
    rw [PyDict.get_of_mem (features a) hn f' rows hm]
    rfl
  unfold baseMetrics
  cases hs : a.segments with
  | none => have := hsub f' hf; rw [hs] at this; cases this
  | some segs =>
    have hkept : kept segs = features a := by have := kept_eq a h; rwa [hs] at this
    dsimp only
    rw [hkept, hfe]
    exact segLoop_feature _ _ _ _ _ _ hm hn (fun e => h.reserved.2 (e ▸ hsub f' hf))

theorem get_overall (devices : Nat) (a : Args K) (h : Good a) (hs : a.segments.isSome) :
    PyDict.get (baseMetrics devices a) (npf "overall".toList) =
      some (.average (((features a).map fun e => (filled e.2 : K)).sum) (((features a).map fun e => (entries e.2 : K)).sum)) := by
  unfold baseMetrics
  cases hs' : a.segments with
  | none => rw [hs'] at hs; cases hs
  | some segs =>
    have hkept : kept segs = features a := by have := kept_eq a h; rwa [hs'] at this
    dsimp only
    rw [hkept, segLoop_overall]
    congr 2
    · rw [Nat.zero_add]
      induction features a with
      | nil => simp
      | cons e l ih => rw [List.map_cons, List.sum_cons, Nat.cast_add, ih, nonzero_eq]; rfl
    · rw [Nat.zero_add]
      induction features a with
      | nil => simp
      | cons e l ih => rw [List.map_cons, List.sum_cons, Nat.cast_add, ih, size_eq]; rfl

theorem base_shape (devices : Nat) (a b : Args K) (ha : Good a) (hb : Good b) (hz : a.zLoss.isSome = b.zLoss.isSome)
    (hs : a.segments.isSome = b.segments.isSome) (hf : (features a).map Prod.fst = (features b).map Prod.fst) :
    shape (baseMetrics devices a) = shape (baseMetrics devices b) := by
  have hd : shape (PyDict.update (common devices a) (zPart a)) = shape (PyDict.update (common devices b) (zPart b)) := by
    rw [shape_update, shape_update]
    have h1 : shape (common devices a) = shape (common devices b) := rfl
    have h2 : shape (zPart a) = shape (zPart b) := by
      unfold zPart
      cases h3 : a.zLoss <;> cases h4 : b.zLoss <;> rw [h3, h4] at hz <;> first | rfl | cases hz
    rw [h1, h2]
  have hka := kept_eq a ha
  have hkb := kept_eq b hb
  unfold baseMetrics
  cases h3 : a.segments with
  | none =>
    cases h4 : b.segments with
    | none => exact hd
    | some s => rw [h3, h4] at hs; cases hs
  | some s =>
    cases h4 : b.segments with
    | none => rw [h3, h4] at hs; cases hs
    | some s' =>
      rw [h3] at hka
      rw [h4] at hkb
      simp only [Option.getD_some] at hka hkb
      exact segLoop_shape _ _ _ _ _ _ _ _ (by rw [hka, hkb, hf]) hd

omit [LinearOrder K] in
theorem update_good (d e : Dict K) (hd : ∀ x ∈ shape d, x.2 ≠ .bad) (he : ∀ x ∈ shape e, x.2 ≠ .bad) : ∀ x ∈ shape (PyDict.update d e), x.2 ≠ .bad := by
  induction e generalizing d with
  | nil => exact hd
  | cons y e ih =>
    refine ih (PyDict.set d y.1 y.2) ?_ (fun x hx => he x (List.mem_cons_of_mem _ hx))
    exact set_good d y.1 y.2 hd (he (y.1, sortOf y.2) List.mem_cons_self)

theorem base_good (devices : Nat) (a : Args K) : ∀ e ∈ shape (baseMetrics devices a), e.2 ≠ .bad := by
  have hd : ∀ e ∈ shape (PyDict.update (common devices a) (zPart a)), e.2 ≠ .bad := by
    refine update_good _ _ ?_ ?_
    · intro e he
      have : shape (common devices a) = shape (common 1 (⟨[], [], none, 0, none, none⟩ : Args ℚ)) := rfl
      rw [this] at he
      revert e
      decide
    · intro e he
      unfold zPart at he
      cases hz : a.zLoss with
      | none => rw [hz] at he; cases he
      | some z =>
        rw [hz] at he
        simp only [shape, List.map_cons, List.map_nil, List.mem_cons, List.not_mem_nil, or_false, sortOf] at he
        rcases he with rfl | rfl | rfl | rfl <;> simp
  unfold baseMetrics
  cases a.segments with
  | none => exact hd
  | some s => exact segLoop_good _ _ _ _ hd

theorem leaves_ne {β : Type} (t : MTree β) : ∃ a, a ∈ t.leaves := by
  induction t with
  | leaf a => exact ⟨a, by simp [MTree.leaves]⟩
  | node l r ihl ihr => obtain ⟨a, ha⟩ := ihl; exact ⟨a, by simp [MTree.leaves, ha]⟩

theorem tree_shape (devices : Nat) (t : MTree (Args K)) (hg : ∀ a ∈ t.leaves, Good a) (hal : Alike t) :
    ∃ S : List (Str × MSort), (∀ e ∈ S, e.2 ≠ .bad) ∧ ∀ a ∈ t.leaves, shape (baseMetrics devices a) = S := by
  obtain ⟨b, hb⟩ := leaves_ne t
  refine ⟨shape (baseMetrics devices b), base_good devices b, fun a ha => ?_⟩
  obtain ⟨h1, h2, h3⟩ := hal a ha b hb
  exact base_shape devices a b (hg a ha) (hg b hb) h1 h2 h3

/-- **C77.** However the pieces of a period (the microbatches and steps, of all hosts) are merged, what is reported is: for the accuracy the right
predictions among the positions with weight; for the loss the total loss per step, per weight and per token; the sequences and tokens per second; the
steps per second; and the weight per token. -/
theorem C77_report (devices : Nat) (t : MTree (Args K)) (hg : ∀ a ∈ t.leaves, Good a) (hal : Alike t) (dur : K) (n : Nat) :
    let R := Reports (baseMetrics devices) t dur n
    R "accuracy".toList (total t correct / total t unmasked) ∧
    R "loss".toList (total t Args.loss / n) ∧
    R "loss_per_nonpadding_target_token".toList (total t Args.loss / total t fun a => (weights a).sum) ∧
    R "loss_per_all_target_tokens".toList (total t Args.loss / total t tokens) ∧
    R "timing/seqs_per_second".toList (total t examples / dur) ∧
    R "timing/steps_per_second".toList (n / dur) ∧
    R "timing/seconds".toList dur ∧
    R "timing/seqs".toList (total t examples) ∧
    R "timing/seqs_per_second_per_core".toList (total t examples / devices / dur) ∧
    R "timing/target_tokens_per_second".toList (total t tokens / dur) ∧
    R "timing/target_tokens_per_second_per_core".toList (total t tokens / devices / dur) ∧
    R "non_padding_fraction/loss_weights".toList ((total t fun a => (weights a).sum) / total t tokens) := by
  obtain ⟨S, hS, hsh⟩ := tree_shape devices t hg hal
  have key : ∀ (k : Str) (κ : Kind) (g : Args K → Metric K) (v : K), (∀ a ∈ t.leaves, PyDict.get (common devices a) k = some (g a)) →
      (∀ a, IsKind κ (g a)) → k ∉ zKeys → ¬ "effective_batch_size/".toList <+: k →
      (("non_padding_fraction/".toList <+: k) → k = npf "loss_weights".toList) → reported κ dur n (t.leaves.map g) = v →
      Reports (baseMetrics devices) t dur n k v := by
    intro k κ g v h1 h2 h3 h4 h5 h6
    rw [← h6]
    exact reports_kind _ t S hS hsh dur n k κ g (fun a ha => get_common devices a (hg a ha) k _ (h1 a ha) h3 h4 h5) h2
  have hdiv : ∀ (f : Args K → K) (l : List (Args K)), (l.map fun a => f a / (devices : K)).sum = (l.map f).sum / devices := by
    intro f l
    induction l with
    | nil => simp
    | cons a l ih => simp only [List.map_cons, List.sum_cons, ih, add_div]
  have htok : ∀ a : Args K, ((size a.targets : Nat) : K) = tokens a := fun a => by rw [size_eq]; rfl
  have hex : ∀ a : Args K, ((a.numExamples : Nat) : K) = examples a := fun a => rfl
  refine ⟨?_, ?_, ?_, ?_, ?_, ?_, ?_, ?_, ?_, ?_, ?_, ?_⟩
  · refine key _ .average (fun a => .average (correct a) (unmasked a)) _ (fun a ha => ?_) (fun _ => trivial) (by decide) (by decide) (by decide) ?_
    · rw [← accuracy_eq a (hg a ha)]; rfl
    · simp only [reported, List.map_map, Function.comp_def, amount, weight, total]
  · refine key _ .avgStep (fun a => .avgStep a.loss 1) _ (fun a ha => rfl) (fun _ => trivial) (by decide) (by decide) (by decide) ?_
    simp only [reported, List.map_map, Function.comp_def, amount, total]
  · refine key _ .average (fun a => .average a.loss (weights a).sum) _ (fun a ha => ?_) (fun _ => trivial) (by decide) (by decide) (by decide) ?_
    · rw [← nonpadding_eq a]; rfl
    · simp only [reported, List.map_map, Function.comp_def, amount, weight, total]
  · refine key _ .average (fun a => .average a.loss (tokens a)) _ (fun a ha => ?_) (fun _ => trivial) (by decide) (by decide) (by decide) ?_
    · rw [← htok]; rfl
    · simp only [reported, List.map_map, Function.comp_def, amount, weight, total]
  · refine key _ .timeRate (fun a => .timeRate (examples a) none) _ (fun a ha => rfl) (fun _ => trivial) (by decide) (by decide) (by decide) ?_
    simp only [reported, List.map_map, Function.comp_def, amount, total]
  · exact key _ .stepsPerTime (fun a => .stepsPerTime 1 none) _ (fun a ha => rfl) (fun _ => trivial) (by decide) (by decide) (by decide) rfl
  · refine reports_time _ t S hS hsh dur n _ fun a ha => get_common devices a (hg a ha) _ _ rfl (by decide) (by decide) (by decide)
  · refine key _ .sum (fun a => .sum (examples a)) _ (fun a ha => rfl) (fun _ => trivial) (by decide) (by decide) (by decide) ?_
    simp only [reported, List.map_map, Function.comp_def, amount, total]
  · refine key _ .timeRate (fun a => .timeRate (examples a / devices) none) _ (fun a ha => rfl) (fun _ => trivial) (by decide) (by decide) (by decide) ?_
    simp only [reported, List.map_map, Function.comp_def, amount, total, hdiv]
  · refine key _ .timeRate (fun a => .timeRate (tokens a) none) _ (fun a ha => ?_) (fun _ => trivial) (by decide) (by decide) (by decide) ?_
    · rw [← htok]; rfl
    · simp only [reported, List.map_map, Function.comp_def, amount, total]
  · refine key _ .timeRate (fun a => .timeRate (tokens a / devices) none) _ (fun a ha => ?_) (fun _ => trivial) (by decide) (by decide) (by decide) ?_
    · rw [← htok]; rfl
    · simp only [reported, List.map_map, Function.comp_def, amount, total, hdiv]
  · refine key _ .average (fun a => .average (weights a).sum (tokens a)) _ (fun a ha => ?_) (fun _ => trivial) (by decide) (by decide) (fun _ => rfl) ?_
    · rw [← nonpadding_eq a, ← htok]; rfl
    · simp only [reported, List.map_map, Function.comp_def, amount, weight, total]

/-- **C77.** With a z-loss it is reported per step and per token, and the cross entropy is the loss without it. -/
theorem C77_z (devices : Nat) (t : MTree (Args K)) (hg : ∀ a ∈ t.leaves, Good a) (hal : Alike t) (dur : K) (n : Nat) (z : Args K → K)
    (hz : ∀ a ∈ t.leaves, a.zLoss = some (z a)) :
    let R := Reports (baseMetrics devices) t dur n
    R "z_loss".toList (total t z / n) ∧
    R "z_loss_per_all_target_tokens".toList (total t z / total t tokens) ∧
    R "cross_ent_loss".toList ((total t Args.loss - total t z) / n) ∧
    R "cross_ent_loss_per_all_target_tokens".toList ((total t Args.loss - total t z) / total t tokens) := by
  obtain ⟨S, hS, hsh⟩ := tree_shape devices t hg hal
  have hsub : ∀ l : List (Args K), (l.map fun a => a.loss - z a).sum = (l.map Args.loss).sum - (l.map z).sum := by
    intro l
    induction l with
    | nil => simp
    | cons a l ih => simp only [List.map_cons, List.sum_cons, ih]; ring
  have htok : ∀ a : Args K, ((size a.targets : Nat) : K) = tokens a := fun a => by rw [size_eq]; rfl
  have key : ∀ (k : Str) (κ : Kind) (g : Args K → Metric K) (v : K), (∀ a ∈ t.leaves, PyDict.get (zPart a) k = some (g a)) →
      (∀ a, IsKind κ (g a)) → k ∈ zKeys → reported κ dur n (t.leaves.map g) = v → Reports (baseMetrics devices) t dur n k v := by
    intro k κ g v h1 h2 h3 h6
    rw [← h6]
    exact reports_kind _ t S hS hsh dur n k κ g (fun a ha => get_z devices a k _ (h1 a ha) h3) h2
  refine ⟨?_, ?_, ?_, ?_⟩
  · refine key _ .avgStep (fun a => .avgStep (z a) 1) _ (fun a ha => ?_) (fun _ => trivial) (by decide) ?_
    · unfold zPart; rw [hz a ha]; rfl
    · simp only [reported, List.map_map, Function.comp_def, amount, total]
  · refine key _ .average (fun a => .average (z a) (tokens a)) _ (fun a ha => ?_) (fun _ => trivial) (by decide) ?_
    · unfold zPart; rw [hz a ha, ← htok]; rfl
    · simp only [reported, List.map_map, Function.comp_def, amount, weight, total]
  · refine key _ .avgStep (fun a => .avgStep (a.loss - z a) 1) _ (fun a ha => ?_) (fun _ => trivial) (by decide) ?_
    · unfold zPart; rw [hz a ha]; rfl
    · simp only [reported, List.map_map, Function.comp_def, amount, total, hsub]
  · refine key _ .average (fun a => .average (a.loss - z a) (tokens a)) _ (fun a ha => ?_) (fun _ => trivial) (by decide) ?_
    · unfold zPart; rw [hz a ha, ← htok]; rfl
    · simp only [reported, List.map_map, Function.comp_def, amount, weight, total, hsub]

/-- **C77.** For every feature with segment ids: the packed sequences per step, the part that is not padding, and that part over all features. -/
theorem C77_features (devices : Nat) (t : MTree (Args K)) (hg : ∀ a ∈ t.leaves, Good a) (hal : Alike t) (dur : K) (n : Nat)
    (hs : ∀ a ∈ t.leaves, a.segments.isSome) :
    (∀ f, (∀ a ∈ t.leaves, f ∈ (features a).map Prod.fst) →
      Reports (baseMetrics devices) t dur n ("non_padding_fraction/".toList ++ f)
        ((total t fun a => filled (feature f a)) / total t fun a => entries (feature f a)) ∧
      ∀ c : Args K → Nat, (∀ a ∈ t.leaves, Holds (feature f a) (c a)) →
        Reports (baseMetrics devices) t dur n ("effective_batch_size/".toList ++ f) ((total t fun a => (c a : K)) / n)) ∧
    Reports (baseMetrics devices) t dur n "non_padding_fraction/overall".toList
      ((total t fun a => ((features a).map fun e => filled e.2).sum) / total t fun a => ((features a).map fun e => entries e.2).sum) := by
  obtain ⟨S, hS, hsh⟩ := tree_shape devices t hg hal
  refine ⟨fun f hf => ⟨?_, fun c hc => ?_⟩, ?_⟩
  · have := reports_kind _ t S hS hsh dur n (npf f) .average (fun a => .average (filled (feature f a)) (entries (feature f a))) (fun a ha => by
      rw [(get_feature devices a (hg a ha) f (hf a ha)).2, nonzero_eq, size_eq]; rfl) (fun _ => trivial)
    simp only [reported, List.map_map, Function.comp_def, amount, weight] at this
    exact this
  · have := reports_kind _ t S hS hsh dur n (ebs f) .avgStep (fun a => .avgStep (c a : K) 1) (fun a ha => by
      obtain ⟨R, hR1, hR2, hR3, hR4⟩ := hc a ha
      rw [(get_feature devices a (hg a ha) f (hf a ha)).1, hR1, (LossWeights.C16_count R hR2 hR3).1, hR4]
      push_cast
      rfl) (fun _ => trivial)
    simp only [reported, List.map_map, Function.comp_def, amount] at this
    exact this
  · have := reports_kind _ t S hS hsh dur n (npf "overall".toList) .average (fun a => .average (((features a).map fun e => (filled e.2 : K)).sum)
      (((features a).map fun e => (entries e.2 : K)).sum)) (fun a ha => get_overall devices a (hg a ha) (hs a ha)) (fun _ => trivial)
    simp only [reported, List.map_map, Function.comp_def, amount, weight] at this
    exact this

/-- **C77.** A batch without segment ids: the effective batch size counts the rows that hold any token, for tokens followed by padding. -/
theorem C77_unpacked (batch : List (Str × List (List ℤ))) (hno : ∀ e ∈ batch, ¬ "_segment_ids".toList <:+ e.1) (k : Str) (rows : List (List ℤ))
    (hk : k = "encoder_input_tokens".toList ∨ k = "decoder_target_tokens".toList) (hm : (k, rows) ∈ batch) (hne : ∀ r ∈ rows, r ≠ [])
    (hpad : ∀ r ∈ rows, ∃ (x : List ℤ) (p : Nat), r = x ++ List.replicate p 0 ∧ ∀ y ∈ x, y ≠ 0) :
    ∃ ids, (k, some ids) ∈ segmentIds batch ∧ Holds ids (rows.countP fun r => decide (∃ y ∈ r, y ≠ 0)) ∧
      (filled ids : K) = filled rows ∧ (entries ids : K) = entries rows := by
  have hempty : (batch.filterMap fun e => (stripSuffix e.1).map fun f => (f, some e.2)) = [] := by
    rw [List.filterMap_eq_nil_iff]
    intro e he
    unfold stripSuffix
    rw [if_neg (fun h => hno e he (List.isSuffixOf_iff_suffix.1 h))]
    rfl
  refine ⟨rows.map fun r => r.map fun t => if t ≠ 0 then (1 : ℤ) else 0, ?_, ?_, ?_, ?_⟩
  · unfold segmentIds
    dsimp only
    rw [hempty]
    refine List.mem_map.2 ?_
    exact ⟨(k, rows), List.mem_filter.2 ⟨hm, decide_eq_true hk⟩, rfl⟩
  · clear hm
    induction rows with
    | nil => exact ⟨[], rfl, by simp, by simp, rfl⟩
    | cons r rows ih =>
      obtain ⟨R, h1, h2, h3, h4⟩ := ih (fun r hr => hne r (List.mem_cons_of_mem _ hr)) (fun r hr => hpad r (List.mem_cons_of_mem _ hr))
      obtain ⟨x, p, rfl, hx⟩ := hpad r List.mem_cons_self
      have hids : (x ++ List.replicate p 0).map (fun t => if t ≠ 0 then (1 : ℤ) else 0) = List.replicate x.length 1 ++ List.replicate p 0 := by
        rw [List.map_append, List.map_replicate]
        congr 1
        rw [List.eq_replicate_iff]
        refine ⟨by simp, fun b hb => ?_⟩
        obtain ⟨y, hy, rfl⟩ := List.mem_map.1 hb
        rw [if_pos (hx y hy)]
      have hr : x ++ List.replicate p 0 ≠ [] := hne _ List.mem_cons_self
      cases x with
      | nil =>
        have hrow : LossWeights.Spec.rowIds ([] : List (LossWeights.Spec.Seq ℚ)) (List.replicate p 0) = List.replicate p 0 := by
          simp [LossWeights.Spec.rowIds]
        refine ⟨⟨[], List.replicate p 0⟩ :: R, ?_, ?_, ?_, ?_⟩
        · rw [List.map_cons, List.map_cons, ← h1, hids, hrow]; rfl
        · intro r' hr'
          rcases List.mem_cons.1 hr' with rfl | hr'
          · rw [hrow]; simpa using hr
          · exact h2 r' hr'
        · intro r' hr'
          rcases List.mem_cons.1 hr' with rfl | hr'
          · exact ⟨fun s hs => (by cases hs), List.nodup_nil⟩
          · exact h3 r' hr'
        · rw [List.countP_cons_of_neg (by simp), List.flatMap_cons, h4]; rfl
      | cons y x =>
        have hrow : LossWeights.Spec.rowIds [(⟨1, List.replicate (x.length + 1) 0⟩ : LossWeights.Spec.Seq ℚ)] (List.replicate p 0) =
            List.replicate (x.length + 1) 1 ++ List.replicate p 0 := by
          simp [LossWeights.Spec.rowIds]
        refine ⟨⟨[⟨1, List.replicate (x.length + 1) 0⟩], List.replicate p 0⟩ :: R, ?_, ?_, ?_, ?_⟩
        · rw [List.map_cons, List.map_cons, ← h1, hids, hrow]; rfl
        · intro r' hr'
          rcases List.mem_cons.1 hr' with rfl | hr'
          · rw [hrow]; simp [List.replicate_succ]
          · exact h2 r' hr'
        · intro r' hr'
          rcases List.mem_cons.1 hr' with rfl | hr'
          · exact ⟨fun s hs => (by rw [List.mem_singleton] at hs; subst hs; exact ⟨by simp [List.replicate_succ], one_ne_zero⟩), by simp⟩
          · exact h3 r' hr'
        · have hy : y ≠ 0 := hx y List.mem_cons_self
          rw [List.countP_cons_of_pos (by simp [hy]), List.flatMap_cons, h4, List.length_append]
          simp [Nat.add_comm]
  · unfold filled
    rw [List.map_map]
    refine congrArg _ (congrArg List.sum (List.map_congr_left fun r _ => ?_))
    rw [Function.comp_apply, List.countP_map]
    refine List.countP_congr fun y _ => ?_
    by_cases hy : y = 0 <;> simp [hy]
  · unfold entries
    rw [List.map_map]
    refine congrArg _ (congrArg List.sum (List.map_congr_left fun r _ => ?_))
    simp

/-- **C77, finding.** With the weights of AVERAGE_PER_SEQUENCE the "number of non-padding tokens" is the number of sequences, so that the reported
loss per non-padding token is a loss per sequence, and the reported fraction of loss weights does not depend on the padding. -/
theorem C77_average_per_sequence (b : LossWeights.Batch K) (hb : b.packed = none) (w : List (List K)) (hw : b.weights = some w)
    (hpos : ∀ r ∈ w, r.sum ≠ 0) (a : Args K) (lnf : Option K)
    (ha : LossWeights.lnfAndWeights (.special .averagePerSequence) b = some (lnf, a.mask)) :
    (weights a).sum = (w.length : Nat) := by
  simp only [LossWeights.lnfAndWeights, hb, hw, Option.some.injEq, Prod.mk.injEq] at ha
  unfold weights
  rw [← ha.2]
  simp only [Option.elim]
  clear ha hw
  induction w with
  | nil => simp
  | cons r w ih =>
    have hr := hpos r List.mem_cons_self
    have hrow : (r.map fun x => LossWeights.safeDiv x r.sum).sum = 1 := by
      have hd : ∀ (l : List K) (c : K), c ≠ 0 → (l.map fun x => LossWeights.safeDiv x c).sum = l.sum / c := by
        intro l c hc
        induction l with
        | nil => simp
        | cons x l ih => rw [List.map_cons, List.sum_cons, ih, List.sum_cons, add_div, LossWeights.safeDiv, if_neg hc]
      rw [hd r _ hr, div_self hr]
    rw [List.map_cons, List.flatten_cons, List.sum_append, hrow, ih (fun r hr => hpos r (List.mem_cons_of_mem _ hr)), List.length_cons]
    push_cast
    ring

/-! Two microbatches of one step. -/

def exArgs (c : ℤ) : Args ℚ :=
  ⟨[[[1, 3], [5, 2]]], [[1, c]], some [[1, 1]], 6, some 2, some [("decoder".toList, some [[1, 2]]), ("encoder".toList, none)]⟩

theorem exGood (c : ℤ) : Good (exArgs c) := by
  refine ⟨rfl, ?_, ?_, ?_, ?_, ?_⟩
  · simp [exArgs]
  · intro m hm; cases hm; rfl
  · intro segs hs f rows hm
    cases hs
    simp only [List.mem_cons, Prod.mk.injEq, Option.some.injEq, reduceCtorEq, and_false, List.not_mem_nil, or_false] at hm
    rw [hm.2]
    intro r hr r' hr'
    rw [List.mem_singleton.1 hr, List.mem_singleton.1 hr']
  · exact (by decide : (["decoder".toList, "encoder".toList] : List Str).Nodup)
  · exact (by decide : "loss_weights".toList ∉ (["decoder".toList, "encoder".toList] : List Str) ∧
      "overall".toList ∉ (["decoder".toList, "encoder".toList] : List Str))

example : Alike (.node (.leaf (exArgs 0)) (.leaf (exArgs 1))) := by
  intro a ha b hb
  simp only [MTree.leaves, List.mem_append, List.mem_singleton] at ha hb
  rcases ha with rfl | rfl <;> rcases hb with rfl | rfl <;> exact ⟨rfl, rfl, rfl⟩
example : "decoder".toList ∈ (features (exArgs 0)).map Prod.fst := by decide
example : Holds (feature "decoder".toList (exArgs 0)) 2 :=
  ⟨[⟨[⟨1, [0]⟩, ⟨2, [0]⟩], []⟩], rfl, by decide, by decide, rfl⟩
example : Predicts ([1, 3] : List ℚ) 1 ∧ ¬ Predicts ([5, 2] : List ℚ) 1 :=
  ⟨(argmax_spec _ (by decide) _).1 (by decide), fun h => absurd ((argmax_spec _ (by decide) _).2 h) (by decide)⟩

end Verif.BaseMetrics
