import Verif.Spec.PackedTrain
import Verif.Props.PackedLoss
import Verif.Props.MicroLoss
/-
C118: training on packed batches is training on padded batches.
-/
namespace Verif.PackedTrain
open Verif.Masks Verif.Transformer Verif.Transformer.Spec Verif.PackedLoss Verif.PackedLoss.Spec Verif.MicroLoss Verif.MicroLoss.Spec Verif.PackedTrain.Spec

/-! ### The loss of a dict of features -/

theorem mapM_congr₂ {α β γ : Type} {f : α → Option γ} {g : β → Option γ} {as : List α} {bs : List β} (h : List.Forall₂ (fun a b => f a = g b) as bs) :
    as.mapM f = bs.mapM g := by
  induction h with
  | nil => rfl
  | cons h _ ih => simp only [List.mapM_cons, h, ih]

theorem map_congr₂ {α β γ : Type} {f : α → γ} {g : β → γ} {as : List α} {bs : List β} (h : List.Forall₂ (fun a b => f a = g b) as bs) : as.map f = bs.map g := by
  induction h with
  | nil => rfl
  | cons h _ ih => simp only [List.map_cons, h, ih]

theorem lossFn_congr {n m V : Nat} {L : TrainRow n m → Option (Fin n → Vec V)} {t t' : TrainBatch n m} (hp : t.packed = t'.packed) (hw : t.weighted = t'.weighted)
    (hr : List.Forall₂ (Agree t'.packed t'.weighted) t.rows t'.rows) (hL : ∀ r r', Agree t'.packed t'.weighted r r' → L r = L r') (lnf : LossWeights.LNF ℝ)
    (smoothing z : ℝ) : lossFn L lnf smoothing z t = lossFn L lnf smoothing z t' := by
  have hf : lossFeatures t = lossFeatures t' := by
    unfold lossFeatures
    rw [map_congr₂ (hr.imp fun r r' h => by rw [h.targets]), hp, hw]
    congr 1
    · cases h : t'.weighted with
      | false => rfl
      | true =>
        simp only [if_true]
        rw [map_congr₂ (hr.imp fun r r' ha => by rw [ha.weights h])]
    · cases h : t'.packed with
      | false => rfl
      | true =>
        simp only [if_true]
        rw [map_congr₂ (hr.imp fun r r' ha => by rw [ha.decSeg h]), map_congr₂ (hr.imp fun r r' ha => by rw [ha.positions h])]
  have hz : ∀ ys : List (Fin n → Vec V),
      List.zipWith (fun (y : Fin n → Vec V) (r : TrainRow n m) => List.ofFn fun i => position smoothing z (y i) (r.decTargets i)) ys t.rows =
      List.zipWith (fun (y : Fin n → Vec V) (r : TrainRow n m) => List.ofFn fun i => position smoothing z (y i) (r.decTargets i)) ys t'.rows := by
    intro ys
    revert ys
    generalize t.rows = rs at hr
    generalize t'.rows = rs' at hr
    induction hr with
    | nil => intro ys; rfl
    | cons h _ ih =>
      intro ys
      cases ys with
      | nil => rfl
      | cons y ys => simp only [List.zipWith_cons_cons, h.targets, ih ys]
  unfold lossFn
  rw [mapM_congr₂ (hr.imp fun r r' h => hL r r' h), hf]
  simp only [hz]

theorem lossOf_carries {P : Type} {n m V : Nat} {c : MicroLoss.Cfg P n m V} {b : Train.Batch Cells} {t : TrainBatch n m} (hb : Carries b t) (q : P)
    (hL : ∀ r r', Agree t.packed t.weighted r r' → c.logits q t.packed r = c.logits q t.packed r') {v : ℝ × ℝ × ℝ}
    (h : lossFn (c.logits q t.packed) c.lnf c.smoothing c.z t = some v) : lossOf c b q = (v.1, v.2.1) := by
  have e : lossFn (c.logits q t.packed) c.lnf c.smoothing c.z (toTrainBatch n m b) = some v := by
    rw [lossFn_congr (t := toTrainBatch n m b) (t' := t) hb.packed hb.weighted hb.rows hL, h]
  have hp : (toTrainBatch n m b).packed = t.packed := hb.packed
  simp only [lossOf, hp, e, Option.getD_some]

theorem exampleAt_features {n m : Nat} (t : TrainBatch n m) (i : Nat) (hi : i < t.rows.length) :
    Train.Spec.exampleAt (features t) i =
      [("encoder_input_tokens".toList, some (.ints (List.ofFn t.rows[i].encTokens))), ("decoder_input_tokens".toList, some (.ints (List.ofFn t.rows[i].decInputs))),
       ("decoder_target_tokens".toList, some (.ints (List.ofFn t.rows[i].decTargets))), ("decoder_causal_attention".toList, some (.ints (List.ofFn t.rows[i].causal)))] ++
      ((if t.weighted then [("decoder_loss_weights".toList, some (.reals (List.ofFn t.rows[i].weights)))] else []) ++
      (if t.packed then [("encoder_segment_ids".toList, some (.ints (List.ofFn t.rows[i].encSeg))), ("decoder_segment_ids".toList, some (.ints (List.ofFn t.rows[i].decSeg))),
        ("decoder_positions".toList, some (.ints (List.ofFn fun j => (t.rows[i].positions j : ℤ))))] else [])) := by
  have e : ∀ (f : TrainRow n m → Cells), (t.rows.map f)[i]? = some (f t.rows[i]) := by
    intro f
    rw [List.getElem?_map, List.getElem?_eq_getElem hi]
    rfl
  unfold Train.Spec.exampleAt features
  cases t.packed <;> cases t.weighted <;> simp only [Bool.false_eq_true, if_true, if_false, List.map_append, List.map_cons, List.map_nil, e]

/-- **C118.** Every batch is given by a dict of features. -/
theorem C118_features {n m : Nat} (t : TrainBatch n m) : Carries (features t) t := by
  have ho : ∀ {k : Nat} (f : Fin k → ℤ) (i : Fin k), (List.ofFn f).getD i 0 = f i := by
    intro k f i
    rw [List.getD_eq_getElem _ _ (by simp)]
    simp
  have hw : ∀ {k : Nat} (f : Fin k → ℝ) (i : Fin k), (List.ofFn f).getD i 0 = f i := by
    intro k f i
    rw [List.getD_eq_getElem _ _ (by simp)]
    simp
  refine ⟨⟨List.cons_ne_nil _ _, ?_⟩, ?_, ?_, ?_⟩
  · unfold features
    cases t.packed <;> cases t.weighted <;>
      simp only [Bool.false_eq_true, if_true, if_false, List.cons_append, List.nil_append, List.append_nil, List.forall_mem_cons, List.length_map, true_and] <;>
      exact fun _ h => (List.not_mem_nil h).elim
  · unfold features has
    cases t.packed <;> cases t.weighted <;> simp only [Bool.false_eq_true, if_true, if_false, List.cons_append, List.nil_append, List.append_nil, List.any_cons, List.any_nil] <;>
      rfl
  · unfold features has
    cases t.packed <;> cases t.weighted <;> simp only [Bool.false_eq_true, if_true, if_false, List.cons_append, List.nil_append, List.append_nil, List.any_cons, List.any_nil] <;>
      rfl
  · have hb : batchSize (features t) = t.rows.length := by simp only [features, batchSize, List.cons_append, List.length_map]
    unfold rowsOf toTrainBatch
    dsimp only
    rw [hb]
    rw [List.forall₂_iff_get]
    refine ⟨by rw [List.length_map, Train.Spec.examples, List.length_map, List.length_range], fun i h1 h2 => ?_⟩
    simp only [List.get_eq_getElem, Train.Spec.examples, List.getElem_map, List.getElem_range]
    rw [exampleAt_features t i h2]
    constructor
    · funext j; exact ho _ j
    · funext j; exact ho _ j
    · funext j; exact ho _ j
    · funext j; exact ho _ j
    · intro h
      rw [h]
      funext j; exact hw _ j
    all_goals
      intro h
      rw [h]
      cases t.weighted <;> funext j
    · exact ho _ j
    · exact ho _ j
    · exact ho _ j
    · exact ho _ j
    · exact congrArg Int.toNat (ho (fun j => (t.rows[i].positions j : ℤ)) j)
    · exact congrArg Int.toNat (ho (fun j => (t.rows[i].positions j : ℤ)) j)

/-! ### Equal runs -/

theorem loop_congr {S Bt M : Type} {step step' : S → Bt → Except Train.Err (S × M)} {add : Option M → M → Except Train.Err M} :
    ∀ (N : Nat) (s : S) (m : Option M) (bs bs' : List Bt), bs.length = bs'.length →
      (∀ k s' b b', Train.Spec.run step' s (bs'.take k) = .ok s' → bs[k]? = some b → bs'[k]? = some b' → step s' b = step' s' b') →
      (Train.trainLoop step add N s m bs).2 = (Train.trainLoop step' add N s m bs').2 := by
  intro N
  induction N with
  | zero => intro s m bs bs' _ _; rfl
  | succ N ih =>
    intro s m bs bs' hl h
    cases bs with
    | nil =>
      cases bs' with
      | nil => rfl
      | cons b' bs' => simp at hl
    | cons b bs =>
      cases bs' with
      | nil => simp at hl
      | cons b' bs' =>
        have h0 := h 0 s b b' rfl rfl rfl
        simp only [Train.trainLoop, h0]
        cases hs : step' s b' with
        | error e => rfl
        | ok r =>
          obtain ⟨s1, u⟩ := r
          dsimp only
          cases ha : add m u with
          | error e => rfl
          | ok m1 =>
            dsimp only
            refine ih s1 (some m1) bs bs' (by simpa using hl) fun k s' c c' hr hc hc' => h (k + 1) s' c c' ?_ hc hc'
            simp only [List.take_succ_cons, Train.Spec.run, hs]
            exact hr

theorem train_congr {S Bt M : Type} {step step' : S → Bt → Except Train.Err (S × M)} {add : Option M → M → Except Train.Err M} {stepOf : S → Nat}
    (N : Nat) (s : S) (bs bs' : List Bt) (start : Option Nat) (hl : bs.length = bs'.length)
    (h : ∀ k s' b b', Train.Spec.run step' s (bs'.take k) = .ok s' → bs[k]? = some b → bs'[k]? = some b' → step s' b = step' s' b') :
    (Train.train step add stepOf s bs N start).1 = (Train.train step' add stepOf s bs' N start).1 ∧
      (Train.train step add stepOf s bs N start).2.2 = (Train.train step' add stepOf s bs' N start).2.2 := by
  have e := loop_congr (add := add) N s none bs bs' hl h
  unfold Train.train
  dsimp only
  rw [e]
  cases (Train.trainLoop step' add N s none bs').2 with
  | error e => exact ⟨rfl, rfl⟩
  | ok r => exact ⟨rfl, rfl⟩

theorem run_congr {S Bt M : Type} {step step' : S → Bt → Except Train.Err (S × M)} :
    ∀ (s : S) (bs bs' : List Bt), bs.length = bs'.length →
      (∀ k s' b b', Train.Spec.run step' s (bs'.take k) = .ok s' → bs[k]? = some b → bs'[k]? = some b' →
        ∃ s'' u u', step s' b = .ok (s'', u) ∧ step' s' b' = .ok (s'', u')) →
      ∃ s', Train.Spec.run step s bs = .ok s' ∧ Train.Spec.run step' s bs' = .ok s' := by
  intro s bs
  induction bs generalizing s with
  | nil =>
    intro bs' hl _
    cases bs' with
    | nil => exact ⟨s, rfl, rfl⟩
    | cons b' bs' => simp at hl
  | cons b bs ih =>
    intro bs' hl h
    cases bs' with
    | nil => simp at hl
    | cons b' bs' =>
      obtain ⟨s1, u, u', e1, e2⟩ := h 0 s b b' rfl rfl rfl
      simp only [Train.Spec.run, e1, e2]
      refine ih s1 bs' (by simpa using hl) fun k s' c c' hr hc hc' => h (k + 1) s' c c' ?_ hc hc'
      simp only [List.take_succ_cons, Train.Spec.run, e2]
      exact hr

section
variable {P O R : Type} [NormedAddCommGroup P] [NormedSpace ℝ P] {n m n' m' V : Nat}

theorem accumulate_small (split : R → R × R) (f : Train.LossGrad ℝ P (P →L[ℝ] ℝ) Unit R Cells) (p : P) (mu : Option Unit) (b : Train.Batch Cells) (rng : R) (k : Nat)
    (hk : k ≤ 1) : Train.accumulate split f p mu b rng (some k) = Train.accumulate split f p mu b rng none := by
  cases b with
  | nil => rfl
  | cons e b => simp only [Train.accumulate, hk, if_true]

theorem microLoop_mutables (A : MicroLoss.Cfg P n m V) (split : R → R × R) (p : P) (b : Train.Batch Cells) (size : Nat) :
    ∀ (N i : Nat) (rng : R) (a a' : Train.Accum ℝ (P →L[ℝ] ℝ) Unit), Train.microLoop split (lossGrad A) p b size N i rng a = .ok a' → a'.mutables = a.mutables := by
  intro N
  induction N with
  | zero => intro i rng a a' h; cases h; rfl
  | succ N ih =>
    intro i rng a a' h
    simp only [Train.microLoop] at h
    cases hs : Train.microStep split (lossGrad A) p b size rng i a with
    | error e => simp only [hs] at h; cases h
    | ok r =>
      obtain ⟨rng', a1⟩ := r
      simp only [hs] at h
      rw [ih _ _ _ _ h]
      unfold Train.microStep at hs
      split at hs
      · cases hs
      · dsimp only [lossGrad] at hs
        split at hs
        · cases hs; rfl
        · split at hs
          · cases hs; rfl
          · cases hs

theorem accumulate_mutables (A : MicroLoss.Cfg P n m V) (split : R → R × R) (p : P) (mu : Option Unit) (b : Train.Batch Cells) (rng : R) (k : Option Nat)
    (a : Train.Accum ℝ (P →L[ℝ] ℝ) Unit) (h : Train.accumulate split (lossGrad A) p mu b rng k = .ok a) : a.mutables = mu := by
  cases b with
  | nil => cases h
  | cons e b =>
    cases k with
    | none => cases h; rfl
    | some k =>
      simp only [Train.accumulate] at h
      split_ifs at h
      · cases h; rfl
      · exact microLoop_mutables A _ _ _ _ _ _ _ _ _ h

theorem step_congr (c : Train.Cfg ℝ P (P →L[ℝ] ℝ) O Unit R Cells) (hm : c.microbatches = none) (A : MicroLoss.Cfg P n m V) (A' : MicroLoss.Cfg P n' m' V)
    (s : Train.State P O Unit) {b b' : Train.Batch Cells} (hb : b ≠ []) (hb' : b' ≠ []) (h : ∀ᶠ q in nhds s.params, lossOf A b q = lossOf A' b' q) :
    Train.trainStep { c with lossGrad := lossGrad A } s b = Train.trainStep { c with lossGrad := lossGrad A' } s b' := by
  have hg : ∀ (r : R) (mu : Option Unit), (lossGrad A : Train.LossGrad ℝ P (P →L[ℝ] ℝ) Unit R Cells) s.params b r mu = lossGrad A' s.params b' r mu := by
    intro r mu
    unfold lossGrad
    rw [h.self_of_nhds, Filter.EventuallyEq.fderiv_eq (h.mono fun q hq => by beta_reduce; rw [hq] : (fun q => (lossOf A b q).1) =ᶠ[nhds s.params] fun q => (lossOf A' b' q).1)]
  obtain ⟨e, b, rfl⟩ := List.exists_cons_of_ne_nil hb
  obtain ⟨e', b', rfl⟩ := List.exists_cons_of_ne_nil hb'
  unfold Train.trainStep
  dsimp only
  have ha : ∀ r : R, Train.accumulate c.split (lossGrad A) s.params s.mutables (e :: b) r none =
      Train.accumulate c.split (lossGrad A') s.params s.mutables (e' :: b') r none := by
    intro r
    simp only [Train.accumulate, hg]
  rw [hm, ha]
  rfl

end

section
variable {P O R : Type} [NormedAddCommGroup P] [NormedSpace ℝ P] {n m n' m' V : Nat}

/-- `k` microbatches lead to the state of one batch. -/
theorem step_micro (c : Train.Cfg ℝ P (P →L[ℝ] ℝ) O Unit R Cells) (A : MicroLoss.Cfg P n m V) (hc : A.lnf = .none ∨ ∃ x, A.lnf = .const x)
    (s : Train.State P O Unit) (hmu : s.mutables = none) (b : Train.Batch Cells) (B k : Nat) (hb : Train.Spec.Rect b B) (hd : k ∣ B)
    (hY : ∃ Y, Smooth A Y b s.params) :
    ∃ s' u u', Train.trainStep { c with lossGrad := lossGrad A, microbatches := some k } s b = .ok (s', u) ∧
      Train.trainStep { c with lossGrad := lossGrad A, microbatches := none } s b = .ok (s', u') := by
  obtain ⟨Y, hY⟩ := hY
  have key : ∃ a1 ak, Train.accumulate c.split (lossGrad A) s.params none b (c.foldIn c.baseRng s.step) none = .ok a1 ∧
      Train.accumulate c.split (lossGrad A) s.params none b (c.foldIn c.baseRng s.step) (some k) = .ok ak ∧ ak.grad = a1.grad := by
    by_cases hk : 1 < k
    · obtain ⟨a1, ak, h1, h2, h3, -⟩ := C104_constant c.split A hc Y s.params b B k (c.foldIn c.baseRng s.step) hb hk hd hY
      exact ⟨a1, ak, h1, h2, h3⟩
    · obtain ⟨e, b, rfl⟩ := List.exists_cons_of_ne_nil hb.1
      exact ⟨_, _, rfl, by rw [accumulate_small _ _ _ _ _ _ _ (by omega)]; rfl, rfl⟩
  obtain ⟨a1, ak, h1, h2, h3⟩ := key
  have m1 := accumulate_mutables A _ _ _ _ _ _ _ h1
  have m2 := accumulate_mutables A _ _ _ _ _ _ _ h2
  unfold Train.trainStep
  dsimp only
  rw [hmu, h1, h2]
  dsimp only
  rw [h3, m1, m2]
  exact ⟨_, _, _, rfl, rfl⟩

theorem run_mutables (c : Train.Cfg ℝ P (P →L[ℝ] ℝ) O Unit R Cells) (A : MicroLoss.Cfg P n m V) :
    ∀ (bs : List (Train.Batch Cells)) (s s' : Train.State P O Unit), Train.Spec.run (Train.trainStep { c with lossGrad := lossGrad A }) s bs = .ok s' →
      s'.mutables = s.mutables := by
  intro bs
  induction bs with
  | nil => intro s s' h; cases h; rfl
  | cons b bs ih =>
    intro s s' h
    simp only [Train.Spec.run] at h
    cases hs : Train.trainStep { c with lossGrad := lossGrad A } s b with
    | error e => simp only [hs] at h; cases h
    | ok r =>
      obtain ⟨s1, u⟩ := r
      simp only [hs] at h
      rw [ih s1 s' h]
      unfold Train.trainStep at hs
      split at hs
      · cases hs
      · rename_i a ha
        cases hs
        exact accumulate_mutables A _ _ _ _ _ _ _ ha

end

/-! ### The networks -/

section EncDec
variable {P O R : Type} [NormedAddCommGroup P] [NormedSpace ℝ P] {d h e f V : Nat} {ex : ℝ → ℝ} {lg : ℕ → ℝ} {θ B : ℝ}

/-- The encoder-decoder model with the networks `nets`. -/
noncomputable def encDec (ex : ℝ → ℝ) (lg : ℕ → ℝ) (nets : P → Transformer.Net d h e f V) (lnf : LossWeights.LNF ℝ) (smoothing z : ℝ) (n m : Nat) :
    MicroLoss.Cfg P n m V :=
  ⟨fun q packed => encDecLogits ex lg (nets q) packed, lnf, smoothing, z⟩

theorem encDec_agree (net : Transformer.Net d h e f V) {n m : Nat} {packed weighted : Bool} (r r' : TrainRow n m) (h : Agree packed weighted r r') :
    encDecLogits ex lg net packed r = encDecLogits ex lg net packed r' := by
  unfold encDecLogits
  rw [h.enc, h.inputs, h.targets]
  cases packed with
  | false => rfl
  | true => rw [h.encSeg rfl, h.decSeg rfl]

/-- **C118.** Training an encoder-decoder model on batches of packed examples gives, for any number of steps, the train state and the metrics of training it
on the padded batches of the same examples.  Optimizer, schedule, weight metrics and the lengths of the rows are arbitrary. -/
theorem C118_train (hex : Underflows ex θ) (hθ : 0 < θ) (nets : P → Transformer.Net d h e f V) (c : Train.Cfg ℝ P (P →L[ℝ] ℝ) O Unit R Cells)
    (hm : c.microbatches = none) (weighted : Bool) (lnf : LossWeights.LNF ℝ) (hs : PackingSafe weighted lnf) (smoothing z : ℝ) {n m n' m' : Nat}
    (steps : List (List (List Example))) (hwf : ∀ groups ∈ steps, ∀ g ∈ groups, ∀ x ∈ g, x.WF ∧ x.HasText) (hfit : ∀ groups ∈ steps, ∀ g ∈ groups, Fits n m g)
    (hfit' : ∀ groups ∈ steps, ∀ g ∈ groups, ∀ x ∈ g, Fits n' m' [x]) (packed padded : List (Train.Batch Cells))
    (h1 : List.Forall₂ (fun b groups => Carries b (packedBatch n m weighted groups)) packed steps)
    (h2 : List.Forall₂ (fun b groups => Carries b (paddedBatch n' m' weighted groups.flatten)) padded steps) (s : Train.State P O Unit)
    (ht : ∀ k s', Train.Spec.run (Train.trainStep { c with lossGrad := lossGrad (encDec ex lg nets lnf smoothing z n' m') }) s (padded.take k) = .ok s' →
      ∀ᶠ q in nhds s'.params, Tame (nets q) θ B) (N : Nat) (start : Option Nat) :
    let onPacked := Train.train (Train.trainStep { c with lossGrad := lossGrad (encDec ex lg nets lnf smoothing z n m) }) Train.addMetrics Train.State.step s packed
      N start
    let onPadded := Train.train (Train.trainStep { c with lossGrad := lossGrad (encDec ex lg nets lnf smoothing z n' m') }) Train.addMetrics Train.State.step s
      padded N start
    onPacked.1 = onPadded.1 ∧ onPacked.2.2 = onPadded.2.2 := by
  refine train_congr N s packed padded start (h1.length_eq.trans h2.length_eq.symm) fun k s' b b' hr hb hb' => ?_
  obtain ⟨hk, rfl⟩ := List.getElem?_eq_some_iff.1 hb
  obtain ⟨hk', rfl⟩ := List.getElem?_eq_some_iff.1 hb'
  have hks : k < steps.length := h1.length_eq ▸ hk
  have c1 := h1.get hk hks
  have c2 := h2.get hk' hks
  simp only [List.get_eq_getElem] at c1 c2
  have hmem : steps[k] ∈ steps := List.getElem_mem hks
  refine step_congr c hm _ _ s' c1.rect.1 c2.rect.1 ((ht k s' hr).mono fun q hq => ?_)
  obtain ⟨v, v1, v2⟩ := C96_loss hex hθ hq (lg := lg) steps[k] (hwf _ hmem) (hfit _ hmem) (hfit' _ hmem) weighted lnf hs smoothing z
  rw [lossOf_carries c1 q (fun r r' ha => encDec_agree _ r r' ha) v1, lossOf_carries c2 q (fun r r' ha => encDec_agree _ r r' ha) v2]

/-- **C118** with accumulation of the gradients over microbatches, for a constant loss normalising factor or none: the numbers of microbatches need not be the same
for packed and padded batches.  No step fails. -/
theorem C118_microbatches (hex : Underflows ex θ) (hθ : 0 < θ) (nets : P → Transformer.Net d h e f V) (c : Train.Cfg ℝ P (P →L[ℝ] ℝ) O Unit R Cells)
    (weighted : Bool) (lnf : LossWeights.LNF ℝ) (hs : PackingSafe weighted lnf) (hc : lnf = .none ∨ ∃ x, lnf = .const x) (smoothing z : ℝ) {n m n' m' : Nat}
    (steps : List (List (List Example))) (hwf : ∀ groups ∈ steps, ∀ g ∈ groups, ∀ x ∈ g, x.WF ∧ x.HasText) (hfit : ∀ groups ∈ steps, ∀ g ∈ groups, Fits n m g)
    (hfit' : ∀ groups ∈ steps, ∀ g ∈ groups, ∀ x ∈ g, Fits n' m' [x]) (packed padded : List (Train.Batch Cells))
    (h1 : List.Forall₂ (fun b groups => Carries b (packedBatch n m weighted groups)) packed steps)
    (h2 : List.Forall₂ (fun b groups => Carries b (paddedBatch n' m' weighted groups.flatten)) padded steps) (k k' : Nat)
    (hk : ∀ groups ∈ steps, k ∣ groups.length) (hk' : ∀ groups ∈ steps, k' ∣ groups.flatten.length) (s : Train.State P O Unit) (hmu : s.mutables = none)
    (ht : ∀ j s' b b', Train.Spec.run (Train.trainStep { c with lossGrad := lossGrad (encDec ex lg nets lnf smoothing z n' m'), microbatches := some k' }) s
        (padded.take j) = .ok s' → packed[j]? = some b → padded[j]? = some b' →
      (∀ᶠ q in nhds s'.params, Tame (nets q) θ B) ∧ (∃ Y, Smooth (encDec ex lg nets lnf smoothing z n m) Y b s'.params) ∧
        ∃ Y, Smooth (encDec ex lg nets lnf smoothing z n' m') Y b' s'.params) :
    ∃ s', Train.Spec.run (Train.trainStep { c with lossGrad := lossGrad (encDec ex lg nets lnf smoothing z n m), microbatches := some k }) s packed = .ok s' ∧
      Train.Spec.run (Train.trainStep { c with lossGrad := lossGrad (encDec ex lg nets lnf smoothing z n' m'), microbatches := some k' }) s padded = .ok s' := by
  refine run_congr s packed padded (h1.length_eq.trans h2.length_eq.symm) fun j s' b b' hr hb hb' => ?_
  obtain ⟨t1, t2, t3⟩ := ht j s' b b' hr hb hb'
  obtain ⟨hj, rfl⟩ := List.getElem?_eq_some_iff.1 hb
  obtain ⟨hj', rfl⟩ := List.getElem?_eq_some_iff.1 hb'
  have hjs : j < steps.length := h1.length_eq ▸ hj
  have c1 := h1.get hj hjs
  have c2 := h2.get hj' hjs
  simp only [List.get_eq_getElem] at c1 c2
  have hmem : steps[j] ∈ steps := List.getElem_mem hjs
  have hmu' : s'.mutables = none := (run_mutables { c with microbatches := some k' } _ _ _ _ hr).trans hmu
  have r1 := c1.rect
  have r2 := c2.rect
  simp only [packedBatch, paddedBatch, List.length_map] at r1 r2
  obtain ⟨s1, u1, v1, e1, f1⟩ := step_micro c (encDec ex lg nets lnf smoothing z n m) hc s' hmu' packed[j] _ k r1 (hk _ hmem) t2
  obtain ⟨s2, u2, v2, e2, f2⟩ := step_micro c (encDec ex lg nets lnf smoothing z n' m') hc s' hmu' padded[j] _ k' r2 (hk' _ hmem) t3
  have := step_congr { c with microbatches := none } rfl (encDec ex lg nets lnf smoothing z n m) (encDec ex lg nets lnf smoothing z n' m') s' c1.rect.1 c2.rect.1
    (t1.mono fun q hq => by
      obtain ⟨v, v1, v2⟩ := C96_loss hex hθ hq (lg := lg) steps[j] (hwf _ hmem) (hfit _ hmem) (hfit' _ hmem) weighted lnf hs smoothing z
      rw [lossOf_carries c1 q (fun r r' ha => encDec_agree _ r r' ha) v1, lossOf_carries c2 q (fun r r' ha => encDec_agree _ r r' ha) v2])
  have hs12 : s1 = s2 := by
    have e : (Except.ok (s1, v1) : Except Train.Err _) = .ok (s2, v2) := f1.symm.trans (this.trans f2)
    cases e
    rfl
  subst hs12
  exact ⟨s1, u1, u2, e1, e2⟩

/-! The hypotheses are met: the kernel of the logits of a small network is trained for any number of steps on two rows that hold three examples. -/

noncomputable def demoNets (q : Kernel 1 2) : Transformer.Net 1 1 1 1 2 := { demoNet with head := .denseKernel q }

theorem demoNets_tame (q : Kernel 1 2) : Tame (demoNets q) 104 7 := ⟨demoNet_tame.eps, demoNet_tame.gap, demoNet_tame.enc, demoNet_tame.dec, demoNet_tame.cross⟩

def demoGroups : List (List Example) :=
  [[⟨[5, 6], [0, 3], [3, 1], [0, 0], [1, 1]⟩, ⟨[7], [0], [1], [0], [1]⟩], [⟨[8], [0, 2], [2, 1], [0, 0], [0, 1]⟩]]

theorem demo_carries {n m : Nat} (t : TrainBatch n m) (g : List (List Example) → TrainBatch n m) (hg : g demoGroups = t) (N : Nat) :
    List.Forall₂ (fun b groups => Carries b (g groups)) (List.replicate N (features t)) (List.replicate N demoGroups) := by
  induction N with
  | zero => exact .nil
  | succ N ih => exact .cons (hg ▸ C118_features _) ih

/-- Packed rows have 4 targets and 3 inputs, padded ones 3 and 5. -/
example (c : Train.Cfg ℝ (Kernel 1 2) (Kernel 1 2 →L[ℝ] ℝ) O Unit R Cells) (hm : c.microbatches = none) (s : Train.State (Kernel 1 2) O Unit) (N : Nat) :
    let onPacked := Train.train (Train.trainStep { c with lossGrad := lossGrad (encDec flushed lg demoNets (.special .averagePerSequence) 0 0 4 3) }) Train.addMetrics
      Train.State.step s (List.replicate N (features (packedBatch 4 3 true demoGroups))) N none
    let onPadded := Train.train (Train.trainStep { c with lossGrad := lossGrad (encDec flushed lg demoNets (.special .averagePerSequence) 0 0 3 5) }) Train.addMetrics
      Train.State.step s (List.replicate N (features (paddedBatch 3 5 true demoGroups.flatten))) N none
    onPacked.1 = onPadded.1 ∧ onPacked.2.2 = onPadded.2.2 :=
  C118_train DecoderOnly.flushed_underflows (by norm_num) demoNets c hm true _ (by simp [PackingSafe]) 0 0 (List.replicate N demoGroups)
    (fun g hg => by rw [List.eq_of_mem_replicate hg]; exact demo_wf)
    (fun g hg => by rw [List.eq_of_mem_replicate hg]; simp [Fits, demoGroups])
    (fun g hg => by rw [List.eq_of_mem_replicate hg]; simp [Fits, demoGroups]) _ _ (demo_carries _ _ rfl N)
    (demo_carries _ (fun groups => paddedBatch 3 5 true groups.flatten) rfl N) s (B := 7)
    (fun _ s' _ => Filter.Eventually.of_forall demoNets_tame) N none

theorem demoNets_smooth {n m : Nat} (packed : Bool) (lnf : LossWeights.LNF ℝ) (b : Train.Batch Cells) (p : Kernel 1 2)
    (hp : has b "decoder_segment_ids" = packed) : ∃ Y, Smooth (encDec flushed lg demoNets lnf 0 0 n m) Y b p := by
  have key : ∀ r : TrainRow n m, ∃ y : Fin n → Vec 1, ∀ q, encDecLogits flushed lg (demoNets q) packed r = some fun i => dense q (y i) := by
    intro r
    obtain ⟨A1, hA1, _⟩ := encMask r.encTokens (if packed then some r.encSeg else none)
    obtain ⟨M1, hM1, _⟩ := decMask r.decTargets (if packed then some r.decSeg else none)
    obtain ⟨C1, hC1, _⟩ := crossMask r.decTargets r.encTokens (if packed then some r.decSeg else none) (if packed then some r.encSeg else none)
      (by cases packed <;> simp)
    refine ⟨fun i => layerNorm demoNet.eps demoNet.decNorm (demoNet.dec.foldl (decLayer flushed lg demoNet (some M1) (some C1)
      (encoder flushed lg demoNet r.encTokens (some A1))) (fun i => embed demoNet.table (r.decInputs i)) i), fun q => ?_⟩
    simp only [encDecLogits, Transformer.apply, Transformer.encode, hA1, hM1, hC1, Option.map_some, Option.bind_some]
    rfl
  choose y hy using key
  refine ⟨fun q r i => dense q (y r i), Filter.Eventually.of_forall fun q r _ => by rw [hp]; exact hy r q, fun r _ i v => ?_⟩
  unfold dense
  fun_prop

/-- Two microbatches of one packed row, three of one padded row. -/
example (c : Train.Cfg ℝ (Kernel 1 2) (Kernel 1 2 →L[ℝ] ℝ) O Unit R Cells) (s : Train.State (Kernel 1 2) O Unit) (hmu : s.mutables = none) (N : Nat) :
    ∃ s', Train.Spec.run (Train.trainStep { c with lossGrad := lossGrad (encDec flushed lg demoNets (.const 3) 0 0 4 3), microbatches := some 2 }) s
        (List.replicate N (features (packedBatch 4 3 true demoGroups))) = .ok s' ∧
      Train.Spec.run (Train.trainStep { c with lossGrad := lossGrad (encDec flushed lg demoNets (.const 3) 0 0 3 5), microbatches := some 3 }) s
        (List.replicate N (features (paddedBatch 3 5 true demoGroups.flatten))) = .ok s' :=
  C118_microbatches DecoderOnly.flushed_underflows (by norm_num) demoNets c true _ (by simp [PackingSafe]) (.inr ⟨3, rfl⟩) 0 0 (List.replicate N demoGroups)
    (fun g hg => by rw [List.eq_of_mem_replicate hg]; exact demo_wf)
    (fun g hg => by rw [List.eq_of_mem_replicate hg]; simp [Fits, demoGroups])
    (fun g hg => by rw [List.eq_of_mem_replicate hg]; simp [Fits, demoGroups]) _ _ (demo_carries _ _ rfl N)
    (demo_carries _ (fun groups => paddedBatch 3 5 true groups.flatten) rfl N) 2 3
    (fun g hg => by rw [List.eq_of_mem_replicate hg]; simp [demoGroups])
    (fun g hg => by rw [List.eq_of_mem_replicate hg]; simp [demoGroups]) s hmu (B := 7)
    (fun j s' b b' _ hb hb' => by
      refine ⟨Filter.Eventually.of_forall demoNets_tame, demoNets_smooth true _ _ _ ?_, demoNets_smooth false _ _ _ ?_⟩
      · rw [List.eq_of_mem_replicate (List.mem_of_getElem? hb)]; exact (C118_features _).packed
      · rw [List.eq_of_mem_replicate (List.mem_of_getElem? hb')]; exact (C118_features _).packed)

end EncDec

section Lm
open Verif.DecoderOnly Verif.DecoderOnly.Spec
variable {P O R : Type} [NormedAddCommGroup P] [NormedSpace ℝ P] {d h e f V : Nat} {ex : ℝ → ℝ} {lg : ℕ → ℝ} {θ B : ℝ}

/-- The decoder-only model with the networks `nets`. -/
noncomputable def lm (ex : ℝ → ℝ) (lg : ℕ → ℝ) (nets : P → LmNet d h e f V) (bidirectional : Bool) (lnf : LossWeights.LNF ℝ) (smoothing z : ℝ) (n m : Nat) :
    MicroLoss.Cfg P n m V :=
  ⟨fun q packed => lmLogits ex lg (nets q) bidirectional packed, lnf, smoothing, z⟩

theorem lm_agree (net : LmNet d h e f V) (bidirectional : Bool) {n m : Nat} {packed weighted : Bool} (r r' : TrainRow n m) (h : Agree packed weighted r r') :
    lmLogits ex lg net bidirectional packed r = lmLogits ex lg net bidirectional packed r' := by
  unfold lmLogits
  rw [h.inputs, h.targets, h.causal]
  cases packed with
  | false => rfl
  | true => rw [h.decSeg rfl]

/-- **C118** for decoder-only models. -/
theorem C118_lm_train (hex : Underflows ex θ) (hθ : 0 < θ) (nets : P → LmNet d h e f V) (bidirectional : Bool)
    (c : Train.Cfg ℝ P (P →L[ℝ] ℝ) O Unit R Cells)
    (hm : c.microbatches = none) (weighted : Bool) (lnf : LossWeights.LNF ℝ) (hs : PackingSafe weighted lnf) (smoothing z : ℝ) {n m n' m' : Nat}
    (steps : List (List (List Example))) (hwf : ∀ groups ∈ steps, ∀ g ∈ groups, ∀ x ∈ g, x.WF) (hfit : ∀ groups ∈ steps, ∀ g ∈ groups, Fits n m g)
    (hfit' : ∀ groups ∈ steps, ∀ g ∈ groups, ∀ x ∈ g, Fits n' m' [x]) (packed padded : List (Train.Batch Cells))
    (h1 : List.Forall₂ (fun b groups => Carries b (packedBatch n m weighted groups)) packed steps)
    (h2 : List.Forall₂ (fun b groups => Carries b (paddedBatch n' m' weighted groups.flatten)) padded steps) (s : Train.State P O Unit)
    (ht : ∀ k s', Train.Spec.run (Train.trainStep { c with lossGrad := lossGrad (lm ex lg nets bidirectional lnf smoothing z n' m') }) s (padded.take k) = .ok s' →
      ∀ᶠ q in nhds s'.params, TameLm (nets q) θ B) (N : Nat) (start : Option Nat) :
    let onPacked := Train.train (Train.trainStep { c with lossGrad := lossGrad (lm ex lg nets bidirectional lnf smoothing z n m) }) Train.addMetrics
      Train.State.step s packed N start
    let onPadded := Train.train (Train.trainStep { c with lossGrad := lossGrad (lm ex lg nets bidirectional lnf smoothing z n' m') }) Train.addMetrics
      Train.State.step s padded N start
    onPacked.1 = onPadded.1 ∧ onPacked.2.2 = onPadded.2.2 := by
  refine train_congr N s packed padded start (h1.length_eq.trans h2.length_eq.symm) fun k s' b b' hr hb hb' => ?_
  obtain ⟨hk, rfl⟩ := List.getElem?_eq_some_iff.1 hb
  obtain ⟨hk', rfl⟩ := List.getElem?_eq_some_iff.1 hb'
  have hks : k < steps.length := h1.length_eq ▸ hk
  have c1 := h1.get hk hks
  have c2 := h2.get hk' hks
  simp only [List.get_eq_getElem] at c1 c2
  have hmem : steps[k] ∈ steps := List.getElem_mem hks
  refine step_congr c hm _ _ s' c1.rect.1 c2.rect.1 ((ht k s' hr).mono fun q hq => ?_)
  obtain ⟨v, v1, v2⟩ := C96_lm_loss hex hθ hq (lg := lg) bidirectional steps[k] (hwf _ hmem) (hfit _ hmem) (hfit' _ hmem) weighted lnf hs smoothing z
  rw [lossOf_carries c1 q (fun r r' ha => lm_agree _ _ r r' ha) v1, lossOf_carries c2 q (fun r r' ha => lm_agree _ _ r r' ha) v2]

/-- The hypotheses are met; the first example has a prefix. -/
example (nets : P → LmNet 1 1 1 1 2) (hn : ∀ q, TameLm (nets q) 104 7) (c : Train.Cfg ℝ P (P →L[ℝ] ℝ) O Unit R Cells) (hm : c.microbatches = none)
    (s : Train.State P O Unit) :
    let g : List (List Example) := [[⟨[], [0, 3], [3, 1], [1, 0], [0, 1]⟩, ⟨[], [0], [1], [0], [1]⟩]]
    let onPacked := Train.train (Train.trainStep { c with lossGrad := lossGrad (lm flushed lg nets true .none 0 0 4 0) }) Train.addMetrics
      Train.State.step s [features (packedBatch 4 0 true g)] 1 none
    let onPadded := Train.train (Train.trainStep { c with lossGrad := lossGrad (lm flushed lg nets true .none 0 0 3 0) }) Train.addMetrics
      Train.State.step s [features (paddedBatch 3 0 true g.flatten)] 1 none
    onPacked.1 = onPadded.1 ∧ onPacked.2.2 = onPadded.2.2 :=
  C118_lm_train flushed_underflows (by norm_num) nets true c hm true _ (by simp [PackingSafe]) 0 0 [[[⟨[], [0, 3], [3, 1], [1, 0], [0, 1]⟩, ⟨[], [0], [1], [0], [1]⟩]]]
    (by
      intro g hg x hx y hy
      simp only [List.mem_cons, List.not_mem_nil, or_false] at hg
      subst hg
      simp only [List.mem_cons, List.not_mem_nil, or_false] at hx
      subst hx
      simp only [List.mem_cons, List.not_mem_nil, or_false] at hy
      rcases hy with rfl | rfl <;> exact ⟨by simp, by simp, rfl, rfl, rfl, by simp⟩)
    (by simp [Fits]) (by simp [Fits]) _ _ (.cons (C118_features _) .nil) (.cons (C118_features _) .nil) s (fun _ s' _ => Filter.Eventually.of_forall hn) 1 none

/-- A family of such networks. -/
example (q : Kernel 2 1) : TameLm { demoLm with table := q } 104 7 := ⟨demoLm_tame.eps, demoLm_tame.gap, demoLm_tame.layers⟩

end Lm

end Verif.PackedTrain
