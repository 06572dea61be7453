import Verif.Model.OfflineInfer
import Verif.Props.Infer
import Verif.Props.PredictIndep
/-
C109: offline inference with the T5 network, from the data set to the output file: the scores are the log-likelihoods of the examples, the
predictions those of each example alone, whatever the batch size and the number of shards.
-/
namespace Verif.OfflineInfer
open Verif.Export Verif.Export.Spec Verif.ExportScore Verif.ExportScore.Spec Verif.Transformer Verif.Transformer.Spec Verif.PredictIndep
open Verif.ArrT5.Spec (ParamsAre)

variable {d h e f V : Nat} {ex : ℝ → ℝ} {lg : ℕ → ℝ} {net : Transformer.Net d h e f V} {θ M : ℝ}

/-- An example as it should be: tokens are positive and there is an input. -/
def Good (x : List Int × List Int) : Prop := (∀ t ∈ x.1, 0 < t) ∧ (∀ t ∈ x.2, 0 < t) ∧ x.1 ≠ []

theorem cutPad_getD (m : Nat) (t : List Int) (j : Nat) : (cutPad m t).getD j 0 = (t.take m).getD j 0 := by
  unfold cutPad
  simp only [List.getD_eq_getElem?_getD, List.getElem?_append, List.getElem?_replicate]
  split_ifs with h1 h2
  · rfl
  · rw [List.getElem?_eq_none (Nat.le_of_not_lt h1)]; rfl
  · rw [List.getElem?_eq_none (Nat.le_of_not_lt h1)]

theorem cutPad_length (m : Nat) (t : List Int) : (cutPad m t).length = m := by
  simp [cutPad]

theorem isArray_map (g : List Int × List Int → List Int) (w : Nat) (hg : ∀ x, (g x).length = w) (b : List (List Int × List Int)) :
    IsArray (b.map g) b.length w :=
  ⟨by simp, fun r hr => by obtain ⟨x, -, rfl⟩ := List.mem_map.1 hr; exact hg x⟩

theorem entry_of_map (g : List Int × List Int → List Int) (b : List (List Int × List Int)) (i : Nat) (hi : i < b.length) (j : Nat) :
    entry (b.map g) i j = (g b[i]).getD j 0 := by
  unfold entry
  rw [List.getD_eq_getElem?_getD (i := i), List.getElem?_map, List.getElem?_eq_getElem hi]; rfl

/-- One step of scoring. -/
theorem score_rows {cfg : ArrT5.Config} {p : ArrT5.Params} (hp : ParamsAre cfg p net) (hex : Underflows ex θ) (hθ : 0 < θ) (ht : Tame net θ M)
    (m n : Nat) (hm : 0 < m) (b : List (List Int × List Int)) :
    List.Forall₂ (fun x s => Good x → IsLogLikelihood ex lg net (x.1.take m) (x.2.take n) s) b (scoreStep ex lg cfg p m n b) := by
  rcases Nat.eq_zero_or_pos b.length with h0 | hpos
  · have hb := List.eq_nil_of_length_eq_zero h0
    subst hb
    unfold scoreStep
    cases scoreBatch ex lg cfg p (toBatch (convert m n [])) (toArray (convert m n []).lossWeights) <;> exact .nil
  obtain ⟨scores, h1, h2, h3⟩ := scoreBatch_ok (lg := lg) hp hex hθ ht (convert m n b) hpos
    (isArray_map _ m (fun x => cutPad_length m x.1) b) (isArray_map _ n (fun x => cutPad_length n x.2) b)
    (isArray_map _ n (fun x => by simp [arInputs, cutPad_length]) b) (isArray_map _ n (fun x => by simp [nonPadding, cutPad_length]) b)
  unfold scoreStep
  rw [h1]
  simp only []
  rw [List.forall₂_iff_get]
  refine ⟨by simp, fun i hi hi' hg => ?_⟩
  have hlen := List.length_take_le m b[i].1
  simp only [List.get_eq_getElem, List.getElem_map, List.getElem_range] at hg ⊢
  refine h3 ⟨i, hi⟩ (b[i].1.take m) (b[i].2.take n) (fun t ht => hg.1 t (List.mem_of_mem_take ht)) (fun t ht => hg.2.1 t (List.mem_of_mem_take ht))
    ?_ hlen (List.length_take_le _ _) (fun j => ?_) (fun j => ?_) (fun j hj => ?_) (fun j => ?_)
  · intro hc
    rcases List.take_eq_nil_iff.1 hc with hc | hc
    · omega
    · exact hg.2.2 hc
  · exact (entry_of_map (fun x => cutPad m x.1) b i hi j).trans (cutPad_getD _ _ _)
  · exact (entry_of_map (fun x => cutPad n x.2) b i hi j).trans (cutPad_getD _ _ _)
  · refine (entry_of_map (fun x => arInputs (cutPad n x.2)) b i hi j).trans ?_
    have hjn : j < n := lt_of_lt_of_le hj (List.length_take_le _ _)
    unfold arInputs
    rw [cutPad_length, List.getD_eq_getElem?_getD, List.getElem?_take_of_lt hjn]
    cases j with
    | zero => rfl
    | succ j =>
      rw [List.getElem?_cons_succ, ← List.getD_eq_getElem?_getD, cutPad_getD]; rfl
  · refine (entry_of_map (fun x => nonPadding (cutPad n x.2)) b i hi j).trans ?_
    rw [← cutPad_getD]
    unfold nonPadding
    simp only [List.getD_eq_getElem?_getD, List.getElem?_map]
    cases (cutPad n b[i].2)[j]? <;> rfl

/-- **C109, scores.**  The output of offline scoring has, in the order of the data set, the log-likelihood of each example (its targets, cut to
the feature length, after its inputs, cut to theirs), whatever the batch size and the number of shards, and whatever the other examples are. -/
theorem C109_scores {cfg : ArrT5.Config} {p : ArrT5.Params} (hp : ParamsAre cfg p net) (hex : Underflows ex θ) (hθ : 0 < θ) (ht : Tame net θ M)
    (m n : Nat) (hm : 0 < m) (shards B : Nat) (hB : 0 < B) (hs : shards ∣ B) (xs : List (List Int × List Int)) (hxs : xs ≠ []) :
    ∃ out, Infer.inferFn shards B (fun _ b => scoreStep ex lg cfg p m n b) xs = .ok out ∧
      List.Forall₂ (fun x s => Good x → IsLogLikelihood ex lg net (x.1.take m) (x.2.take n) s) xs (Infer.extract out) := by
  obtain ⟨out, h1, -, -, h4⟩ := Infer.C36_results shards B hB hs _ (fun _ b => scoreStep ex lg cfg p m n b)
    (fun _ b => score_rows (lg := lg) hp hex hθ ht m n hm b) xs hxs
  exact ⟨out, h1, h4⟩

theorem predict_alone (hex : Underflows ex θ) (hθ : 0 < θ) (ht : Tame net θ M) (pick : Nat → Nat → Vec V → Fin V)
    (hpick : ∀ k b b', pick k b = pick k b') (eos : Int) (he : eos ≠ 0) (m m' n : Nat) (hm : 0 < m) (hn : 0 < n)
    (batch batch' : List (List Int × List Int)) (i i' : Nat) (x x' : List Int × List Int) (hi : batch[i]? = some x) (hi' : batch'[i']? = some x')
    (hx : Good x) (hsame : x.1.take m = x'.1.take m') :
    ∃ o, (predictStep ex lg net pick eos m n batch)[i]? = some o ∧ (predictStep ex lg net pick eos m' n batch')[i']? = some o ∧
      o.1.length = n := by
  have hpad : ∀ (m : Nat) (l : List (List Int × List Int)) (k : Nat) (y : List Int × List Int), l[k]? = some y →
      Padded (fun j : Fin m => ((convert m n l).encoderInput.getD k []).getD j.val 0) (y.1.take m) := by
    intro m l k y hk
    refine ⟨List.length_take_le _ _, fun j => ?_⟩
    have : (convert m n l).encoderInput.getD k [] = cutPad m y.1 := by
      simp only [convert]
      rw [List.getD_eq_getElem?_getD, List.getElem?_map, hk]; rfl
    simp only [this]
    exact cutPad_getD _ _ _
  have hprompt : ∀ (m : Nat) (l : List (List Int × List Int)) (k : Nat) (y : List Int × List Int), l[k]? = some y →
      ((convert m n l).decoderInput.map fun _ => (((fun _ => 0), none) : Masks.Row n × Option Nat))[k]? = some ((fun _ => 0), none) := by
    intro m l k y hk
    simp only [convert]
    rw [List.getElem?_map, List.getElem?_map, hk]; rfl
  have hzero : ∀ k, (List.ofFn fun _ : Fin n => (0 : Int)).getD k 0 = 0 := fun k => by
    rw [List.ofFn_const, List.getD_eq_getElem?_getD, List.getElem?_replicate]
    split_ifs <;> rfl
  have hne : x.1.take m ≠ [] := by
    intro hc
    rcases List.take_eq_nil_iff.1 hc with hc | hc
    · omega
    · exact hx.2.2 hc
  obtain ⟨o, lp, r1, r2, r3⟩ := C108_t5 (lg := lg) (n := n) hex hθ ht
    (fun b (j : Fin m) => ((convert m n batch).encoderInput.getD b []).getD j.val 0)
    (fun b (j : Fin m') => ((convert m' n batch').encoderInput.getD b []).getD j.val 0) pick pick eos he
    ((convert m n batch).decoderInput.map fun _ => ((fun _ => 0), none)) ((convert m' n batch').decoderInput.map fun _ => ((fun _ => 0), none))
    (max 1 n) (max 1 n) le_rfl le_rfl i i' ((fun _ => 0), none) (hprompt m batch i x hi) (hprompt m' batch' i' x' hi') 0
    ⟨by simpa using hn, fun j a b => by omega, fun j _ => hzero j⟩ (Or.inl (by simp)) (fun k => hpick k i i') (x.1.take m) hne
    (fun t ht => hx.1 t (List.mem_of_mem_take ht)) (hpad m batch i x hi) (by rw [hsame]; exact hpad m' batch' i' x' hi')
  exact ⟨(o, lp), r1, r2, r3⟩

/-- **C109, predictions.**  If the choice of tokens does not depend on the row (greedy decoding), the output of offline prediction has, in the
order of the data set, what is predicted for the cut input of each example alone, without targets and without padding. -/
theorem C109_predictions (hex : Underflows ex θ) (hθ : 0 < θ) (ht : Tame net θ M) (pick : Nat → Nat → Vec V → Fin V)
    (hpick : ∀ k b b', pick k b = pick k b') (eos : Int) (he : eos ≠ 0) (m n : Nat) (hm : 0 < m) (hn : 0 < n) (shards B : Nat) (hB : 0 < B)
    (hs : shards ∣ B) (xs : List (List Int × List Int)) (hxs : xs ≠ []) :
    ∃ out, Infer.inferFn shards B (fun _ b => predictStep ex lg net pick eos m n b) xs = .ok out ∧
      List.Forall₂ (fun x o => Good x → predictStep ex lg net pick eos (x.1.take m).length n [(x.1.take m, [])] = [o] ∧ o.1.length = n)
        xs (Infer.extract out) := by
  have hlen : ∀ (m : Nat) (b : List (List Int × List Int)), (predictStep ex lg net pick eos m n b).length = b.length := by
    intro m b
    unfold predictStep predictFeatures T5Decode.predictBatch Score.sample
    rw [Sampling.singleTrial_length, List.length_map, List.length_map]
    simp [convert]
  obtain ⟨out, h1, -, -, h4⟩ := Infer.C36_results shards B hB hs
    (fun x o => Good x → predictStep ex lg net pick eos (x.1.take m).length n [(x.1.take m, [])] = [o] ∧ o.1.length = n)
    (fun _ b => predictStep ex lg net pick eos m n b) (fun _ b => by
      rw [List.forall₂_iff_get]
      refine ⟨(hlen m b).symm, fun i hi hi' hg => ?_⟩
      simp only [List.get_eq_getElem] at hg ⊢
      obtain ⟨o, r1, r2, r3⟩ := predict_alone (lg := lg) hex hθ ht pick hpick eos he m (b[i].1.take m).length n hm hn b
        [(b[i].1.take m, [])] i 0 b[i] (b[i].1.take m, []) (List.getElem?_eq_getElem hi) rfl hg (by simp)
      rw [List.getElem?_eq_getElem hi'] at r1
      cases r1
      refine ⟨?_, r3⟩
      have hl := hlen (b[i].1.take m).length [(b[i].1.take m, [])]
      obtain ⟨a, ha⟩ := List.length_eq_one_iff.1 hl
      rw [ha] at r2 ⊢
      simpa using r2) xs hxs
  exact ⟨out, h1, h4⟩

/-- **C109, two runs.**  Runs with other batch sizes, numbers of shards and (long enough) feature lengths of the inputs give the same
predictions and the same scores. -/
theorem C109_runs {cfg : ArrT5.Config} {p : ArrT5.Params} (hp : ParamsAre cfg p net) (hex : Underflows ex θ) (hθ : 0 < θ) (ht : Tame net θ M)
    (pick : Nat → Nat → Vec V → Fin V) (hpick : ∀ k b b', pick k b = pick k b') (eos : Int) (he : eos ≠ 0) (m m' n : Nat) (hn : 0 < n)
    (shards B shards' B' : Nat) (hB : 0 < B) (hs : shards ∣ B) (hB' : 0 < B') (hs' : shards' ∣ B')
    (xs : List (List Int × List Int)) (hxs : xs ≠ []) (hg : ∀ x ∈ xs, Good x ∧ x.1.length ≤ m ∧ x.1.length ≤ m') :
    (∃ out out', Infer.inferFn shards B (fun _ b => predictStep ex lg net pick eos m n b) xs = .ok out ∧
      Infer.inferFn shards' B' (fun _ b => predictStep ex lg net pick eos m' n b) xs = .ok out' ∧ Infer.extract out = Infer.extract out') ∧
    ∃ out out', Infer.inferFn shards B (fun _ b => scoreStep ex lg cfg p m n b) xs = .ok out ∧
      Infer.inferFn shards' B' (fun _ b => scoreStep ex lg cfg p m' n b) xs = .ok out' ∧ Infer.extract out = Infer.extract out' := by
  have hmm : 0 < m ∧ 0 < m' := by
    obtain ⟨x, hx⟩ := List.exists_mem_of_ne_nil _ hxs
    obtain ⟨⟨-, -, g3⟩, h1, h2⟩ := hg x hx
    have := List.length_pos_iff.2 g3
    omega
  have key : ∀ {Y : Type} (P P' : List Int × List Int → Y → Prop) (l : List (List Int × List Int)) (a b : List Y),
      (∀ x ∈ l, ∀ u v, P x u → P' x v → u = v) → List.Forall₂ P l a → List.Forall₂ P' l b → a = b := by
    intro Y P P' l a b hu h1 h2
    induction h1 generalizing b with
    | nil => cases h2; rfl
    | cons hp _ ih =>
      cases h2 with
      | cons hq h2 =>
        rw [hu _ (List.mem_cons_self ..) _ _ hp hq, ih _ (fun x hx => hu x (List.mem_cons_of_mem _ hx)) h2]
  constructor
  · obtain ⟨o, e1, r1⟩ := C109_predictions (lg := lg) hex hθ ht pick hpick eos he m n hmm.1 hn shards B hB hs xs hxs
    obtain ⟨o', e2, r2⟩ := C109_predictions (lg := lg) hex hθ ht pick hpick eos he m' n hmm.2 hn shards' B' hB' hs' xs hxs
    refine ⟨o, o', e1, e2, key _ _ xs _ _ (fun x hx u v hu hv => ?_) r1 r2⟩
    obtain ⟨g1, g2, g3⟩ := hg x hx
    have a := (hu g1).1
    have b := (hv g1).1
    rw [List.take_of_length_le g2] at a
    rw [List.take_of_length_le g3, a] at b
    simpa using b
  · obtain ⟨o, e1, r1⟩ := C109_scores (lg := lg) hp hex hθ ht m n hmm.1 shards B hB hs xs hxs
    obtain ⟨o', e2, r2⟩ := C109_scores (lg := lg) hp hex hθ ht m' n hmm.2 shards' B' hB' hs' xs hxs
    refine ⟨o, o', e1, e2, key _ _ xs _ _ (fun x hx u v hu hv => ?_) r1 r2⟩
    obtain ⟨g1, g2, g3⟩ := hg x hx
    have a := hu g1
    have b := hv g1
    rw [List.take_of_length_le g2] at a
    rw [List.take_of_length_le g3] at b
    exact logLikelihood_unique a b

/-- An example: three examples in batches of two on two shards, and in batches of three on one. -/
example : (∃ out out', Infer.inferFn 2 2 (fun _ b => predictStep flushed lg demoNet firstToken 1 3 4 b) [([1], [1]), ([1, 1], []), ([1, 1, 1], [1])] = .ok out ∧
      Infer.inferFn 1 3 (fun _ b => predictStep flushed lg demoNet firstToken 1 5 4 b) [([1], [1]), ([1, 1], []), ([1, 1, 1], [1])] = .ok out' ∧
      Infer.extract out = Infer.extract out') ∧
    ∃ out out', Infer.inferFn 2 2 (fun _ b => scoreStep flushed lg ⟨1, 1, 1, 2, 1e-6⟩ ArrT5.demoParams 3 4 b)
        [([1], [1]), ([1, 1], []), ([1, 1, 1], [1])] = .ok out ∧
      Infer.inferFn 1 3 (fun _ b => scoreStep flushed lg ⟨1, 1, 1, 2, 1e-6⟩ ArrT5.demoParams 5 4 b)
        [([1], [1]), ([1, 1], []), ([1, 1, 1], [1])] = .ok out' ∧ Infer.extract out = Infer.extract out' :=
  C109_runs ArrT5.demo_params (fun x hx => if_pos hx) (by norm_num) demoNet_tame firstToken (fun _ _ _ => rfl) 1 (by decide) 3 5 4 (by decide)
    2 2 1 3 (by decide) (by decide) (by decide) (by decide) _ (by simp) (by unfold Good; decide)

end Verif.OfflineInfer
