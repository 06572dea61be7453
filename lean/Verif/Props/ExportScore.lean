import Verif.Model.ExportScore
import Verif.Spec.ExportScore
import Verif.Props.Export
import Verif.Props.ArrayT5
/-
C107: the scores of an exported model are log-likelihoods, whatever the batch, the buckets and the padding.
-/
namespace Verif.ExportScore
open Verif.ND Verif.Export Verif.Export.Spec Verif.Transformer Verif.Transformer.Spec Verif.ArrT5.Spec Spec

variable {d h e f V : Nat} {ex : ℝ → ℝ} {lg : ℕ → ℝ} {net : Net d h e f V} {θ M : ℝ}

/-- The negated cross entropy with a one-hot target. -/
theorem neg_crossEntropy (logits : Fin V → ℝ) (t : Int) : -(Loss.crossEntropy logits (Score.oneHot t) 0).1 =
    if hv : 0 ≤ t ∧ t.toNat < V then logits ⟨t.toNat, hv.2⟩ - Real.log (∑ v, Real.exp (logits v)) else 0 := by
  simp only [Loss.crossEntropy, Loss.logsumexp, zero_mul, add_zero, neg_neg]
  split_ifs with hv
  · rw [Finset.sum_eq_single (⟨t.toNat, hv.2⟩ : Fin V)]
    · rw [Score.oneHot, if_pos (by simp only []; omega), one_mul]
    · intro b _ hb
      rw [Score.oneHot, if_neg (fun hc => hb (Fin.ext (by simp only []; omega))), zero_mul]
    · intro hc; exact absurd (Finset.mem_univ _) hc
  · apply Finset.sum_eq_zero
    intro b _
    have := b.isLt
    rw [Score.oneHot, if_neg (by omega), zero_mul]

/-- **C107, one row.**  A row that holds the text `x`, `y` with any amount of padding (and anything as decoder inputs in the padding) has as its
score the log-likelihood of `y` after `x`.  All tokens are positive, `x` is not empty. -/
theorem C107_row (hex : Underflows ex θ) (hθ : 0 < θ) (ht : Tame net θ M) (x y : List Int) (hx : ∀ t ∈ x, 0 < t) (hy : ∀ t ∈ y, 0 < t)
    (hne : x ≠ []) {n m : Nat} (b : Input n m) (hseg : b.encSeg = none ∧ b.decSeg = none) (hn : y.length ≤ n) (hm : x.length ≤ m)
    (henc : ∀ i : Fin m, b.encTokens i = x.getD i.val 0) (htgt : ∀ i : Fin n, b.decTargets i = y.getD i.val 0)
    (hin : ∀ i : Fin n, i.val < y.length → b.decInputs i = if i.val = 0 then 0 else y.getD (i.val - 1) 0)
    (w : Fin n → ℝ) (hw : ∀ i, w i = if b.decTargets i = 0 then 0 else 1) :
    ∃ logits, apply ex lg net b = some logits ∧ IsLogLikelihood ex lg net x y (Score.scoreRow logits b.decTargets w) := by
  have o1 : SegsOk b := by unfold SegsOk; rw [hseg.1]; simp
  have o2 : SegsOk (text x y) := by unfold SegsOk text; simp
  obtain ⟨z1, hz1⟩ := apply_some (ex := ex) (lg := lg) (net := net) b o1
  obtain ⟨z2, hz2⟩ := apply_some (ex := ex) (lg := lg) (net := net) (text x y) o2
  have s1 : ∀ s i, InSeg b.decSeg s i := fun s i r hr => by rw [hseg.2] at hr; cases hr
  have s1' : ∀ s i, InSeg b.encSeg s i := fun s i r hr => by rw [hseg.1] at hr; cases hr
  have s2 : ∀ s i, InSeg (text x y).decSeg s i := fun s i r hr => by cases hr
  have s2' : ∀ s i, InSeg (text x y).encSeg s i := fun s i r hr => by cases hr
  have getx : ∀ i (hi : i < x.length), x.getD i 0 = x[i] := fun i hi => by
    rw [List.getD_eq_getElem?_getD, List.getElem?_eq_getElem hi]; rfl
  have gety : ∀ i (hi : i < y.length), y.getD i 0 = y[i] := fun i hi => by
    rw [List.getD_eq_getElem?_getD, List.getElem?_eq_getElem hi]; rfl
  have outx : ∀ i, ¬ i < x.length → x.getD i 0 = 0 := fun i hi => by
    rw [List.getD_eq_getElem?_getD, List.getElem?_eq_none (by omega)]; rfl
  have outy : ∀ i, ¬ i < y.length → y.getD i 0 = 0 := fun i hi => by
    rw [List.getD_eq_getElem?_getD, List.getElem?_eq_none (by omega)]; rfl
  refine ⟨z1, hz1, z2, hz2, ?_⟩
  have hlogits : ∀ i : Fin y.length, z1 ⟨i.val, by omega⟩ = z2 i := by
    intro i
    obtain ⟨y2, y1, e2, e1, hyy⟩ := C93_same_logits (lg := lg) hex hθ ht (text x y) b o2 o1 0 0 0 0 i ⟨i.val, by omega⟩ (by simp)
      (by
        constructor
        · intro j _ _ hj
          have hjl := j.isLt
          refine ⟨⟨j.val, by omega⟩, by simp, s1 _ _, ?_, ?_⟩
          · rw [htgt]; simp only []; rw [gety _ hjl]; exact hj
          · rw [hin _ hjl]; rfl
        · intro j _ _ hj
          rw [htgt] at hj
          have hjl : j.val < y.length := by by_contra hc; rw [outy _ hc] at hj; omega
          refine ⟨⟨j.val, hjl⟩, by simp, s2 _ _, ?_⟩
          rw [gety _ hjl] at hj; exact hj)
      (by
        constructor
        · intro j _ _ hj
          have hjl := j.isLt
          refine ⟨⟨j.val, by omega⟩, by simp, s1' _ _, ?_, ?_⟩
          · rw [henc]; simp only []; rw [getx _ hjl]; exact hj
          · rw [henc]; simp only []; rw [getx _ hjl]; rfl
        · intro j _ _ hj
          rw [henc] at hj
          have hjl : j.val < x.length := by by_contra hc; rw [outx _ hc] at hj; omega
          refine ⟨⟨j.val, hjl⟩, by simp, s2' _ _, ?_⟩
          rw [getx _ hjl] at hj; exact hj)
      (s2 _ _) (hy _ (List.getElem_mem _))
      ⟨⟨0, List.length_pos_iff.2 hne⟩, s2' _ _, hx _ (List.getElem_mem _)⟩
    rw [hz1] at e1; rw [hz2] at e2
    cases e1; cases e2
    exact hyy.symm
  unfold Score.scoreRow
  simp only [neg_crossEntropy]
  symm
  refine sum_sim (fun (k : Fin y.length) (l : Fin n) => k.val = l.val) (fun k k' l a b => Fin.ext (by omega))
    (fun k l l' a b => Fin.ext (by omega)) _ _ (fun k _ => ⟨⟨k.val, by omega⟩, rfl⟩) ?_ ?_
  · intro l hl
    have : l.val < y.length := by
      by_contra hc
      apply hl
      rw [hw, if_pos (by rw [htgt, outy _ hc]), mul_zero]
    exact ⟨⟨l.val, this⟩, rfl⟩
  · intro k l hkl
    have hlt : k.val < n := lt_of_lt_of_le k.isLt hn
    obtain rfl : l = ⟨k.val, hlt⟩ := Fin.ext hkl.symm
    have e1 : b.decTargets ⟨k.val, hlt⟩ = y[k] := by rw [htgt]; simp only []; rw [gety _ k.isLt]; rfl
    have e2 : w ⟨k.val, hlt⟩ = 1 := by
      have := hy _ (List.getElem_mem (l := y) (n := k.val) k.isLt)
      rw [hw, if_neg]
      rw [e1, Fin.getElem_fin]; omega
    rw [e2, mul_one, hlogits k]
    simp only [e1]

/-- What `wanted` gives is made of the tokens and EOS. -/
theorem wanted_pos (ft : Feature) (t : List Int) (ht : ∀ a ∈ t, 0 < a) (he : ∀ a, ft.eos = some a → 0 < a) : ∀ a ∈ wanted ft t, 0 < a := by
  intro a ha
  unfold wanted at ha
  cases hc : ft.eos with
  | none => rw [hc] at ha; exact ht a (List.mem_of_mem_take ha)
  | some v =>
    rw [hc] at ha
    rcases List.mem_append.1 ha with h1 | h1
    · exact ht a (List.mem_of_mem_take h1)
    · rw [List.mem_singleton] at h1; rw [h1]; exact he v hc

theorem holds2_toArray {rows : List (List Int)} {B w : Nat} (h : IsArray rows B w) (hB : 0 < B) :
    Holds2 (toArray rows) fun (i : Fin B) (j : Fin w) => entry rows i j := by
  obtain ⟨h1, h2⟩ := h
  refine ⟨?_, fun i j => by simp [toArray, entry]⟩
  unfold toArray
  cases rows with
  | nil => simp at h1; omega
  | cons r l => simp only [List.headD_cons, h1, h2 r (List.mem_cons_self ..)]

/-- Features of any widths can be scored; a row that holds the texts `x` and `y` gets their log-likelihood, whatever the other rows. -/
theorem scoreBatch_ok {cfg : ArrT5.Config} {p : ArrT5.Params} (hp : ParamsAre cfg p net) (hex : Underflows ex θ) (hθ : 0 < θ) (ht : Tame net θ M)
    (q : EncDec) {B wi wt : Nat} (hpos : 0 < B) (a1 : IsArray q.encoderInput B wi) (a2 : IsArray q.decoderTarget B wt)
    (a3 : IsArray q.decoderInput B wt) (a4 : IsArray q.lossWeights B wt) :
    ∃ scores, scoreBatch ex lg cfg p (toBatch q) (toArray q.lossWeights) = some scores ∧ scores.shape = [B] ∧
      ∀ (b : Fin B) (x y : List Int), (∀ t ∈ x, 0 < t) → (∀ t ∈ y, 0 < t) → x ≠ [] → x.length ≤ wi → y.length ≤ wt →
        (∀ j, entry q.encoderInput b j = x.getD j 0) → (∀ j, entry q.decoderTarget b j = y.getD j 0) →
        (∀ j, j < y.length → entry q.decoderInput b j = if j = 0 then 0 else y.getD (j - 1) 0) →
        (∀ j, entry q.lossWeights b j = if y.getD j 0 = 0 then 0 else 1) → IsLogLikelihood ex lg net x y (scores.get [b.val]) := by
  let rows : Fin B → Input wt wi := fun b =>
    ⟨fun j => entry q.encoderInput b j, fun j => entry q.decoderInput b j, fun j => entry q.decoderTarget b j, none, none⟩
  have hb : BatchIs (toBatch q) rows :=
    ⟨holds2_toArray a1 hpos, holds2_toArray a3 hpos, holds2_toArray a2 hpos, ⟨none, .none, fun _ => rfl⟩, ⟨none, .none, fun _ => rfl⟩⟩
  obtain ⟨logits, Y, hl, ⟨hl1, hl2⟩, hY⟩ := ArrT5.C105_apply (ex := ex) (lg := lg) hp hb (fun hc => absurd rfl hc)
  refine ⟨_, by simp only [scoreBatch, hl, Option.map_some]; rfl, ?_, ?_⟩
  · simp only [hl1]; rfl
  · intro i x y hx hy hne hlx hly hE hT hS hW
    obtain ⟨z, hz, hll⟩ := C107_row (lg := lg) hex hθ ht x y hx hy hne
      (rows i) ⟨rfl, rfl⟩ hly hlx (fun j => hE j.val) (fun j => hT j.val) (fun j hj => hS j.val hj)
      (fun j => ((toArray q.lossWeights).get [i.val, j.val] : ℝ))
      (fun j => by
        have e1 := (holds2_toArray a4 hpos).2 i j
        have e2 := hT j.val
        simp only [] at e1
        rw [e1, hW j.val]
        change _ = if entry q.decoderTarget i j.val = 0 then (0 : ℝ) else 1
        rw [e2]
        split_ifs <;> simp)
    rw [hY] at hz
    cases hz
    refine cast ?_ hll
    congr 1
    unfold Score.scoreRow
    have d0 : logits.shape.getD 1 0 = wt := by rw [hl1]; rfl
    have d1 : logits.shape.getD 2 0 = V := by rw [hl1]; rfl
    have key : ∀ (n' V' : Nat) (h1 : n' = wt) (h2 : V' = V),
        (∑ j : Fin wt, -(Loss.crossEntropy (Y i j) (Score.oneHot ((rows i).decTargets j)) 0).1 *
          ((toArray q.lossWeights).get [i.val, j.val] : ℝ)) =
        ∑ j : Fin n', -(Loss.crossEntropy (fun v : Fin V' => logits.get [i.val, j.val, v.val])
          (Score.oneHot ((toBatch q).decTargets.get [i.val, j.val])) 0).1 * ((toArray q.lossWeights).get [i.val, j.val] : ℝ) := by
      rintro n' V' rfl rfl
      apply Finset.sum_congr rfl
      intro j _
      have e1 := hb.decTargets.2 i j
      simp only [] at e1
      have e2 : (fun v : Fin V' => logits.get [i.val, j.val, v.val]) = Y i j := by
        funext v; exact hl2 i j v
      rw [e1, e2]
    exact key _ _ d0 d1

/-- **C107.**  The exported model that scores gives every example the log-likelihood of its target (cut to the length of the feature, with EOS if the
feature has one) after its input (likewise): whatever the other examples of the batch, the allowed lengths (buckets), and the padding. -/
theorem C107_served {cfg : ArrT5.Config} {p : ArrT5.Params} (hp : ParamsAre cfg p net) (hex : Underflows ex θ) (hθ : 0 < θ) (ht : Tame net θ M)
    (fi ft : Feature) (hfi : Valid fi) (hft : Valid ft) (hei : ∀ a, fi.eos = some a → 0 < a) (het : ∀ a, ft.eos = some a → 0 < a)
    (inputs targets : List (List Int)) (hlen : inputs.length = targets.length) (hne : inputs ≠ [])
    (hx : ∀ t ∈ inputs, ∀ a ∈ t, 0 < a) (hy : ∀ t ∈ targets, ∀ a ∈ t, 0 < a) (htext : ∀ t ∈ inputs, wanted fi t ≠ []) :
    ∃ scores, servedScores ex lg cfg p fi ft inputs targets = some scores ∧ scores.shape = [inputs.length] ∧
      ∀ i (hi : i < inputs.length) (hi' : i < targets.length),
        IsLogLikelihood ex lg net (wanted fi inputs[i]) (wanted ft targets[i]) (scores.get [i]) := by
  have hpos : 0 < inputs.length := List.length_pos_iff.2 hne
  have htn : targets ≠ [] := List.length_pos_iff.1 (hlen ▸ hpos)
  obtain ⟨q, wi, wt, hq, hWi, hWt, a1, a2, a3, a4, hE, hT⟩ := C67_features fi ft hfi hft inputs targets hne htn
  obtain ⟨q', hq', hS, -⟩ := C67_shift fi ft hfi hft inputs targets
  rw [hq] at hq'; cases hq'
  rw [← hlen] at a2 a3 a4
  obtain ⟨scores, h1, h2, h3⟩ := scoreBatch_ok (lg := lg) hp hex hθ ht q hpos a1 a2 a3 a4
  refine ⟨scores, by simp only [servedScores, hq]; exact h1, h2, fun i hi hi' => ?_⟩
  refine h3 ⟨i, hi⟩ (wanted fi inputs[i]) (wanted ft targets[i]) (wanted_pos fi _ (hx _ (List.getElem_mem _)) hei)
    (wanted_pos ft _ (hy _ (List.getElem_mem _)) het) (htext _ (List.getElem_mem _)) (hWi.2.1 _ (List.getElem_mem _))
    (hWt.2.1 _ (List.getElem_mem _)) (fun j => hE i hi j) (fun j => (hT i hi' j).1) (fun j hj => ?_) (fun j => (hT i hi' j).2)
  obtain ⟨v0, hv0⟩ : ∃ v0, Width ft [targets[i]] v0 := by
    obtain ⟨_, wt', _, h2, _⟩ := preprocess_ok fi ft hfi hft
    exact ⟨wt' targets[i], h2 _⟩
  have hlv : (wanted ft targets[i]).length ≤ v0 := hv0.2.1 _ (List.mem_singleton_self _)
  rw [hS i hi' v0 hv0 j]
  by_cases h0 : j = 0
  · rw [if_pos (Or.inl h0), if_pos h0]
  · rw [if_neg (by omega), if_neg h0]

/-- A text has one log-likelihood. -/
theorem logLikelihood_unique {x y : List Int} {s s' : ℝ} (h1 : IsLogLikelihood ex lg net x y s) (h2 : IsLogLikelihood ex lg net x y s') : s = s' := by
  obtain ⟨l1, e1, r1⟩ := h1
  obtain ⟨l2, e2, r2⟩ := h2
  rw [e1] at e2
  cases e2
  rw [r1, r2]

/-- **C107, two servers.**  Two exports of the model with the same lengths and EOS, but other buckets, give an example the same score, whatever
the batches it comes in. -/
theorem C107_independent {cfg : ArrT5.Config} {p : ArrT5.Params} (hp : ParamsAre cfg p net) (hex : Underflows ex θ) (hθ : 0 < θ) (ht : Tame net θ M)
    (fi ft fi' ft' : Feature) (hfi : Valid fi) (hft : Valid ft) (hfi' : Valid fi') (hft' : Valid ft')
    (hi : fi'.eos = fi.eos ∧ fi'.length = fi.length) (hft2 : ft'.eos = ft.eos ∧ ft'.length = ft.length)
    (hei : ∀ a, fi.eos = some a → 0 < a) (het : ∀ a, ft.eos = some a → 0 < a)
    (batch batch' : List (List Int × List Int)) (hpos : ∀ b ∈ batch ++ batch', (∀ a ∈ b.1, 0 < a) ∧ (∀ a ∈ b.2, 0 < a) ∧ wanted fi b.1 ≠ [])
    (i j : Nat) (x : List Int × List Int) (h1 : batch[i]? = some x) (h2 : batch'[j]? = some x) :
    ∃ s s', servedScores ex lg cfg p fi ft (batch.map (·.1)) (batch.map (·.2)) = some s ∧
      servedScores ex lg cfg p fi' ft' (batch'.map (·.1)) (batch'.map (·.2)) = some s' ∧ s.get [i] = s'.get [j] := by
  have w1 : ∀ t, wanted fi' t = wanted fi t := fun t => by unfold wanted; rw [hi.1, hi.2]
  have w2 : ∀ t, wanted ft' t = wanted ft t := fun t => by unfold wanted; rw [hft2.1, hft2.2]
  obtain ⟨hi1, hx1⟩ := List.getElem?_eq_some_iff.1 h1
  obtain ⟨hj1, hx2⟩ := List.getElem?_eq_some_iff.1 h2
  have ne : ∀ (l : List (List Int × List Int)) k, k < l.length → l.map (·.1) ≠ [] := fun l k hk hc => by
    rw [List.map_eq_nil_iff] at hc; subst hc; simp at hk
  obtain ⟨s, e1, -, g1⟩ := C107_served (lg := lg) hp hex hθ ht fi ft hfi hft hei het (batch.map (·.1)) (batch.map (·.2)) (by simp) (ne _ i hi1)
    (fun t h a ha => by obtain ⟨b, hb, rfl⟩ := List.mem_map.1 h; exact (hpos b (by simp [hb])).1 a ha)
    (fun t h a ha => by obtain ⟨b, hb, rfl⟩ := List.mem_map.1 h; exact (hpos b (by simp [hb])).2.1 a ha)
    (fun t h => by obtain ⟨b, hb, rfl⟩ := List.mem_map.1 h; exact (hpos b (by simp [hb])).2.2)
  obtain ⟨s', e2, -, g2⟩ := C107_served (lg := lg) hp hex hθ ht fi' ft' hfi' hft' (by rw [hi.1]; exact hei) (by rw [hft2.1]; exact het)
    (batch'.map (·.1)) (batch'.map (·.2)) (by simp) (ne _ j hj1)
    (fun t h a ha => by obtain ⟨b, hb, rfl⟩ := List.mem_map.1 h; exact (hpos b (by simp [hb])).1 a ha)
    (fun t h a ha => by obtain ⟨b, hb, rfl⟩ := List.mem_map.1 h; exact (hpos b (by simp [hb])).2.1 a ha)
    (fun t h => by obtain ⟨b, hb, rfl⟩ := List.mem_map.1 h; rw [w1]; exact (hpos b (by simp [hb])).2.2)
  refine ⟨s, s', e1, e2, ?_⟩
  have q1 := g1 i (by simpa using hi1) (by simpa using hi1)
  have q2 := g2 j (by simpa using hj1) (by simpa using hj1)
  rw [List.getElem_map, List.getElem_map, hx1] at q1
  rw [List.getElem_map, List.getElem_map, hx2, w1, w2] at q2
  exact logLikelihood_unique q1 q2

/-- An example: an input of one token and one of three, with buckets of 2 and 4 and EOS. -/
example : ∃ scores, servedScores flushed lg ⟨1, 1, 1, 2, 1e-6⟩ ArrT5.demoParams ⟨some 1, 4, some [4, 2]⟩ ⟨some 1, 3, none⟩
      [[1], [1, 1, 1]] [[1, 1], []] = some scores ∧ scores.shape = [2] ∧
    IsLogLikelihood flushed lg demoNet [1, 1] [1, 1, 1] (scores.get [0]) ∧ IsLogLikelihood flushed lg demoNet [1, 1, 1, 1] [1] (scores.get [1]) := by
  obtain ⟨s, h1, h2, h3⟩ := C107_served (lg := lg) ArrT5.demo_params (fun x hx => if_pos hx) (by norm_num) demoNet_tame
    ⟨some 1, 4, some [4, 2]⟩ ⟨some 1, 3, none⟩ (by unfold Valid widths; decide) (by unfold Valid widths; decide) (by simp) (by simp)
    [[1], [1, 1, 1]] [[1, 1], []] rfl (by simp) (by decide) (by decide) (by decide)
  exact ⟨s, h1, h2, h3 0 (by decide) (by decide), h3 1 (by decide) (by decide)⟩

end Verif.ExportScore
