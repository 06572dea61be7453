import Verif.Lemmas.Score
/-
C62: the log-probability sampling reports for a sequence is the score `score_batch` gives it.
-/
namespace Verif.Score
open Verif.Sampling Verif.Sampling.Spec Verif.KVCache Verif.Masks Spec

variable {H : Type} {h d m n V : Nat}

theorem full_some (net : Net H (Fin V → ℝ) h d m) (enc : Masks.Row m) (inputs targets : Masks.Row n) :
    ∃ logits, full net enc inputs targets = some logits := by
  obtain ⟨M, hM, _⟩ := mask_spec targets none
  exact ⟨_, by unfold full; rw [hM, show makeEncoderDecoderMask targets enc none none = some _ from rfl]⟩

theorem fullOnly_some (net : Net H (Fin V → ℝ) h d 0) (inputs targets : Masks.Row n) (c : Option (Masks.Row n)) :
    ∃ logits, fullOnly net inputs targets c = some logits := by
  obtain ⟨M, hM, _⟩ := mask_spec targets c
  exact ⟨_, by unfold fullOnly; rw [hM]⟩

theorem getD_ofFn (x : Masks.Row n) (j : Fin n) : (List.ofFn x).getD j.val 0 = x j := by
  rw [List.getD_eq_getElem?_getD, List.getElem?_ofFn, dif_pos j.isLt]; rfl

/-- **C62**, encoder-decoder models.  Whatever the weights, the prompts and the way tokens are chosen, the log-probability that sampling
returns with a sequence is the score of that sequence: the logits of the teacher-forced forward pass on it, cross entropy, summed over
the non-padding positions after the prompt.  The padding token must not have been sampled before the end marker. -/
theorem C62_encdec (net : Net H (Fin V → ℝ) h d m) (enc : Nat → Masks.Row m) (pick : Nat → Nat → (Fin V → ℝ) → Fin V) (eos : Int)
    (he : eos ≠ 0) (prompts : List (Masks.Row n × Option Nat)) (fuel : Nat) (hf : max 1 n ≤ fuel) (b : Nat) (r : Masks.Row n × Option Nat)
    (hb : prompts[b]? = some r) (p : Nat) (hp : RightPadded (List.ofFn r.1) p) (hpos : ∀ j : Fin n, 1 ≤ j.val → j.val ≤ p → r.1 j > 0)
    (hlim : r.2 ≠ some 0 ∨ 1 ≤ p) :
    ∃ out lp logits, (predictEncDec net enc pick eos fuel prompts)[b]? = some (out, lp) ∧ out.length = n ∧
      (∀ j : Fin n, 1 ≤ j.val → j.val ≤ p → out.getD (j.val - 1) 0 = r.1 j) ∧
      full net (enc b) (shifted n 0 out) (asRow n out) = some logits ∧
      (NoPadding p (maxDecodeLen ⟨List.ofFn r.1, none, r.2⟩) eos out → lp = scoreRow logits (asRow n out) (weightsFrom n p out)) ∧
      ((∀ k b x, (pick k b x).val ≠ 0) → lp = scoreRow logits (asRow n out) (weightsFrom n p out)) := by
  have hlen : (List.ofFn r.1).length = n := List.length_ofFn
  have hpn : p < n := hlen ▸ hp.lt
  have him : 0 < maxDecodeLen ⟨List.ofFn r.1, none, r.2⟩ := by
    have hle := le_maxLen ⟨List.ofFn r.1, none, r.2⟩ hp
    by_cases h1 : 1 ≤ p
    · omega
    · have h2 := hlim.resolve_right h1
      unfold maxDecodeLen
      cases h3 : r.2 with
      | none => simp only [hlen]; omega
      | some k =>
        have : k ≠ 0 := fun e => h2 (by rw [h3, e])
        simp only [hlen]
        omega
  let ref : Masks.Row n → Masks.Row n → Fin n → Fin V → ℝ := fun inputs targets => (full net (enc b) inputs targets).getD fun _ _ => 0
  obtain ⟨out, lp, hout, hl, hpr, hpk, hsc⟩ := score_generic (fun b => step net (enc b)) pick eos he
    (prompts.map fun r => ⟨List.ofFn r.1, none, r.2⟩) (fun _ => net.layers.map fun l => (l, Cache.init h d n)) n
    (by intro x hx; obtain ⟨y, _, rfl⟩ := List.mem_map.1 hx; simp) fuel hf b ⟨List.ofFn r.1, none, r.2⟩
    (by rw [List.getElem?_map, hb]; rfl) hlen p hp
    (fun j h1 h2 => by rw [getD_ofFn r.1 ⟨j, by omega⟩]; exact hpos _ h1 h2) 0 rfl (Nat.zero_le _) him 0 rfl ref
    (by
      intro inputs targets t _ _ _ _ ht
      obtain ⟨o, h1, h2⟩ := C60_incremental net (enc b) inputs targets n le_rfl t ht
      simp only [ref, h1, Option.getD_some, List.drop_zero, Nat.sub_zero]
      exact h2)
  obtain ⟨logits, hlg⟩ := full_some net (enc b) (shifted n 0 out) (asRow n out)
  refine ⟨out, lp, logits, hout, hl, fun j h1 h2 => ?_, hlg, ?_, fun hz => ?_⟩
  · rw [hpr (j.val - 1) (by omega)]
    have : j.val - 1 + 1 = j.val := by omega
    rw [this, getD_ofFn]
  · intro hnp
    rw [hsc hnp]
    simp only [ref, hlg, Option.getD_some]
  · rw [hsc (hpk hz)]
    simp only [ref, hlg, Option.getD_some]

/-- **C62**, decoder-only models, with bidirectional attention over the prompt or without.  `p` is the number of prompt tokens. -/
theorem C62_decoder_only (net : Net H (Fin V → ℝ) h d 0) (bidirectional : Bool) (pick : Nat → Nat → (Fin V → ℝ) → Fin V) (eos : Int)
    (he : eos ≠ 0) (batch : List (LMRow n)) (fuel : Nat) (hf : max 1 n ≤ fuel) (b : Nat) (r : LMRow n)
    (hb : batch[b]? = some r) (p : Fin n) (hp : Prompt r.inputs r.causal p) (hpos : ∀ j : Fin n, 1 ≤ j.val → j ≤ p → r.inputs j > 0)
    (hlim : p.val < maxDecodeLen ⟨List.ofFn fun j => r.inputs j * r.causal j, some p.val, r.maxSteps⟩) :
    ∃ out lp logits, (predictLM net bidirectional pick eos fuel batch)[b]? = some (out, lp) ∧ out.length = n ∧
      (∀ j : Fin n, 1 ≤ j.val → j ≤ p → out.getD (j.val - 1) 0 = r.inputs j) ∧
      fullOnly net (shifted n (r.inputs ⟨0, p.pos⟩) out) (asRow n out) (maybeCausal bidirectional r.causal) = some logits ∧
      (NoPadding p (maxDecodeLen ⟨List.ofFn fun j => r.inputs j * r.causal j, some p.val, r.maxSteps⟩) eos out →
        lp = scoreRow logits (asRow n out) (weightsFrom n p out)) ∧
      ((∀ k b x, (pick k b x).val ≠ 0) → lp = scoreRow logits (asRow n out) (weightsFrom n p out)) := by
  have hpn := p.isLt
  let x : Masks.Row n := fun j => r.inputs j * r.causal j
  have hx : ∀ j, x j = if j ≤ p then r.inputs j else 0 := fun j => by simp only [x, hp.1 j]; split_ifs <;> simp
  have hlen : (List.ofFn x).length = n := List.length_ofFn
  have hpref : ∃ cs, computeKvCache net bidirectional x r.causal = some (cs, p.val) := by
    obtain ⟨M, hM, _⟩ := mask_spec r.causal (maybeCausal bidirectional r.causal)
    unfold computeKvCache
    rw [hM]
    rw [inputsLength_prompt r.inputs r.causal p hp]
    exact ⟨_, rfl⟩
  obtain ⟨cs, hcs⟩ := hpref
  have hrp : RightPadded (List.ofFn x) p.val := by
    refine ⟨by rw [hlen]; exact hpn, fun j h1 h2 => ?_, fun j h1 => ?_⟩
    · rw [getD_ofFn x ⟨j, by omega⟩, hx, if_pos (show (⟨j, by omega⟩ : Fin n) ≤ p from h2)]
      exact (hpos ⟨j, by omega⟩ h1 h2).ne'
    · by_cases hj : j < n
      · rw [getD_ofFn x ⟨j, hj⟩, hx, if_neg (show ¬ (⟨j, hj⟩ : Fin n) ≤ p from Nat.not_le.2 h1)]
      · rw [List.getD_eq_getElem?_getD, List.getElem?_eq_none (by rw [hlen]; omega)]; rfl
  let ref : Masks.Row n → Masks.Row n → Fin n → Fin V → ℝ := fun inputs targets =>
    (fullOnly net inputs targets (maybeCausal bidirectional r.causal)).getD fun _ _ => 0
  let prefill : LMRow n → Option (List (Layer H h d 0 × Cache h d n) × Nat) := fun r =>
    computeKvCache net bidirectional (fun j => r.inputs j * r.causal j) r.causal
  have hpre : prefill r = some (cs, p.val) := hcs
  let caches : Nat → List (Layer H h d 0 × Cache h d n) := fun b => ((batch[b]?.bind prefill).map (·.1)).getD []
  have hc : caches b = cs := by simp only [caches, hb, Option.bind_some, hpre, Option.map_some, Option.getD_some]
  obtain ⟨out, lp, hout, hl, hpr, hpk, hsc⟩ := score_generic (fun _ => stepOnly net) pick eos he
    (batch.map fun r => ⟨List.ofFn fun j => r.inputs j * r.causal j, (prefill r).map (·.2), r.maxSteps⟩) caches n
    (by intro y hy; obtain ⟨z, _, rfl⟩ := List.mem_map.1 hy; simp) fuel hf b ⟨List.ofFn x, some p.val, r.maxSteps⟩
    (by rw [List.getElem?_map, hb, Option.map_some, hpre]; rfl) hlen p.val hrp
    (fun j h1 h2 => by
      show (List.ofFn x).getD j 0 > 0
      rw [getD_ofFn x ⟨j, by omega⟩, hx, if_pos (show (⟨j, by omega⟩ : Fin n) ≤ p from h2)]; exact hpos ⟨j, by omega⟩ h1 h2) p.val rfl le_rfl hlim (r.inputs ⟨0, p.pos⟩)
    (by
      show (List.ofFn x ++ [0, 0]).getD p.val 0 = _
      have e : (List.ofFn x ++ [0, 0]).getD p.val 0 = r.inputs p := by
        rw [List.getD_eq_getElem?_getD, List.getElem?_append_left (by rw [hlen]; exact hpn), List.getElem?_ofFn, dif_pos hpn]
        simp only [Option.getD_some, Fin.eta]
        rw [hx, if_pos le_rfl]
      rw [e]
      by_cases h0 : p.val = 0
      · rw [if_pos h0]; congr 1; exact Fin.ext h0
      · rw [if_neg h0]
        show _ = (List.ofFn x).getD p.val 0
        rw [getD_ofFn x p, hx, if_pos le_rfl]) ref
    (by
      intro inputs targets t h1 h2 h3 h4 ht
      have hin : ∀ j : Fin n, j ≤ p → inputs j = r.inputs j := by
        intro j hj
        by_cases h0 : j.val = 0
        · rw [h2 j h0]; congr 1; exact Fin.ext h0.symm
        · rw [h3 j (by omega) hj]
          show (List.ofFn x).getD j.val 0 = _
          rw [getD_ofFn, hx, if_pos hj]
      have hp' : Prompt inputs r.causal p := ⟨hp.1, fun j hj0 hj => by rw [hin j hj]; exact hp.2 j hj0 hj⟩
      obtain ⟨toks, lgs, o, g1, g2, g3, g4⟩ := C61_prefill net bidirectional inputs targets r.causal p t hp' h4 ht
      have hx' : (fun j => inputs j * r.causal j) = x := by
        funext j
        rw [hx]
        rw [hp.1 j]
        by_cases hj : j ≤ p
        · simp [hj, hin j hj]
        · simp [hj]
      simp only [predict, hx', hcs, Option.map_some, Option.some.injEq, Prod.mk.injEq] at g1
      simp only [ref, g3, Option.getD_some, hc]
      rw [g1.2.2]
      exact g4)
  obtain ⟨logits, hlg⟩ := fullOnly_some net (shifted n (r.inputs ⟨0, p.pos⟩) out) (asRow n out) (maybeCausal bidirectional r.causal)
  refine ⟨out, lp, logits, hout, hl, fun j h1 h2 => ?_, hlg, ?_, fun hz => ?_⟩
  · have h2' : j.val ≤ p.val := h2
    rw [hpr (j.val - 1) (by omega)]
    have : j.val - 1 + 1 = j.val := by omega
    rw [this]
    show (List.ofFn x).getD j.val 0 = _
    rw [getD_ofFn, hx, if_pos h2]
  · intro hnp
    rw [hsc hnp]
    simp only [ref, hlg, Option.getD_some]
  · rw [hsc (hpk hz)]
    simp only [ref, hlg, Option.getD_some]

/-- A network over `V` tokens with one attention layer. -/
noncomputable def oneLayer (V m : Nat) : Net ℝ (Fin V → ℝ) 1 1 m where
  embed t := t
  layers := [⟨id, fun _ _ _ => 1, fun x _ _ => x, fun x _ _ => x, fun a => a 0 0, fun a x => a + x, fun _ x => x⟩]
  logits x := fun v => x * v.val
  rel _ i j := i - j

/-- The hypotheses of `C62_encdec` are met: rows of length 4, the second with a prompt of one token and at most one further token; token 3 is
chosen first, then the end marker 1. -/
example : ∃ out lp logits, (predictEncDec (oneLayer 6 2) (fun _ => ![5, 1]) (fun k _ _ => if k = 0 then 3 else 1) 1 4
      [((![0, 0, 0, 0] : Masks.Row 4), none), (![0, 5, 0, 0], some 1)])[1]? = some (out, lp) ∧ out.length = 4 ∧
      (∀ j : Fin 4, 1 ≤ j.val → j.val ≤ 1 → out.getD (j.val - 1) 0 = (![0, 5, 0, 0] : Masks.Row 4) j) ∧
      full (oneLayer 6 2) ![5, 1] (shifted 4 0 out) (asRow 4 out) = some logits ∧ lp = scoreRow logits (asRow 4 out) (weightsFrom 4 1 out) := by
  obtain ⟨out, lp, logits, h1, h2, h3, h4, _, h5⟩ := C62_encdec (oneLayer 6 2) (fun _ => ![5, 1]) (fun k _ _ => if k = 0 then 3 else 1) 1 (by decide)
    [((![0, 0, 0, 0] : Masks.Row 4), none), (![0, 5, 0, 0], some 1)] 4 (by decide) 1 (![0, 5, 0, 0], some 1) rfl 1
    ⟨by decide, by intro j h1 h2; have : j = 1 := by omega
                   subst this; decide, by
      intro j hj
      by_cases h : j < 4
      · rcases (show j = 2 ∨ j = 3 by omega) with rfl | rfl <;> decide
      · rw [List.getD_eq_getElem?_getD, List.getElem?_eq_none (by simp; omega)]; rfl⟩ (by decide) (Or.inl (by decide))
  exact ⟨out, lp, logits, h1, h2, h3, h4, h5 (fun k _ _ => by split_ifs <;> decide)⟩

/-- The hypotheses of `C62_decoder_only` are met: a prompt of two tokens in a row of length 5 whose target part is ignored. -/
example : ∃ out lp logits, (predictLM (oneLayer 6 0) true (fun k _ _ => if k = 0 then 3 else 1) 1 5
      [⟨(![0, 4, 5, 2, 2] : Masks.Row 5), ![1, 1, 1, 0, 0], none⟩])[0]? = some (out, lp) ∧
      fullOnly (oneLayer 6 0) (shifted 5 0 out) (asRow 5 out) (some ![1, 1, 1, 0, 0]) = some logits ∧
      lp = scoreRow logits (asRow 5 out) (weightsFrom 5 2 out) := by
  obtain ⟨out, lp, logits, h1, h2, h3, h4, _, h5⟩ := C62_decoder_only (oneLayer 6 0) true (fun k _ _ => if k = 0 then 3 else 1) 1 (by decide)
    [⟨(![0, 4, 5, 2, 2] : Masks.Row 5), ![1, 1, 1, 0, 0], none⟩] 5 (by decide) 0 ⟨![0, 4, 5, 2, 2], ![1, 1, 1, 0, 0], none⟩ rfl 2
    ⟨by decide, by decide⟩ (by decide) (by decide)
  exact ⟨out, lp, logits, h1, h4, h5 (fun k _ _ => by split_ifs <;> decide)⟩

/-- The condition is needed: when the padding token is sampled, its log-probability (here `-log 2`) is in the returned one, but the sequence's
score leaves it out. -/
theorem C62_padding_sampled : ∃ (net : Net Unit (Fin 2 → ℝ) 1 1 0) (lp : ℝ) (logits : Fin 1 → Fin 2 → ℝ),
    predictEncDec net (fun _ => ![]) (fun _ _ _ => 0) 1 1 [((![0] : Masks.Row 1), none)] = [([0], lp)] ∧
    full net ![] (shifted 1 0 [0]) (asRow 1 [0]) = some logits ∧ lp < scoreRow logits (asRow 1 [0]) (weightsFrom 1 0 [0]) := by
  refine ⟨⟨fun _ => (), [], fun _ _ => 0, fun _ _ _ => 0⟩, logSoftmax (fun _ : Fin 2 => (0 : ℝ)) 0, _, ?_, rfl, ?_⟩
  · simp [predictEncDec, sample, singleTrial, loop, initSt, initRow, allEnded, body, next, stepRow, output, maxDecodeLen, step, stackStep]
  · have h1 : logSoftmax (fun _ : Fin 2 => (0 : ℝ)) 0 < 0 := by
      have : (0 : ℝ) < Real.log 2 := Real.log_pos (by norm_num)
      simp [logSoftmax, Loss.logsumexp, this]
    have h2 : ∀ lg : Fin 1 → Fin 2 → ℝ, scoreRow lg (asRow 1 [0]) (weightsFrom 1 0 [0]) = 0 := by
      intro lg
      simp [scoreRow, weightsFrom]
    rw [h2]
    exact h1

end Verif.Score
