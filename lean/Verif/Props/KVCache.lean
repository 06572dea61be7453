import Verif.Lemmas.KVCache
/-
C60: decoding one token at a time with the key/value cache gives the logits of the whole-sequence forward pass.
C61: so does decoding after prefilling the cache with a prompt.
-/
namespace Verif.KVCache
open Verif.Masks

variable {H Y : Type} {h d m : Nat}

/-- **C60**.  Feed the decoder input tokens one at a time, starting from an empty cache at least as long as the sequence.  At every
position up to which the targets contain no padding, the logits are those of the whole-sequence forward pass with these targets: for any
number of layers, heads and dimensions, any weights (the parameters of the network) and any encoder input. -/
theorem C60_incremental {n : Nat} (net : Net H Y h d m) (enc : Row m) (inputs targets : Row n) (L : Nat) (hL : n ≤ L) (t : Fin n)
    (hpos : ∀ j, j ≤ t → targets j > 0) :
    ∃ out, full net enc inputs targets = some out ∧ (incremental L net enc (List.ofFn inputs))[t.val]? = some (out t) := by
  obtain ⟨M, hM, hspec⟩ := mask_spec targets none
  let cross : Mask n m := makeAttentionMask (fun i => ofBool (targets i > 0)) (fun i => ofBool (enc i > 0)) multiply
  have hX : makeEncoderDecoderMask targets enc none none = some cross := rfl
  refine ⟨_, by unfold full; rw [hM, hX], ?_⟩
  have hrow : ∀ i : Fin n, i ≤ t → ∀ j, M i j > 0 ↔ j.val ≤ i.val := by
    intro i hi j
    rw [hspec]
    constructor
    · rintro ⟨h | ⟨c, hc, _⟩, _⟩
      · exact h
      · cases hc
    · exact fun h => ⟨Or.inl h, hpos i hi, hpos j (show j.val ≤ t.val from le_trans h hi)⟩
  have hc : ∀ i : Fin n, i ≤ t → cross i = makeAttentionMask (fun _ => 1 : Row 1) (fun i => ofBool (enc i > 0)) multiply 0 := by
    intro i hi
    funext j
    have := hpos i hi
    simp [cross, makeAttentionMask, multiply, ofBool, this]
  have e := feed_spec (step net enc) (fun i => cachesAt L M cross net.rel net.layers (fun j => net.embed (inputs j)) i) inputs
    (fun i => net.logits (stackFull net.layers M cross net.rel (fun j => net.embed (inputs j)) i)) 0 t.val t.isLt (fun i _ hi => ?_) t.val 0
    (by omega) (by omega)
  · rw [cachesAt_zero] at e
    exact e
  · have e := stackStep_spec hL M cross _ net.rel (sliceRow L net.rel) i (hrow i hi) (hc i hi) (fun hd j => ?_) net.layers
      (fun j => net.embed (inputs j))
    · simp only [step]
      rw [e]
    · have : clampIndex i.val L = i.val := by unfold clampIndex; have := i.isLt; omega
      simp only [sliceRow, this]

/-- One layer, one head of dimension 1; attends uniformly and forgets everything else. -/
noncomputable def meanNet : Net ℝ ℝ 1 1 0 where
  embed t := t
  layers := [⟨id, fun _ _ _ => 0, fun _ _ _ => 0, fun x _ _ => x, fun a => a 0 0, fun a _ => a, fun _ x => x⟩]
  logits := id
  rel _ _ _ := 0

/-- The condition on the targets is needed: with a padding token inside the targets (position 1 of 3), the whole-sequence pass masks that
position, while incremental decoding attends to it. -/
theorem C60_needs_nonpadding : ∃ out, full meanNet (fun i => i.elim0) ![0, 1, 0] ![1, 0, 1] = some out ∧
    (incremental 3 meanNet (fun i => i.elim0) [0, 1, 0])[2]? ≠ some (out 2) := by
  refine ⟨_, rfl, ?_⟩
  simp [incremental, feed, step, stackStep, layerStep, attentionStep, attend, meanNet, stackFull, layerFull, attention, biasMatrix, Cache.init,
    oneHot, clampIndex, sliceRow, ofBool, Fin.sum_univ_succ, makeCausalMask, makeAttentionMask, greaterEqual, multiply, logicalAnd]
  exact ⟨0, by decide⟩

/-- The hypotheses are met: three tokens, cache of length 4, last position. -/
example : ∃ out, full meanNet (fun i => i.elim0) ![0, 7, 3] ![7, 3, 1] = some out ∧
    (incremental 4 meanNet (fun i => i.elim0) (List.ofFn ![0, 7, 3]))[2]? = some (out 2) :=
  C60_incremental meanNet _ _ _ 4 (by decide) 2 (by decide)

/-- A prompt of `p` tokens, `p ≥ 0`, as the feature converter delivers it: after the start token at position 0, the prompt's tokens (not
padding) at positions 1 to `p`; `causal` marks positions 0 to `p`. -/
def Prompt {n : Nat} (inputs causal : Row n) (p : Fin n) : Prop :=
  (∀ j, causal j = if j ≤ p then 1 else 0) ∧ ∀ j : Fin n, 0 < j.val → j ≤ p → inputs j ≠ 0

theorem inputsLength_prompt {n : Nat} (inputs causal : Row n) (p : Fin n) (hp : Prompt inputs causal p) :
    inputsLength (fun j => inputs j * causal j) = p.val := by
  unfold inputsLength
  have hset : (Finset.univ.filter fun i : Fin n => 0 < i.val ∧ inputs i * causal i ≠ 0) = Finset.univ.filter fun i : Fin n => 0 < i.val ∧ i ≤ p := by
    refine Finset.filter_congr fun i _ => ?_
    rw [hp.1 i]
    constructor
    · rintro ⟨h1, h2⟩
      refine ⟨h1, ?_⟩
      by_contra h
      simp [h] at h2
    · rintro ⟨h1, h2⟩
      refine ⟨h1, ?_⟩
      simp [h2, hp.2 i h1 h2]
  rw [hset]
  have : (Finset.univ.filter fun i : Fin n => 0 < i.val ∧ i ≤ p) = (Finset.range p.val).attach.image fun k =>
      (⟨k.val + 1, by have := Finset.mem_range.1 k.2; have := p.isLt; omega⟩ : Fin n) := by
    ext i
    simp only [Finset.mem_filter, Finset.mem_univ, true_and, Finset.mem_image, Finset.mem_attach, Subtype.exists, Finset.mem_range]
    constructor
    · rintro ⟨h1, h2⟩
      have h2' : i.val ≤ p.val := h2
      exact ⟨i.val - 1, by omega, Fin.ext (by simp only; omega)⟩
    · rintro ⟨k, hk, rfl⟩
      exact ⟨by simp only; omega, show k + 1 ≤ p.val by omega⟩
  rw [this, Finset.card_image_of_injective, Finset.card_attach, Finset.card_range]
  intro a b hab
  simp only [Fin.mk.injEq, Nat.add_right_cancel_iff] at hab
  exact Subtype.ext hab

/-- **C61**.  Prediction with a decoder-only model (prefix language model, with bidirectional attention over the prompt or without).  The
target part of the decoder inputs is not seen; the initial index is the length of the prompt; and when the decoding loop feeds the tokens from
the initial index on, the logits at every position are those the whole-sequence forward pass (training, scoring) computes for the sequence
consisting of the prompt and the tokens fed. -/
theorem C61_prefill {n : Nat} (net : Net H Y h d 0) (bidirectional : Bool) (inputs targets causal : Row n) (p t : Fin n)
    (hp : Prompt inputs causal p) (hpt : p ≤ t) (hpos : ∀ j, j ≤ t → targets j > 0) :
    ∃ toks logits out, predict net bidirectional inputs causal = some (toks, p.val, logits) ∧
      (∀ j, toks j = if j ≤ p then inputs j else 0) ∧
      fullOnly net inputs targets (maybeCausal bidirectional causal) = some out ∧
      (logits ((List.ofFn inputs).drop p.val))[t.val - p.val]? = some (out t) := by
  obtain ⟨M, hM, hspec⟩ := mask_spec targets (maybeCausal bidirectional causal)
  obtain ⟨P, hP, hPspec⟩ := mask_spec causal (maybeCausal bidirectional causal)
  have hlen := inputsLength_prompt inputs causal p hp
  have hca : ∀ j, causal j > 0 ↔ j ≤ p := fun j => by rw [hp.1 j]; by_cases h : j ≤ p <;> simp [h]
  have hcan : ∀ j, causal j ≠ 0 ↔ j ≤ p := fun j => by rw [hp.1 j]; by_cases h : j ≤ p <;> simp [h]
  have hmc : ∀ c, maybeCausal bidirectional causal = some c → c = causal := by
    intro c hc
    unfold maybeCausal at hc
    split_ifs at hc
    exact (Option.some.inj hc).symm
  have hPM : ∀ i j, i ≤ p → (P i j > 0 ↔ M i j > 0) := by
    intro i j hi
    rw [hspec, hPspec, hca, hca]
    constructor
    · rintro ⟨h1, h2, h3⟩
      exact ⟨h1, hpos i (le_trans hi hpt), hpos j (le_trans h3 hpt)⟩
    · rintro ⟨h1, h2, h3⟩
      refine ⟨h1, hi, ?_⟩
      rcases h1 with h1 | ⟨c, hc, h4, h5⟩
      · exact le_trans (show j.val ≤ i.val from h1) hi
      · rw [hmc c hc] at h5
        exact (hcan j).1 h5
  have hMp : ∀ i j, i ≤ p → M i j > 0 → j ≤ p := by
    intro i j hi hij
    have := (hPM i j hi).2 hij
    rw [hPspec, hca, hca] at this
    exact this.2.2
  have hrow : ∀ i : Fin n, p ≤ i → i ≤ t → ∀ j, M i j > 0 ↔ j.val ≤ i.val := by
    intro i hpi hit j
    rw [hspec]
    constructor
    · rintro ⟨h1 | ⟨c, hc, h4, h5⟩, h2, h3⟩
      · exact h1
      · rw [hmc c hc] at h5
        exact le_trans ((hcan j).1 h5) hpi
    · intro hj
      exact ⟨Or.inl hj, hpos i hit, hpos j (le_trans (show j ≤ i from hj) hit)⟩
  refine ⟨_, _, _, by simp only [predict, computeKvCache, hP, hlen, Option.map_some]; rfl, ?_, by unfold fullOnly; rw [hM], ?_⟩
  · intro j
    rw [hp.1 j]
    by_cases h : j ≤ p <;> simp [h]
  · rw [prefillStack_spec p P M net.rel hPM hMp net.layers (fun j => net.embed (inputs j * causal j))
      (fun j => net.embed (inputs j)) (fun i hi => by rw [hp.1 i, if_pos hi, mul_one])]
    refine feed_spec (stepOnly net) (fun i => cachesAt n M (noCross n) net.rel net.layers (fun j => net.embed (inputs j)) i) inputs
      (fun i => net.logits (stackFull net.layers M (noCross n) net.rel (fun j => net.embed (inputs j)) i)) p.val t.val t.isLt (fun i hpi hit => ?_)
      (t.val - p.val) p.val le_rfl (by have : p.val ≤ t.val := hpt; omega)
    have e := stackStep_spec le_rfl M (noCross n) (fun j => j.elim0) net.rel (einsumRow n net.rel) i (hrow i hpi hit) (by funext j; exact j.elim0)
      (fun hd j => einsumRow_eq n net.rel i.val i.isLt hd j) net.layers (fun j => net.embed (inputs j))
    simp only [stepOnly]
    rw [e]

/-- A prompt of two tokens (`7, 3`) followed by the generated tokens `5, 1`: the hypotheses are met at the last position. -/
example : ∃ toks logits out, predict meanNet true ![0, 7, 3, 5, 1] ![1, 1, 1, 0, 0] = some (toks, 2, logits) ∧
    (∀ j, toks j = if j ≤ 2 then (![0, 7, 3, 5, 1] : Row 5) j else 0) ∧
    fullOnly meanNet ![0, 7, 3, 5, 1] ![7, 3, 5, 1, 9] (maybeCausal true ![1, 1, 1, 0, 0]) = some out ∧
    (logits [3, 5, 1])[2]? = some (out 4) :=
  C61_prefill meanNet true (![0, 7, 3, 5, 1] : Row 5) ![7, 3, 5, 1, 9] ![1, 1, 1, 0, 0] 2 4 ⟨by decide, by decide⟩ (by decide) (by decide)

/-- The prompt must not contain padding: with a token 0 inside the prompt (position 2 of 3) the initial index is 2, although
the last prompt token is at position 3. -/
theorem C61_padding_in_prompt : ∃ toks logits, predict meanNet true ![0, 7, 0, 5] ![1, 1, 1, 1] = some (toks, 2, logits) ∧ toks = ![0, 7, 0, 5] := by
  refine ⟨_, _, rfl, ?_⟩
  decide

end Verif.KVCache
