import Verif.Lemmas.Export
/-
C67: the features an exported encoder-decoder model computes from a request.
C68: the features an exported decoder-only model computes from a request.
C69: counts of tokens, warmup examples, decoder parameters and outputs of exported models.
-/
namespace Verif.Export
open Spec

theorem entry_toTensor {α : Type} (ts : List α) (r : α → List Int) (i j : Nat) :
    entry (toTensor (ts.map r)) i j = (match ts[i]? with | some t => (r t).getD j 0 | none => 0) := by
  unfold entry toTensor
  rw [List.getD_eq_getElem?_getD (i := i)]
  simp only [List.getElem?_map]
  cases ts[i]? with
  | none => simp
  | some t => simp only [Option.map_some, Option.getD_some]; rw [getD_append_zeros]

theorem isArray_toTensor {α : Type} (ts : List α) (r : α → List Int) :
    IsArray (toTensor (ts.map r)) ts.length ((ts.map fun t => (r t).length).foldl max 0) := by
  unfold IsArray toTensor
  refine ⟨by simp, ?_⟩
  intro row hrow
  rw [List.mem_map] at hrow
  obtain ⟨q, hq, rfl⟩ := hrow
  rw [List.mem_map] at hq
  obtain ⟨t, ht, rfl⟩ := hq
  have h1 : (ts.map r).map List.length = ts.map fun t => (r t).length := by simp
  rw [h1]
  have := (foldl_max (ts.map fun t => (r t).length) 0).2.1 _ (List.mem_map.mpr ⟨t, ht, rfl⟩)
  simp; omega

theorem width_batch (f : Feature) (rows : List (List Int)) (hne : rows ≠ []) (w : List Int → Nat) (hw : ∀ t, Width f [t] (w t)) :
    Width f rows ((rows.map w).foldl max 0) := by
  obtain ⟨_, h2, h3⟩ := foldl_max (rows.map w) 0
  have h4 : ∃ t ∈ rows, (rows.map w).foldl max 0 = w t := by
    rcases h3 with h3 | h3
    · obtain ⟨t, ht⟩ := List.exists_mem_of_ne_nil rows hne
      have := h2 _ (List.mem_map.mpr ⟨t, ht, rfl⟩)
      exact ⟨t, ht, by omega⟩
    · obtain ⟨t, ht, he⟩ := List.mem_map.mp h3
      exact ⟨t, ht, he.symm⟩
  obtain ⟨t, ht, he⟩ := h4
  refine ⟨by rw [he]; exact (hw t).1, ?_, ?_⟩
  · intro u hu
    exact le_trans ((hw u).2.1 u (by simp)) (h2 _ (List.mem_map.mpr ⟨u, hu, rfl⟩))
  · intro v hv hall
    rw [he]
    exact (hw t).2.2 v hv (by simpa using hall t ht)

theorem width_unique (f : Feature) (rows : List (List Int)) (a b : Nat) (ha : Width f rows a) (hb : Width f rows b) : a = b :=
  Nat.le_antisymm (ha.2.2 b hb.1 hb.2.1) (hb.2.2 a ha.1 ha.2.1)

/-- What `preprocess` gives for valid features. -/
theorem preprocess_ok (fi ft : Feature) (hi : Valid fi) (ht : Valid ft) :
    ∃ wi wt : List Int → Nat, (∀ t, Width fi [t] (wi t)) ∧ (∀ t, Width ft [t] (wt t)) ∧
      (∀ t j, (cutPad (wi t) (withEos fi t)).getD j 0 = (wanted fi t).getD j 0) ∧
      (∀ t j, (cutPad (wt t) (withEos ft t)).getD j 0 = (wanted ft t).getD j 0) ∧
      ∀ inputs targets, preprocess fi ft inputs targets = .ok
        ⟨toTensor (inputs.map fun t => cutPad (wi t) (withEos fi t)), toTensor (targets.map fun t => cutPad (wt t) (withEos ft t)),
          toTensor (targets.map fun t => arInputs (cutPad (wt t) (withEos ft t))),
          toTensor (targets.map fun t => nonPadding (cutPad (wt t) (withEos ft t)))⟩ := by
  choose wi hi1 hi2 hi3 using truncatePad_valid fi hi
  choose wt ht1 ht2 ht3 using truncatePad_valid ft ht
  refine ⟨wi, wt, hi2, ht2, hi3, ht3, ?_⟩
  intro inputs targets
  have ha := mapE_ok (featurize fi) (fun t => (cutPad (wi t) (withEos fi t), arInputs (cutPad (wi t) (withEos fi t)), nonPadding (cutPad (wi t) (withEos fi t))))
    inputs (fun t _ => by simp only [featurize, hi1 t])
  have hb := mapE_ok (featurize ft) (fun t => (cutPad (wt t) (withEos ft t), arInputs (cutPad (wt t) (withEos ft t)), nonPadding (cutPad (wt t) (withEos ft t))))
    targets (fun t _ => by simp only [featurize, ht1 t])
  unfold preprocess
  rw [ha, hb]
  simp only [List.map_map]
  rfl

/-- **C67.**  For every batch, the arrays have the smallest of the permitted widths that holds all rows, and show in each row the tokens cut to the length of
the feature (with EOS as the last token, if the feature has one), then padding.  Loss weights are 1 exactly on tokens that are not padding.  Thus batching a row with
others, and bucketing, change nothing but the amount of padding. -/
theorem C67_features (fi ft : Feature) (hi : Valid fi) (ht : Valid ft) (inputs targets : List (List Int)) (hin : inputs ≠ []) (htn : targets ≠ []) :
    ∃ p wi wt, preprocess fi ft inputs targets = .ok p ∧ Width fi inputs wi ∧ Width ft targets wt ∧
      IsArray p.encoderInput inputs.length wi ∧ IsArray p.decoderTarget targets.length wt ∧
      IsArray p.decoderInput targets.length wt ∧ IsArray p.lossWeights targets.length wt ∧
      (∀ i (h : i < inputs.length) j, entry p.encoderInput i j = (wanted fi inputs[i]).getD j 0) ∧
      (∀ i (h : i < targets.length) j, entry p.decoderTarget i j = (wanted ft targets[i]).getD j 0 ∧
        entry p.lossWeights i j = if (wanted ft targets[i]).getD j 0 = 0 then 0 else 1) := by
  obtain ⟨wi, wt, h1, h2, h3, h4, h5⟩ := preprocess_ok fi ft hi ht
  refine ⟨_, _, _, h5 inputs targets, width_batch fi inputs hin wi h1, width_batch ft targets htn wt h2, ?_, ?_, ?_, ?_, ?_, ?_⟩
  · have := isArray_toTensor inputs fun t => cutPad (wi t) (withEos fi t)
    simpa only [cutPad_length] using this
  · have := isArray_toTensor targets fun t => cutPad (wt t) (withEos ft t)
    simpa only [cutPad_length] using this
  · have := isArray_toTensor targets fun t => arInputs (cutPad (wt t) (withEos ft t))
    simpa only [arInputs, List.length_take, List.length_cons, cutPad_length, Nat.min_eq_left (Nat.le_succ _)] using this
  · have := isArray_toTensor targets fun t => nonPadding (cutPad (wt t) (withEos ft t))
    simpa only [nonPadding, List.length_map, cutPad_length] using this
  · intro i h j
    simp only [entry_toTensor, List.getElem?_eq_getElem h]
    exact h3 _ j
  · intro i h j
    simp only [entry_toTensor, List.getElem?_eq_getElem h]
    exact ⟨h4 _ j, by rw [nonPadding_getD, h4]⟩

/-- **C67.**  The decoder inputs are the targets shifted right, with 0 in front, up to the width the row alone would have; 0 after that.  In particular a position with
loss weight 1 always has the token before it as its input. -/
theorem C67_shift (fi ft : Feature) (hi : Valid fi) (ht : Valid ft) (inputs targets : List (List Int)) :
    ∃ p, preprocess fi ft inputs targets = .ok p ∧
      (∀ i (h : i < targets.length) w, Width ft [targets[i]] w → ∀ j,
        entry p.decoderInput i j = if j = 0 ∨ w ≤ j then 0 else (wanted ft targets[i]).getD (j - 1) 0) ∧
      (∀ i, i < targets.length → ∀ j, 1 ≤ j → entry p.lossWeights i j = 1 → entry p.decoderInput i j = entry p.decoderTarget i (j - 1)) := by
  obtain ⟨wi, wt, h1, h2, h3, h4, h5⟩ := preprocess_ok fi ft hi ht
  have key : ∀ i (h : i < targets.length) w, Width ft [targets[i]] w → ∀ j,
      entry (toTensor (targets.map fun t => arInputs (cutPad (wt t) (withEos ft t)))) i j
        = if j = 0 ∨ w ≤ j then 0 else (wanted ft targets[i]).getD (j - 1) 0 := by
    intro i h w hw j
    have : wt targets[i] = w := width_unique ft _ _ _ (h2 targets[i]) hw
    simp only [entry_toTensor, List.getElem?_eq_getElem h]
    rw [arInputs_getD, cutPad_length, this]
    by_cases hj : j < w
    · rw [if_pos hj]
      by_cases h0 : j = 0
      · rw [if_pos h0, if_pos (Or.inl h0)]
      · rw [if_neg h0, if_neg (by omega), ← this, h4]
    · rw [if_neg hj, if_pos (by omega)]
  refine ⟨_, h5 inputs targets, key, ?_⟩
  intro i h j hj hw
  have hk := key i h _ (h2 targets[i]) j
  simp only [entry_toTensor, List.getElem?_eq_getElem h] at hw hk ⊢
  rw [nonPadding_getD, h4] at hw
  have hlt : j < wt targets[i] := by
    by_contra hc
    have hlen := (h2 targets[i]).2.1 targets[i] (by simp)
    rw [List.getD_eq_getElem?_getD, List.getElem?_eq_none (by omega)] at hw
    simp at hw
  rw [hk, if_neg (by omega), h4]

/-- **C67.**  If the largest of the permitted lengths is not the length of the feature, every request fails. -/
theorem C67_invalid (fi ft : Feature) (inputs targets : List (List Int)) (hne : inputs ≠ []) (l : List Nat) (hl : fi.allowed = some l) (hl0 : l ≠ [])
    (hbad : fi.length ∉ l ∨ ∃ w ∈ l, fi.length < w) : preprocess fi ft inputs targets = .error .allowedLengths := by
  have h : ∀ t ∈ inputs, featurize fi t = .error .allowedLengths := by
    intro t _
    unfold featurize truncatePad
    rw [hl]
    cases l with
    | nil => exact absurd rfl hl0
    | cons a l =>
      have hperm := List.perm_insertionSort (· ≤ ·) (a :: l)
      have hsort : ((a :: l).insertionSort (· ≤ ·)).Pairwise (· ≤ ·) := List.pairwise_insertionSort (· ≤ ·) (a :: l)
      have hlast : ¬ ((a :: l).insertionSort (· ≤ ·)).getLast? = some fi.length := by
        intro hc
        rcases hbad with hb | ⟨w, hw, hlt⟩
        · exact hb (hperm.mem_iff.mp (List.mem_of_getLast? hc))
        · have := (bucketize_spec _ hsort fi.length w hc)
          obtain ⟨i, hi, he⟩ := List.getElem_of_mem (hperm.mem_iff.mpr hw)
          rw [List.getLast?_eq_getElem?, List.getElem?_eq_getElem (by omega)] at hc
          have hc := Option.some.inj hc
          rcases Nat.lt_or_ge i (((a :: l).insertionSort (· ≤ ·)).length - 1) with h | h
          · have := List.pairwise_iff_getElem.mp hsort i _ hi (by omega) h
            omega
          · have hi' : i = ((a :: l).insertionSort (· ≤ ·)).length - 1 := by omega
            subst hi'; omega
      simp only [if_neg hlast]
  unfold preprocess
  rw [mapE_error _ _ _ hne h]

/-- A case of the theorems: buckets 2 and 4, EOS 1. -/
example : Valid ⟨some 1, 4, some [4, 2]⟩ ∧
    preprocess ⟨some 1, 4, some [4, 2]⟩ ⟨none, 4, some [2, 4]⟩ [[5], [6, 7, 8, 9, 10]] [[5], [6, 7, 8]]
      = .ok ⟨[[5, 1, 0, 0], [6, 7, 8, 1]], [[5, 0, 0, 0], [6, 7, 8, 0]], [[0, 5, 0, 0], [0, 6, 7, 8]], [[1, 0, 0, 0], [1, 1, 1, 0]]⟩ :=
  ⟨⟨by decide, by decide, by decide⟩, rfl⟩
example : preprocess ⟨some 1, 4, some [3, 2]⟩ ⟨none, 4, none⟩ [[5]] [[5]] = .error .allowedLengths :=
  C67_invalid _ _ _ _ (by decide) [3, 2] rfl (by decide) (by decide)

/-- **C67, finding.**  A row that fills its bucket loses its last token from the decoder inputs when it is batched with a longer row: the position after it shows 0, while
without buckets it shows the token. -/
theorem C67_bucket_last_token (fi ft : Feature) (hi : Valid fi) (ht : Valid ft) (inputs targets : List (List Int)) (i : Nat) (h : i < targets.length)
    (hfull : Width ft [targets[i]] (wanted ft targets[i]).length) (hlt : (wanted ft targets[i]).length < ft.length) (hpos : 0 < (wanted ft targets[i]).length) :
    (∃ p, preprocess fi ft inputs targets = .ok p ∧ entry p.decoderInput i (wanted ft targets[i]).length = 0) ∧
    (∃ p, preprocess fi ⟨ft.eos, ft.length, none⟩ inputs targets = .ok p ∧
      entry p.decoderInput i (wanted ft targets[i]).length = (wanted ft targets[i]).getD ((wanted ft targets[i]).length - 1) 0) := by
  constructor
  · obtain ⟨p, hp, h1, _⟩ := C67_shift fi ft hi ht inputs targets
    exact ⟨p, hp, by rw [h1 i h _ hfull, if_pos (Or.inr (le_refl _))]⟩
  · obtain ⟨p, hp, h1, _⟩ := C67_shift fi ⟨ft.eos, ft.length, none⟩ hi ⟨ht.1, by simp [widths], by simp [widths]⟩ inputs targets
    have hw : wanted ⟨ft.eos, ft.length, none⟩ targets[i] = wanted ft targets[i] := rfl
    refine ⟨p, hp, ?_⟩
    rw [h1 i h ft.length ⟨by simp [widths], by simp only [hw, List.mem_singleton, forall_eq]; omega, by simp [widths]⟩, if_neg (by omega), hw]

example : preprocess ⟨none, 4, none⟩ ⟨none, 4, some [2, 4]⟩ [[5]] [[5, 6], [6, 7, 8]]
      = .ok ⟨[[5, 0, 0, 0]], [[5, 6, 0, 0], [6, 7, 8, 0]], [[0, 5, 0, 0], [0, 6, 7, 8]], [[1, 1, 0, 0], [1, 1, 1, 0]]⟩ ∧
    preprocess ⟨none, 4, none⟩ ⟨none, 4, none⟩ [[5]] [[5, 6], [6, 7, 8]]
      = .ok ⟨[[5, 0, 0, 0]], [[5, 6, 0, 0], [6, 7, 8, 0]], [[0, 5, 6, 0], [0, 6, 7, 8]], [[1, 1, 0, 0], [1, 1, 1, 0]]⟩ := ⟨rfl, rfl⟩
example : Width ⟨none, 4, some [2, 4]⟩ [[5, 6]] (wanted ⟨none, 4, some [2, 4]⟩ [5, 6]).length := ⟨by decide, by decide, by decide⟩

/-- **C67, finding.**  For tokenized inputs padded to a common width, EOS is put after the padding and not after the tokens, and the targets, which are all padding, get an EOS
with loss weight 1. -/
theorem C67_tokenized_eos (fi ft : Feature) (hi : Valid fi) (ht : Valid ft) (e e' : Int) (he : fi.eos = some e) (he' : ft.eos = some e')
    (n : Nat) (rows : List (List Int)) (hr : ∀ r ∈ rows, r.length = n) (hfi : n < fi.length) (hft : n < ft.length) :
    ∃ p, preprocessTokenized fi ft rows = .ok p ∧ ∀ i, i < rows.length →
      entry p.encoderInput i n = e ∧ (∀ j, j < n → entry p.encoderInput i j = entry rows i j) ∧
      entry p.decoderTarget i n = e' ∧ (e' ≠ 0 → entry p.lossWeights i n = 1) := by
  obtain ⟨wi, wt, h1, h2, h3, h4, h5⟩ := preprocess_ok fi ft hi ht
  refine ⟨_, h5 rows _, ?_⟩
  intro i h
  have hn : rows[i].length = n := hr _ (List.getElem_mem h)
  have hwi : wanted fi rows[i] = rows[i] ++ [e] := by
    unfold wanted; rw [he]; simp only; rw [List.take_of_length_le (by omega)]
  have hwt : wanted ft (List.replicate rows[i].length 0) = List.replicate n 0 ++ [e'] := by
    unfold wanted; rw [he', hn]; simp only; rw [List.take_of_length_le (by simp; omega)]
  have hg : ∀ t : List Int, t.length = n → ∀ x, (t ++ [x]).getD n 0 = x := by
    intro t ht x; subst ht; simp
  simp only [List.map_map, entry_toTensor, List.getElem?_eq_getElem h, Function.comp]
  refine ⟨?_, ?_, ?_, ?_⟩
  · rw [h3, hwi, hg _ hn]
  · intro j hj
    rw [h3, hwi]
    unfold entry
    simp only [List.getD_eq_getElem?_getD]
    rw [List.getElem?_append_left (by omega), List.getElem?_eq_getElem h]; rfl
  · rw [h4, hwt, hg _ (by simp)]
  · intro hne
    rw [nonPadding_getD, h4, hwt, hg _ (by simp), if_neg hne]

example : preprocessTokenized ⟨some 1, 5, none⟩ ⟨some 1, 5, none⟩ [[5, 6, 0], [7, 0, 0]]
    = .ok ⟨[[5, 6, 0, 1, 0], [7, 0, 0, 1, 0]], [[0, 0, 0, 1, 0], [0, 0, 0, 1, 0]], [[0, 0, 0, 0, 1], [0, 0, 0, 0, 1]], [[0, 0, 0, 1, 0], [0, 0, 0, 1, 0]]⟩ := rfl

/-- **C67.**  A text is split at the first occurrence of the separator. -/
theorem C67_split {α : Type} [DecidableEq α] (sep : List α) (hs : sep ≠ []) (a b : List α)
    (hfirst : ∀ i, i < a.length → ¬ sep <+: (a ++ sep ++ b).drop i) : splitOnce sep (a ++ sep ++ b) = (a, b) := by
  induction a with
  | nil =>
    cases sep with
    | nil => exact absurd rfl hs
    | cons c sep =>
      simp only [List.nil_append, List.cons_append, splitOnce]
      rw [if_pos]
      · simp
      · rw [List.isPrefixOf_iff_prefix]
        exact ⟨b, by simp⟩
  | cons c a ih =>
    simp only [List.cons_append, splitOnce]
    rw [if_neg]
    · rw [ih]
      intro i hi
      have := hfirst (i + 1) (by simpa using hi)
      simpa using this
    · rw [List.isPrefixOf_iff_prefix]
      have := hfirst 0 (by simp)
      simpa using this

/-- **C67.**  A text without the separator is all input, with empty target. -/
theorem C67_split_absent {α : Type} [DecidableEq α] (sep s : List α) (h : ¬ sep <:+: s) : splitOnce sep s = (s, []) := by
  induction s with
  | nil => rfl
  | cons c s ih =>
    simp only [splitOnce]
    rw [if_neg]
    · rw [ih (fun hc => h (hc.trans (List.infix_cons (List.infix_refl s))))]
    · rw [List.isPrefixOf_iff_prefix]
      exact fun hp => h hp.isInfix

example : splitOnce "||".toList "a|b||c||d".toList = ("a|b".toList, "c||d".toList) :=
  C67_split "||".toList (by decide) "a|b".toList "c||d".toList (by decide)

/-! ### Decoder-only models -/

theorem rowLength_eq (toks : List Int) (k : Nat) (h : toks.getLast? ≠ some 0) : rowLength (toks ++ List.replicate k 0) = toks.length := by
  unfold rowLength
  rw [List.reverse_append, List.reverse_replicate]
  have : ∀ k, (List.replicate k (0 : Int) ++ toks.reverse).dropWhile (· = 0) = toks.reverse.dropWhile (· = 0) := by
    intro k
    induction k with
    | zero => simp
    | succ k ih => rw [List.replicate_succ, List.cons_append, List.dropWhile_cons_of_pos (by simp), ih]
  rw [this]
  rw [List.getLast?_eq_head?_reverse] at h
  cases hr : toks.reverse with
  | nil => simpa using congrArg List.length hr.symm
  | cons x l =>
    rw [hr] at h
    have hx : x ≠ 0 := by simpa using h
    rw [List.dropWhile_cons_of_neg (by simpa using hx), ← hr]; simp

/-- The tokens of a request with EOS appended if the feature has one. -/
def requestTokens (eos : Option Int) (t : List Int) : List Int := t ++ eos.toList

theorem entry_map (rows : List (List Int)) (g : List Int → List Int) (i : Nat) (h : i < rows.length) (j : Nat) :
    entry (rows.map g) i j = (g rows[i]).getD j 0 := by
  unfold entry
  rw [List.getD_eq_getElem?_getD (i := i), List.getElem?_map, List.getElem?_eq_getElem h]; rfl

theorem getD_range_map (n j : Nat) (h : j < n) (g : Nat → Int) : ((List.range n).map g).getD j 0 = g j := by
  rw [List.getD_eq_getElem?_getD, List.getElem?_map, List.getElem?_range h]; rfl

theorem requestTokens_eq (eos : Option Int) (t : List Int) : t ++ eos.toList = requestTokens eos t := rfl

/-- **C68.**  If the rows of a request are tokens `toks i` followed by padding, all of one width, then the prompt the model sees (decoder inputs where the attention is not causal) is
a 0 followed by exactly these tokens, as far as they fit, and a position has loss weight 1 exactly if it is a padding token between the tokens: never, if there is none. -/
theorem C68_prompt (eos : Option Int) (total : Nat) (rows : List (List Int)) (toks : Nat → List Int) (pad : Nat → Nat)
    (hw : ∀ r ∈ rows, ∀ r' ∈ rows, r.length = r'.length)
    (hrow : ∀ i (h : i < rows.length), requestTokens eos rows[i] = toks i ++ List.replicate (pad i) 0)
    (hlast : ∀ i, (toks i).getLast? ≠ some 0) :
    ∃ p, preprocessDecoder eos true total rows = .ok p ∧
      IsArray p.decoderInput rows.length total ∧ IsArray p.decoderTarget rows.length total ∧ IsArray p.lossWeights rows.length total ∧
      IsArray p.causal rows.length total ∧
      ∀ i, i < rows.length → ∀ j, j < total →
        entry p.decoderTarget i j = (toks i).getD j 0 ∧
        entry p.decoderInput i j * entry p.causal i j = (if j = 0 then 0 else (toks i).getD (j - 1) 0) ∧
        (entry p.causal i j = if j ≤ (toks i).length then 1 else 0) ∧
        (entry p.lossWeights i j = if j < (toks i).length ∧ (toks i).getD j 0 = 0 then 1 else 0) := by
  have hall : ((rows.map fun t => t ++ eos.toList).all
      fun t => t.length = ((rows.map fun t => t ++ eos.toList).headD []).length) = true := by
    cases hrows : rows with
    | nil => rfl
    | cons r0 rs =>
      rw [List.all_eq_true]
      intro t ht
      rw [List.mem_map] at ht
      obtain ⟨r, hr, rfl⟩ := ht
      simp only [List.map_cons, List.headD_cons, decide_eq_true_eq, List.length_append]
      rw [hw r (hrows ▸ hr) r0 (hrows ▸ List.mem_cons_self)]
  unfold preprocessDecoder
  rw [if_neg (by rw [hall]; simp), if_neg (by simp)]
  refine ⟨_, rfl, ⟨by simp, ?_⟩, ⟨by simp, ?_⟩, ⟨by simp, ?_⟩, ⟨by simp, ?_⟩, ?_⟩
  · intro r hr
    obtain ⟨t, _, rfl⟩ := List.mem_map.mp hr
    simp [arInputs, cutPad_length]
  · intro r hr
    obtain ⟨t, _, rfl⟩ := List.mem_map.mp hr
    exact cutPad_length _ _
  · intro r hr
    obtain ⟨t, _, rfl⟩ := List.mem_map.mp hr
    simp
  · intro r hr
    obtain ⟨t, _, rfl⟩ := List.mem_map.mp hr
    simp
  · intro i hi j hj
    have hti := hrow i hi
    have hlen := rowLength_eq (toks i) (pad i) (hlast i)
    simp only [requestTokens_eq]
    simp only [List.map_map]
    simp only [entry_map rows _ i hi j, Function.comp, hti, hlen, getD_range_map total j hj, nonPadding_getD, arInputs_getD, cutPad_getD, cutPad_length,
      getD_append_zeros, if_pos hj, if_true]
    have hout : (toks i).length ≤ j → (toks i).getD j 0 = 0 := by
      intro h; rw [List.getD_eq_getElem?_getD, List.getElem?_eq_none h]; rfl
    refine ⟨trivial, ?_, ?_, ?_⟩
    · by_cases h0 : j = 0
      · simp [h0]
      · rw [if_neg h0, if_neg h0, if_pos (by omega)]
        by_cases hc : j < (toks i).length + 1
        · rw [if_pos hc]; simp
        · rw [if_neg hc, List.getD_eq_getElem?_getD, List.getElem?_eq_none (by omega)]; simp
    · by_cases hc : j < (toks i).length + 1
      · rw [if_pos hc, if_pos (by omega)]
      · rw [if_neg hc, if_neg (by omega)]
    · by_cases hc : j < (toks i).length
      · by_cases hz : (toks i).getD j 0 = 0
        · simp [hc, hz]
        · simp [hc, hz]
      · have := hout (by omega)
        simp [hc, this]

example : preprocessDecoder none true 5 [[5, 6, 0], [7, 0, 0]]
    = .ok ⟨[[0, 5, 6, 0, 0], [0, 7, 0, 0, 0]], [[5, 6, 0, 0, 0], [7, 0, 0, 0, 0]], [[0, 0, 0, 0, 0], [0, 0, 0, 0, 0]], [[1, 1, 1, 0, 0], [1, 1, 0, 0, 0]]⟩ := rfl

/-- **C68, finding.**  If the feature adds EOS, padded rows get it behind the padding: padding becomes part of the prompt and gets loss weight 1. -/
theorem C68_eos_after_padding (e : Int) (he : e ≠ 0) (total : Nat) (rows : List (List Int)) (n : Nat) (hn : ∀ r ∈ rows, r.length = n) (hfit : n < total) :
    ∃ p, preprocessDecoder (some e) true total rows = .ok p ∧ ∀ i, i < rows.length → ∀ j, j < n →
      entry p.causal i j = 1 ∧ (entry rows i j = 0 → entry p.lossWeights i j = 1) := by
  obtain ⟨p, hp, _, _, _, _, h⟩ := C68_prompt (some e) total rows (fun i => (rows.getD i []) ++ [e]) (fun _ => 0)
    (fun r hr r' hr' => by rw [hn r hr, hn r' hr'])
    (fun i hi => by simp [requestTokens, hi]) (fun i => by simpa using he)
  refine ⟨p, hp, ?_⟩
  intro i hi j hj
  have hl : (rows.getD i []).length = n := by
    rw [List.getD_eq_getElem?_getD, List.getElem?_eq_getElem hi]; exact hn _ (List.getElem_mem hi)
  obtain ⟨_, _, h3, h4⟩ := h i hi j (by omega)
  refine ⟨?_, ?_⟩
  · rw [h3, if_pos (by simp only [List.length_append, hl]; omega)]
  · intro hz
    rw [h4, if_pos]
    refine ⟨by simp only [List.length_append, hl]; omega, ?_⟩
    unfold entry at hz
    rw [List.getD_eq_getElem?_getD, List.getElem?_append_left (by omega), ← List.getD_eq_getElem?_getD]; exact hz

example : preprocessDecoder (some 1) true 5 [[5, 6, 0], [7, 0, 0]]
    = .ok ⟨[[0, 5, 6, 0, 1], [0, 7, 0, 0, 1]], [[5, 6, 0, 1, 0], [7, 0, 0, 1, 0]], [[0, 0, 1, 0, 0], [0, 1, 1, 0, 0]], [[1, 1, 1, 1, 1], [1, 1, 1, 1, 1]]⟩ := rfl

/-- **C68.**  With targets as the feature, a request of one row gets no prompt, and loss weight 1 exactly on its tokens. -/
theorem C68_targets_partial (eos : Option Int) (total : Nat) (row : List Int) :
    ∃ p, preprocessDecoder eos false total [row] = .ok p ∧ ∀ j, j < total →
      entry p.causal 0 j = 0 ∧ entry p.decoderTarget 0 j = (requestTokens eos row).getD j 0 ∧
      (entry p.lossWeights 0 j = if (requestTokens eos row).getD j 0 = 0 then 0 else 1) := by
  unfold preprocessDecoder
  rw [if_neg (by simp), if_neg (by simp)]
  refine ⟨_, rfl, ?_⟩
  intro j hj
  simp only [requestTokens_eq]
  simp only [List.map_map]
  simp only [entry_map [row] _ 0 (by simp) j, Function.comp, getD_range_map total j hj, nonPadding_getD, cutPad_getD, if_pos hj, List.getElem_cons_zero]
  refine ⟨by simp, trivial, ?_⟩
  by_cases hz : (requestTokens eos row).getD j 0 = 0 <;> simp [hz]

/-- **C68, finding.**  With targets as the feature, a request of more than one row fails, unless its number of rows happens to be the length of the rows. -/
theorem C68_targets_fail (eos : Option Int) (total : Nat) (rows : List (List Int)) (h1 : rows.length ≠ 1) (h2 : rows.length ≠ total) :
    preprocessDecoder eos false total rows = .error .shape := by
  unfold preprocessDecoder
  simp only
  rw [if_pos (show (!false && decide (rows.length ≠ 1) && decide (rows.length ≠ total)) = true by simp [h1, h2])]
  split <;> rfl

/-- **C68, finding.**  Texts of different numbers of tokens cannot be in one request. -/
theorem C68_unequal (eos : Option Int) (b : Bool) (total : Nat) (rows : List (List Int)) (r r' : List Int) (hr : r ∈ rows) (hr' : r' ∈ rows) (h : r.length ≠ r'.length) :
    preprocessDecoder eos b total rows = .error .shape := by
  unfold preprocessDecoder
  rw [if_pos]
  by_contra hc
  rw [Bool.not_eq_false] at hc
  rw [List.all_eq_true] at hc
  have a := hc _ (List.mem_map.mpr ⟨r, hr, rfl⟩)
  have b := hc _ (List.mem_map.mpr ⟨r', hr', rfl⟩)
  rw [decide_eq_true_eq, List.length_append] at a b
  omega

example : preprocessDecoder none false 4 [[5], [6]] = .error .shape := C68_targets_fail _ _ _ (by decide) (by decide)
example : preprocessDecoder none true 4 [[5], [6, 7]] = .error .shape := C68_unequal _ _ _ _ [5] [6, 7] (by decide) (by decide) (by decide)
example : preprocessDecoder none false 4 [[5, 6]] = .ok ⟨[[0, 5, 6, 0]], [[5, 6, 0, 0]], [[1, 1, 0, 0]], [[0, 0, 0, 0]]⟩ := rfl

/-! ### Outputs and warmup -/

theorem cumsum_pos (s : Nat) (hs : 0 < s) : ∀ l : List Nat, ((cumsum s l).map fun s => if s = 0 then 1 else 0).sum = 0
  | [] => rfl
  | x :: l => by
    simp only [cumsum, List.map_cons, List.sum_cons]
    rw [if_neg (by omega), cumsum_pos (s + x) (by omega) l]

theorem before_eos_sum (e : Int) : ∀ t : List Int,
    ((cumsum 0 (t.map fun x => if x = e then 1 else 0)).map fun s => if s = 0 then 1 else 0).sum = t.idxOf e
  | [] => rfl
  | x :: t => by
    simp only [List.map_cons, cumsum, List.sum_cons, Nat.zero_add]
    by_cases h : x = e
    · rw [if_pos h, if_neg (by omega), cumsum_pos 1 (by omega)]; simp [h]
    · rw [if_neg h, if_pos rfl, before_eos_sum e t, List.idxOf_cons_ne t h]; omega

/-- **C69.**  The number of tokens before EOS: the position of the first EOS, or all tokens if there is none.  All tokens before that position are not EOS. -/
theorem C69_before_eos (e : Int) (he : e ≠ 0) (t : List Int) :
    (∀ j, j < tokensBeforeEos (some e) t → t[j]? ≠ some e) ∧ tokensBeforeEos (some e) t ≤ t.length ∧
    (tokensBeforeEos (some e) t < t.length → t[tokensBeforeEos (some e) t]? = some e) ∧ tokensBeforeEos none t = t.length := by
  have h : tokensBeforeEos (some e) t = t.idxOf e := by
    simp only [tokensBeforeEos, if_neg he, before_eos_sum]
  rw [h]
  refine ⟨?_, List.idxOf_le_length, ?_, rfl⟩
  · intro j hj hc
    have := List.idxOf_le_length (a := e) (l := t)
    have hlt : j < t.length := by omega
    rw [List.getElem?_eq_getElem hlt] at hc
    have hne := List.not_of_lt_findIdx (p := (· == e)) (xs := t) (i := j) (by simpa [List.idxOf] using hj)
    simp only [Option.some.injEq] at hc
    simp [hc] at hne
  · intro hlt
    rw [List.getElem?_eq_getElem hlt]
    simp

example : tokensBeforeEos (some 1) [5, 6, 1, 7, 1, 0] = 2 := by decide

/-- **C69.**  A generated warmup example has exactly the wanted number of tokens, as the vocabulary encodes it. -/
theorem C69_warmup {S : Type} (encode : S → List Int) (decode : List Int → S) (ids : List Int) (n : Nat) (s : S)
    (h : generateExample encode decode ids n = .ok s) : (encode s).length = n := by
  unfold generateExample at h
  split at h
  · exact absurd h (by simp)
  · split at h
    · rename_i i hi
      have := List.find?_some hi
      simp only [Except.ok.injEq] at h
      subst h
      simpa using this
    · exact absurd h (by simp)

/-- **C69.**  Generation succeeds if some part of the tokens that does not reach the end works. -/
theorem C69_warmup_complete {S : Type} (encode : S → List Int) (decode : List Int → S) (ids : List Int) (n i : Nat) (hi : i + n < ids.length)
    (h : (encode (decode ((ids.drop i).take n))).length = n) : ∃ s, generateExample encode decode ids n = .ok s := by
  unfold generateExample
  rw [if_neg (by omega)]
  cases hf : (List.range (ids.length - n)).find? (fun i => (encode (decode ((ids.drop i).take n))).length = n) with
  | some i => exact ⟨_, rfl⟩
  | none =>
    exfalso
    rw [List.find?_eq_none] at hf
    have := hf i (List.mem_range.mpr (by omega))
    simp [h] at this

/-- **C69, finding.**  Tokens of exactly the wanted number are refused, also if the vocabulary is lossless: the last start index is never tried. -/
theorem C69_warmup_exact {S : Type} (encode : S → List Int) (decode : List Int → S) (ids : List Int) :
    generateExample encode decode ids ids.length = .error .noExample := by
  unfold generateExample
  simp

example : generateExample (S := List Int) id id [5, 6, 7] 2 = .ok [5, 6] := rfl
example : ∃ s, generateExample (S := List Int) id id [5, 6, 7] 2 = .ok s := C69_warmup_complete _ _ _ 2 0 (by decide) (by decide)

theorem filterMap_length {α β : Type} (f : α → Option β) : ∀ l : List α, (∀ a ∈ l, (f a).isSome) → (l.filterMap f).length = l.length
  | [], _ => rfl
  | a :: l, h => by
    obtain ⟨b, hb⟩ := Option.isSome_iff_exists.mp (h a List.mem_cons_self)
    rw [List.filterMap_cons_some hb, List.length_cons, List.length_cons, filterMap_length f l (fun x hx => h x (List.mem_cons_of_mem _ hx))]

theorem filterMap_get {α β : Type} (f : α → Option β) : ∀ (l : List α) (i : Nat) (hi : i < l.length), (∀ a ∈ l, (f a).isSome) → (l.filterMap f)[i]? = f l[i]
  | [], _, hi, _ => absurd hi (by simp)
  | a :: l, i, hi, h => by
    obtain ⟨b, hb⟩ := Option.isSome_iff_exists.mp (h a List.mem_cons_self)
    rw [List.filterMap_cons_some hb]
    cases i with
    | zero => simp [hb]
    | succ i => simpa using filterMap_get f l i (by simpa using hi) (fun x hx => h x (List.mem_cons_of_mem _ hx))

/-- **C69.**  A warmup batch that is not empty is cut or repeated to exactly the batch size: entry `i` is example `i` modulo the number of examples. -/
theorem C69_batch {α : Type} (batch : List α) (hne : batch ≠ []) (n : Nat) :
    (adjustBatch batch (some n)).length = n ∧ (∀ i, i < n → (adjustBatch batch (some n))[i]? = batch[i % batch.length]?) ∧ adjustBatch batch none = batch := by
  have hp : 0 < batch.length := List.length_pos_of_ne_nil hne
  have h : ∀ i ∈ List.range n, (batch[i % batch.length]?).isSome := by
    intro i _
    rw [List.getElem?_eq_getElem (Nat.mod_lt _ hp)]; rfl
  refine ⟨?_, ?_, rfl⟩
  · simp only [adjustBatch]
    rw [filterMap_length _ _ h, List.length_range]
  · intro i hi
    simp only [adjustBatch]
    rw [filterMap_get _ _ i (by simpa using hi) h]
    simp

example : adjustBatch [1, 2] (some 5) = [1, 2, 1, 2, 1] := by decide

/-- **C69.**  With at least one decoder parameter, the trailing arguments become the parameters in the order of the specification, and the preprocessor gets the others. -/
theorem C69_decoder_params {α : Type} (names : List String) (inputs values : List α) (hn : names ≠ []) (hl : values.length = names.length) :
    spliceArgs names (inputs ++ values) = (inputs, names.zip values) := by
  have h0 : names.length ≠ 0 := by simpa using hn
  simp only [spliceArgs, if_neg h0]
  have : (inputs ++ values).length - names.length = inputs.length := by simp; omega
  rw [this]
  simp

/-- **C69, finding.**  With an empty specification the preprocessor gets no arguments at all. -/
theorem C69_no_decoder_params {α : Type} (args : List α) : spliceArgs [] args = ([], []) := rfl

/-- **C69.**  Naming the outputs keeps values and order, and fails if the numbers differ. -/
theorem C69_names {α : Type} (values : List α) (names : List String) :
    (values.length = names.length → ∃ r, nameOutputs values names = some r ∧ r.map (·.1) = names ∧ r.map (·.2) = values) ∧
    (values.length ≠ names.length → nameOutputs values names = none) := by
  constructor
  · intro h
    refine ⟨_, if_pos h, ?_, ?_⟩
    · exact List.map_fst_zip (by omega)
    · exact List.map_snd_zip (by omega)
  · intro h
    exact if_neg h

example : spliceArgs ["t", "k"] [1, 2, 3] = ([1], [("t", 2), ("k", 3)]) := C69_decoder_params ["t", "k"] [1] [2, 3] (by decide) rfl
example : nameOutputs [1, 2] ["a", "b"] = some [("a", 1), ("b", 2)] := rfl

end Verif.Export
