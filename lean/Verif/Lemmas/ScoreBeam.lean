import Verif.Model.ScoreBeam
import Verif.Lemmas.Score
import Verif.Props.BeamScore
import Verif.Props.Align
/- Beam search with a stepwise decoder. -/
namespace Verif.Score
open Verif.Beam Verif.Beam.Spec Verif.KVCache Verif.Masks Spec

theorem logSoftmax_nonpos {V : Nat} (x : Fin V → ℝ) (t : Fin V) : logSoftmax x t ≤ 0 := by
  unfold logSoftmax Loss.logsumexp
  have h1 : Real.exp (x t) ≤ ∑ i, Real.exp (x i) :=
    Finset.single_le_sum (f := fun i => Real.exp (x i)) (fun i _ => (Real.exp_pos _).le) (Finset.mem_univ t)
  have h2 := Real.log_le_log (Real.exp_pos _) h1
  rw [Real.log_exp] at h2
  linarith

/-- A token's term of the score; 0 for a token outside the vocabulary. -/
theorem score_term' {V : Nat} (x : Fin V → ℝ) (t : ℕ) : -(Loss.crossEntropy x (oneHot (t : Int)) 0).1 = (List.ofFn (logSoftmax x)).getD t 0 := by
  by_cases h : t < V
  · have := score_term x ⟨t, h⟩
    simp only at this
    rw [this, List.getD_eq_getElem?_getD, List.getElem?_ofFn, dif_pos h]
    rfl
  · rw [List.getD_eq_getElem?_getD, List.getElem?_eq_none (by rw [List.length_ofFn]; omega)]
    have : ∀ i : Fin V, (oneHot (t : Int) i : ℝ) = 0 := by
      intro i
      unfold oneHot
      rw [if_neg]
      intro e
      have := i.isLt
      omega
    simp [Loss.crossEntropy, this]

theorem beamStep_valid {S : Type} {V : Nat} (f : S → Int → (Fin V → ℝ) × S) (c : Cfg ℝ) (hV : c.vocab = V) : ValidStep c (beamStep f) := by
  intro n tok ch
  refine ⟨by simp [beamStep, hV], ?_⟩
  intro x hx
  simp only [beamStep, List.mem_ofFn] at hx
  obtain ⟨t, rfl⟩ := hx
  exact logSoftmax_nonpos _ _

theorem cacheAfter_eq {S : Type} {V : Nat} (f : S → Int → (Fin V → ℝ) × S) (ch : S) (s : List ℕ) (n : ℕ) :
    cacheAfter (beamStep f) ch s n = after f ch ((List.range n).map fun j => ((s.getD j 0 : ℕ) : Int)) := by
  induction n with
  | zero => rfl
  | succ n ih =>
    rw [cacheAfter, ih, List.range_succ, List.map_append]
    simp only [after, List.foldl_append, List.map_cons, List.map_nil, List.foldl_cons, List.foldl_nil, beamStep]

/-- The log-probability of a token, when the decoder fed with the sequence gives the logits `lg`. -/
theorem tokenLogProb_eq {S : Type} {V : Nat} (f : S → Int → (Fin V → ℝ) × S) (ch : S) (s : List ℕ) (j : ℕ) (toks : List Int)
    (htoks : ∀ i ≤ j, toks[i]? = some ((s.getD i 0 : ℕ) : Int)) (lg : Fin V → ℝ) (hlg : (feed f ch toks)[j]? = some lg) :
    tokenLogProb (beamStep f) ch s j = (List.ofFn (logSoftmax lg)).getD (s.getD (j + 1) 0) 0 := by
  have h1 : toks.take (j + 1) = ((List.range j).map fun i => ((s.getD i 0 : ℕ) : Int)) ++ [((s.getD j 0 : ℕ) : Int)] := by
    have : ((List.range j).map fun i => ((s.getD i 0 : ℕ) : Int)) ++ [((s.getD j 0 : ℕ) : Int)] =
        (List.range (j + 1)).map fun i => ((s.getD i 0 : ℕ) : Int) := by rw [List.range_succ, List.map_append]; rfl
    rw [this]
    apply List.ext_getElem?
    intro i
    by_cases hi : i < j + 1
    · rw [List.getElem?_take_of_lt hi, htoks i (by omega), List.getElem?_map, List.getElem?_range hi]
      rfl
    · rw [List.getElem?_eq_none (by rw [List.length_take]; omega), List.getElem?_eq_none (by rw [List.length_map, List.length_range]; omega)]
  rw [feed_take, h1] at hlg
  have h2 := feed_snoc f ((List.range j).map fun i => ((s.getD i 0 : ℕ) : Int)) ch ((s.getD j 0 : ℕ) : Int)
  rw [List.length_map, List.length_range] at h2
  rw [h2] at hlg
  have := Option.some.inj hlg
  unfold tokenLogProb
  rw [cacheAfter_eq]
  simp only [beamStep]
  rw [this]

theorem batchDecoder_get {S : Type} {V : Nat} (f : ℕ → S → Int → (Fin V → ℝ) × S) (rows i : ℕ) (hi : i < rows) (s : State ℝ S)
    (r : Beam.Row ℝ S) (hr : s.rows[i]? = some r) : (batchDecoder f rows s)[i]? = some (decoder (beamStep (f i)) s.cur r) := by
  unfold batchDecoder
  rw [List.getElem?_map, List.getElem?_range hi, Option.map_some, hr]
  rfl

/-- The batch decoder acts on every row as the decoder of that row. -/
theorem iter_row_decoder {S : Type} {V : Nat} (f : ℕ → S → Int → (Fin V → ℝ) × S) (c : Cfg ℝ) (ins : List RowIn) (firsts : List (ℕ × S))
    (hf : firsts.length = ins.length) (i : ℕ) (inp : RowIn) (first : ℕ) (ch : S) (h1 : ins[i]? = some inp) (h2 : firsts[i]? = some (first, ch))
    (n : ℕ) : (iter c ins firsts (batchDecoder f ins.length) n).rows[i]? = some (rowIter c inp first ch (decoder (beamStep (f i))) n) := by
  have hl : ∀ s, (batchDecoder f ins.length s).length = ins.length := by intro s; simp [batchDecoder]
  induction n with
  | zero => simp [iter, init, rowIter, h2]
  | succ n ih =>
    have hi := (List.getElem?_eq_some_iff.1 h1).1
    have e1 := iter_row c ins firsts (batchDecoder f ins.length) hf hl i inp first ch h1 h2 (n + 1)
    have e0 := iter_row c ins firsts (batchDecoder f ins.length) hf hl i inp first ch h1 h2 n
    rw [ih] at e0
    rw [e1]
    congr 1
    rw [rowIter, ← Option.some.inj e0]
    have : rowOracle c ins firsts (batchDecoder f ins.length) i n (rowIter c inp first ch (decoder (beamStep (f i))) n) =
        decoder (beamStep (f i)) n (rowIter c inp first ch (decoder (beamStep (f i))) n) := by
      unfold rowOracle
      rw [List.getD_eq_getElem?_getD, batchDecoder_get f _ i hi _ _ ih, iter_cur]
      rfl
    simp only [this]
    rfl

theorem getLast_mem_iff {α : Type} {l : List α} {x : α} (h : l.getLast? = some x) : x ∈ l := List.mem_of_getLast? h

/-- What the best beam of a row is. -/
theorem beam_generic {S : Type} {V : Nat} (f : ℕ → S → Int → (Fin V → ℝ) × S) (c : Cfg ℝ) (hc : Good c) (hV : c.vocab = V) (heos : c.eos ≠ 0)
    (ins : List RowIn) (firsts : List (ℕ × S)) (hf : firsts.length = ins.length) (i : ℕ) (inp : RowIn) (first : ℕ) (ch : S)
    (h1 : ins[i]? = some inp) (h2 : firsts[i]? = some (first, ch)) (p : ℕ) (hp : Prompt c.eos inp.inputs p)
    (hmin : ∀ x ∈ ins, inp.initialIndex ≤ x.initialIndex) (hroom : inp.initialIndex < c.maxLen) (fuel : ℕ) :
    ∃ N, inp.initialIndex + N < c.maxLen ∧ ∃ r sc seq, (beamRun f c ins firsts fuel)[i]? = some r ∧ (result r).getLast? = some (sc, seq.drop 1) ∧
      (∀ x ∈ result r, x.1 ≤ sc ∨ N = 0) ∧
      (c.negInf / c.bp c.maxLen < sc → seq.length = c.maxLen ∧ seq.getD 0 0 = first ∧
        ((∃ t, t ≤ N ∧ Finished c.eos c.maxLen first inp.inputs p t seq ∧ sc = value (beamStep (f i)) ch seq p t / c.bp (inp.initialIndex + t)) ∨
          (sc = value (beamStep (f i)) ch seq p N ∧ (∀ j, 1 ≤ j → j ≤ p → j ≤ N → seq.getD j 0 = inp.inputs.getD j 0) ∧
            (∀ j, p < j → j ≤ N → seq.getD j 0 ≠ c.eos) ∧ ∀ j, N < j → seq.getD j 0 = 0))) := by
  obtain ⟨N, hN, _, hcond, _⟩ := loop_iter c ins firsts (batchDecoder f ins.length) fuel 0
  rw [Nat.zero_add] at hN
  have hNlt : inp.initialIndex + N < c.maxLen := by
    cases N with
    | zero => omega
    | succ N =>
      have := hcond N (by omega)
      unfold Beam.cond at this
      simp only [Bool.and_eq_true, decide_eq_true_eq, Nat.zero_add, iter_cur] at this
      have hm : inp.initialIndex ≤ (ins.map (·.initialIndex)).min?.getD 0 := by
        cases hmn : (ins.map (·.initialIndex)).min? with
        | none =>
          rw [List.min?_eq_none_iff, List.map_eq_nil_iff] at hmn
          rw [hmn] at h1
          cases h1
        | some a =>
          rw [List.min?_eq_some_iff] at hmn
          obtain ⟨x, hx, rfl⟩ := List.mem_map.1 hmn.1
          exact hmin x hx
      omega
  have hrow := iter_row_decoder f c ins firsts hf i inp first ch h1 h2 N
  have hst := beamStep_valid (f i) c hV
  have inv := inv2_iter c hc inp first ch (beamStep (f i)) hst p hp heos N (by omega) (by omega)
  have hnp : ∀ g ∈ (rowIter c inp first ch (decoder (beamStep (f i))) N).fin, g.2.2 = false → g.1 ≤ c.negInf := by
    have key : ∀ M ≤ N, ∀ g ∈ (rowIter c inp first ch (decoder (beamStep (f i))) M).fin, g.2.2 = false → g.1 ≤ c.negInf := by
      intro M
      induction M with
      | zero =>
        intro _ g hg _
        have : g ∈ List.replicate c.k (c.negInf, List.replicate c.maxLen 0, false) := hg
        rw [(List.mem_replicate.1 this).2]
      | succ M ih =>
        intro hM g hg hfl
        have invM := inv2_iter c hc inp first ch (beamStep (f i)) hst p hp heos M (by omega) (by omega)
        have hg' := gatherTop_mem _ _ _ hg
        rcases List.mem_append.1 hg' with hg' | hg'
        · exact ih (by omega) g hg' hfl
        · obtain ⟨x, hx, rfl⟩ := List.mem_map.1 hg'
          have hlp := cand_nonpos c hc M _ _ (decoder_valid c inp first ch (beamStep (f i)) hst p invM) _ invM.base.liveNonpos x hx
          simp only at hfl ⊢
          unfold score
          rw [hfl]
          have : x.lp / c.bp (inp.initialIndex + (M + 1)) ≤ 0 := div_nonpos_of_nonpos_of_nonneg hlp (hc.pos _).le
          simp only [Bool.false_eq_true, if_false]
          linarith
    exact key N le_rfl
  set r := rowIter c inp first ch (decoder (beamStep (f i))) N with hr
  have hbig : c.negInf ≤ c.negInf / c.bp c.maxLen := by
    rw [le_div_iff₀ (hc.pos _)]
    have := hc.neg
    have := hc.one
    nlinarith
  have hres : ∃ sc seq, (result r).getLast? = some (sc, seq.drop 1) ∧ (∀ x ∈ result r, x.1 ≤ sc ∨ N = 0) ∧
      (((sc, seq, true) ∈ r.fin) ∨ ((sc, seq, false) ∈ r.fin) ∨ (sc, seq) ∈ r.live) := by
    unfold result
    split_ifs with hany
    · have hne : r.fin ≠ [] := by intro h; have := inv.base.finLen; rw [h] at this; have := hc.k; simp at *; omega
      obtain ⟨g, hg⟩ : ∃ g, r.fin.getLast? = some g := by
        cases h : r.fin.getLast? with
        | none => exact absurd (List.getLast?_eq_none_iff.1 h) hne
        | some g => exact ⟨g, rfl⟩
      refine ⟨g.1, g.2.1, by rw [List.getLast?_map, hg]; rfl, ?_, ?_⟩
      · intro x hx
        obtain ⟨y, hy, rfl⟩ := List.mem_map.1 hx
        left
        have hasc := inv.base.finAsc
        have e : r.fin.getLast hne = g := by rw [List.getLast?_eq_getLast_of_ne_nil hne] at hg; exact Option.some.inj hg
        rw [← List.dropLast_append_getLast hne, List.pairwise_append] at hasc
        rw [← List.dropLast_append_getLast hne] at hy
        rcases List.mem_append.1 hy with hy | hy
        · have := hasc.2.2 y hy _ (List.mem_singleton.2 rfl); rw [e] at this; exact this
        · rw [List.mem_singleton.1 hy, e]
      · have hm := List.mem_of_getLast? hg
        cases hb : g.2.2 with
        | true => left; rw [← hb]; exact hm
        | false => right; left; rw [← hb]; exact hm
    · have hne : r.live ≠ [] := by intro h; have := inv.base.liveLen; rw [h] at this; have := hc.k; simp at *; omega
      obtain ⟨g, hg⟩ : ∃ g, r.live.getLast? = some g := by
        cases h : r.live.getLast? with
        | none => exact absurd (List.getLast?_eq_none_iff.1 h) hne
        | some g => exact ⟨g, rfl⟩
      refine ⟨g.1, g.2, by rw [List.getLast?_map, hg]; rfl, ?_, Or.inr (Or.inr (List.mem_of_getLast? hg))⟩
      intro x hx
      obtain ⟨y, hy, rfl⟩ := List.mem_map.1 hx
      rcases Nat.eq_zero_or_pos N with h0 | h0
      · exact Or.inr h0
      · left
        have := live_le_last inv.base h0 y hy
        rw [hg] at this
        exact this
  obtain ⟨sc, seq, hl, hmax, hmem⟩ := hres
  refine ⟨N, hNlt, r, sc, seq, ?_, hl, hmax, fun hsc => ?_⟩
  · unfold beamRun
    have h0 : init c firsts = iter c ins firsts (batchDecoder f ins.length) 0 := rfl
    rw [h0, hN]
    exact hrow
  · rcases hmem with hm | hm | hm
    · obtain ⟨t, ht, hF, hv⟩ := inv.fin _ hm rfl hsc
      exact ⟨hF.length, hF.head, Or.inl ⟨t, ht, hF, hv⟩⟩
    · have := hnp _ hm rfl
      simp only at this
      linarith
    · have hgt : c.negInf < sc := lt_of_le_of_lt hbig hsc
      exact ⟨inv.len _ hm, inv.head _ hm, Or.inr ⟨(inv.val _ hm hgt).1, inv.prompt _ hm, (inv.val _ hm hgt).2, inv.pad _ hm⟩⟩

end Verif.Score
