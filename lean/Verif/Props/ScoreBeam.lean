import Verif.Spec.ScoreBeam
import Verif.Lemmas.ScoreBeam
import Verif.Props.Score
import Verif.Props.Align
/-
C63: the score reported by beam search is the score `score_batch` gives to the returned sequence, normalised by the brevity penalty.
-/
namespace Verif.Score
open Verif.Beam Verif.Beam.Spec Verif.KVCache Verif.Masks Spec

variable {H : Type} {h d m n V : Nat}

theorem getD_drop {α : Type} (l : List α) (k j : ℕ) (x : α) : (l.drop k).getD j x = l.getD (k + j) x := by
  rw [List.getD_eq_getElem?_getD, List.getElem?_drop, List.getD_eq_getElem?_getD]

theorem getD_map_ofNat (l : List ℕ) (j : ℕ) : (l.map Int.ofNat).getD j 0 = ((l.getD j 0 : ℕ) : Int) := by
  rw [List.getD_eq_getElem?_getD, List.getElem?_map, List.getD_eq_getElem?_getD]
  cases l[j]? <;> rfl

theorem sum_map_range (F : ℕ → ℝ) (k : ℕ) : ((List.range k).map F).sum = ∑ j ∈ Finset.range k, F j := by
  induction k with
  | zero => simp
  | succ k ih => rw [List.range_succ, List.map_append, List.sum_append, ih, Finset.sum_range_succ]; simp

/-- The sum of the token log-probabilities is the score. -/
theorem value_scoreRow {S : Type} (f : S → Int → (Fin V → ℝ) × S) (ch : S) (s : List ℕ) (q t off : ℕ) (out : List Int) (lg : Fin n → Fin V → ℝ)
    (htok : ∀ j, q ≤ j → j < t → ∃ hj : off + j < n,
      tokenLogProb (beamStep f) ch s j = (List.ofFn (logSoftmax (lg ⟨off + j, hj⟩))).getD (s.getD (j + 1) 0) 0)
    (hout : ∀ j, q ≤ j → j < t → out.getD (off + j) 0 = ((s.getD (j + 1) 0 : ℕ) : Int) ∧ out.getD (off + j) 0 ≠ 0)
    (hpad : ∀ k, off + t ≤ k → k < n → out.getD k 0 = 0) :
    value (beamStep f) ch s q t = scoreRow lg (asRow n out) (weightsFrom n (off + q) out) := by
  unfold value scoreRow
  let g : ℕ → ℝ := fun j => if hj : j < n then -(Loss.crossEntropy (lg ⟨j, hj⟩) (oneHot (asRow n out ⟨j, hj⟩)) 0).1 *
    weightsFrom n (off + q) out ⟨j, hj⟩ else 0
  have e1 : ∑ j : Fin n, -(Loss.crossEntropy (lg j) (oneHot (asRow n out j)) 0).1 * weightsFrom n (off + q) out j = ∑ j ∈ Finset.range n, g j := by
    rw [← Fin.sum_univ_eq_sum_range]
    exact Finset.sum_congr rfl fun j _ => by simp [g]
  have hg0 : ∀ j, j < n → (j < off + q ∨ off + t ≤ j) → g j = 0 := by
    intro j hjn hj
    simp only [g]
    rw [dif_pos hjn]
    have : weightsFrom n (off + q) out ⟨j, hjn⟩ = 0 := by
      unfold weightsFrom
      rw [if_neg]
      rintro ⟨h1, h2⟩
      rcases hj with h | h
      · simp only at h1; omega
      · exact h2 (hpad j h hjn)
    rw [this, mul_zero]
  have hg1 : ∀ j, q ≤ j → j < t → g (off + j) = tokenLogProb (beamStep f) ch s j := by
    intro j h1 h2
    obtain ⟨hj, htl⟩ := htok j h1 h2
    obtain ⟨ho, hnz⟩ := hout j h1 h2
    have hw : weightsFrom n (off + q) out ⟨off + j, hj⟩ = 1 := by
      unfold weightsFrom
      rw [if_pos ⟨by simp only; omega, hnz⟩]
    simp only [g]
    rw [dif_pos hj, hw, mul_one, show asRow n out ⟨off + j, hj⟩ = ((s.getD (j + 1) 0 : ℕ) : Int) from ho, score_term', htl]
  rw [e1]
  have e2 : ∑ j ∈ Finset.range n, g j = ∑ j ∈ Finset.Ico (off + q) (off + t), g j := by
    symm
    refine Finset.sum_subset ?_ ?_
    · intro j hj
      rw [Finset.mem_Ico] at hj
      obtain ⟨hj', _⟩ := htok (j - off) (by omega) (by omega)
      rw [Finset.mem_range]
      omega
    · intro j hj hj'
      rw [Finset.mem_range] at hj
      rw [Finset.mem_Ico] at hj'
      exact hg0 j hj (by omega)
  rw [e2, Finset.sum_Ico_eq_sum_range]
  have e3 : off + t - (off + q) = t - q := by omega
  rw [e3]
  rw [List.range'_eq_map_range, List.map_map, sum_map_range]
  refine Finset.sum_congr rfl fun k hk => ?_
  have := Finset.mem_range.1 hk
  rw [Nat.add_assoc, hg1 (q + k) (by omega) (by omega)]
  rfl

/-- A prompt of `p` tokens without padding and EOS, after position 0, followed by padding. -/
def PromptRow (eos : ℕ) (r : Masks.Row n) (p : ℕ) : Prop :=
  p + 1 < n ∧ ∀ j : Fin n, (1 ≤ j.val → j.val ≤ p → r j > 0 ∧ r j ≠ eos) ∧ (p < j.val → r j = 0)

theorem getD_toNat (r : Masks.Row n) (j : ℕ) : ((List.ofFn r).map Int.toNat).getD j 0 = if hj : j < n then (r ⟨j, hj⟩).toNat else 0 := by
  rw [List.getD_eq_getElem?_getD, List.getElem?_map, List.getElem?_ofFn]
  split_ifs <;> rfl

/-- **C63**, encoder-decoder models.  Whatever the weights, the prompts and the other rows: if the score that beam search reports for a row is
above that of an empty slot, it is the score of the returned sequence (teacher-forced forward pass, cross entropy, summed over the
tokens after the prompt), divided by the brevity penalty of its length if the sequence is finished.  `N` is the number of iterations. -/
theorem C63_encdec (net : Net H (Fin V → ℝ) h d m) (enc : Nat → Masks.Row m) (c : Cfg ℝ) (hc : Good c) (hV : c.vocab = V) (heos : c.eos ≠ 0)
    (hmax : c.maxLen = n + 1) (fuel : ℕ) (prompts : List (Masks.Row n)) (i : ℕ) (r : Masks.Row n) (hr : prompts[i]? = some r) (p : ℕ)
    (hp : PromptRow c.eos r p) :
    ∃ N, N ≤ n ∧ ∃ sc out logits, (beamEncDec net enc c fuel prompts)[i]? = some (some (sc, out)) ∧
      full net (enc i) (shifted n 0 out) (asRow n out) = some logits ∧
      (c.negInf / c.bp c.maxLen < sc → out.length = n ∧
        (∀ j : Fin n, 1 ≤ j.val → j.val ≤ p → j.val ≤ N → out.getD (j.val - 1) 0 = r j) ∧
        Reported p N c.eos c.bp sc (scoreRow logits (asRow n out) (weightsFrom n p out)) out) := by
  have hpr : Prompt c.eos ((List.ofFn r).map Int.toNat) p := by
    refine ⟨by simp [hp.1], fun j h1 h2 => ?_, fun j h1 => ?_⟩
    · have hjn : j < n := by have := hp.1; omega
      have := (hp.2 ⟨j, hjn⟩).1 h1 h2
      rw [getD_toNat, dif_pos hjn]
      omega
    · rw [getD_toNat]
      split_ifs with hjn
      · rw [(hp.2 ⟨j, hjn⟩).2 h1]; rfl
      · rfl
  obtain ⟨N, hN, row, sc, seq, hrow, hlast, _, hsc⟩ := beam_generic (fun b => step net (enc b)) c hc hV heos
    (prompts.map fun r => ⟨(List.ofFn r).map Int.toNat, 0⟩) (prompts.map fun _ => (0, net.layers.map fun l => (l, Cache.init h d n))) (by simp) i
    ⟨(List.ofFn r).map Int.toNat, 0⟩ 0 (net.layers.map fun l => (l, Cache.init h d n)) (by rw [List.getElem?_map, hr]; rfl)
    (by rw [List.getElem?_map, hr]; rfl) p hpr (fun _ _ => Nat.zero_le _) (by simp only; omega) fuel
  simp only [Nat.zero_add] at hN
  obtain ⟨logits, hlg⟩ := full_some net (enc i) (shifted n 0 ((seq.drop 1).map Int.ofNat)) (asRow n ((seq.drop 1).map Int.ofNat))
  have hget : ∀ j, ((seq.drop 1).map Int.ofNat).getD j 0 = ((seq.getD (j + 1) 0 : ℕ) : Int) := by
    intro j
    rw [getD_map_ofNat, getD_drop, Nat.add_comm]
  refine ⟨N, by omega, sc, (seq.drop 1).map Int.ofNat, logits, ?_, hlg, fun hs => ?_⟩
  · unfold beamEncDec
    rw [List.getElem?_map, hrow, Option.map_some, hlast]
    rfl
  · obtain ⟨hlen, hhead, hcase⟩ := hsc hs
    -- the logits the decoder computes are those of the forward pass
    have hlogits : ∀ t, t ≤ n → (∀ j, j < t → seq.getD (j + 1) 0 ≠ 0) → ∀ j, p ≤ j → j < t → ∃ hj : 0 + j < n,
        tokenLogProb (beamStep (step net (enc i))) (net.layers.map fun l => (l, Cache.init h d n)) seq j =
          (List.ofFn (logSoftmax (logits ⟨0 + j, hj⟩))).getD (seq.getD (j + 1) 0) 0 := by
      intro t ht hnz j _ hjt
      refine ⟨by omega, ?_⟩
      obtain ⟨o, h1, h2⟩ := C60_incremental net (enc i) (shifted n 0 ((seq.drop 1).map Int.ofNat)) (asRow n ((seq.drop 1).map Int.ofNat)) n le_rfl
        ⟨0 + j, by omega⟩ (fun k hk => by
          have hk' : k.val ≤ 0 + j := hk
          show ((seq.drop 1).map Int.ofNat).getD k.val 0 > 0
          rw [hget]
          have := hnz k.val (by omega)
          omega)
      rw [hlg] at h1
      obtain rfl := Option.some.inj h1
      refine tokenLogProb_eq _ _ _ _ (List.ofFn (shifted n 0 ((seq.drop 1).map Int.ofNat))) (fun k hk => ?_) _ (by
        simp only [Nat.zero_add] at h2 ⊢
        exact h2)
      rw [List.getElem?_ofFn, dif_pos (by omega)]
      congr 1
      unfold shifted
      by_cases h0 : k = 0
      · rw [if_pos h0, h0, hhead]; rfl
      · rw [if_neg h0, hget, Nat.sub_add_cancel (Nat.pos_of_ne_zero h0)]
    have hpromptnz : ∀ j, 1 ≤ j → j ≤ p → ((List.ofFn r).map Int.toNat).getD j 0 ≠ 0 := fun j h1 h2 => (hpr.tokens j h1 h2).1
    have hprompt : ∀ j : Fin n, 1 ≤ j.val → j.val ≤ p → ((((List.ofFn r).map Int.toNat).getD j.val 0 : ℕ) : Int) = r j := by
      intro j h1 h2
      rw [getD_toNat, dif_pos j.isLt]
      have := ((hp.2 j).1 h1 h2).1
      simp only [Fin.eta]
      omega
    refine ⟨by simp [hlen, hmax], ?_, ?_⟩
    · intro j h1 h2 h3
      rw [hget, Nat.sub_add_cancel h1, ← hprompt j h1 h2]
      rcases hcase with ⟨t, ht, hF, _⟩ | ⟨_, hP, _⟩
      · rw [hF.prompt _ h1 h2]
      · rw [hP _ h1 h2 h3]
    · rcases hcase with ⟨t, ht, hF, hv⟩ | ⟨hv, hP, hE, hpad⟩
      · left
        have := hF.inRange
        refine ⟨t, this.1, ht, ?_, ?_, ?_, ?_⟩
        · rw [hget, Nat.sub_add_cancel (by omega), hF.last]
        · intro j h1 h2
          rw [hget]
          have := hF.body (j + 1) (by omega) (by omega)
          omega
        · intro j hj
          rw [hget, hF.pad (j + 1) (by omega)]
          rfl
        · intro hnz
          have hnz' : ∀ j, j < t → seq.getD (j + 1) 0 ≠ 0 := by
            intro j hj
            by_cases hjp : p ≤ j
            · have := hnz j hjp hj
              rw [hget] at this
              omega
            · rw [hF.prompt (j + 1) (by omega) (by omega)]
              exact hpromptnz _ (by omega) (by omega)
          rw [hv]
          congr 1
          · have := value_scoreRow (n := n) (step net (enc i)) (net.layers.map fun l => (l, Cache.init h d n)) seq p t 0
              ((seq.drop 1).map Int.ofNat) logits (hlogits t (by omega) hnz')
              (fun j h1 h2 => by
                rw [Nat.zero_add, hget]
                have := hnz' j h2
                exact ⟨rfl, by omega⟩)
              (fun k hk _ => by rw [hget, hF.pad (k + 1) (by omega)]; rfl)
            rw [Nat.zero_add] at this
            exact this
          · rw [Nat.zero_add]
      · right
        refine ⟨?_, ?_, ?_⟩
        · intro j h1 h2
          rw [hget]
          have := hE (j + 1) (by omega) (by omega)
          omega
        · intro j hj
          rw [hget, hpad (j + 1) (by omega)]
          rfl
        · intro hnz
          have hnz' : ∀ j, j < N → seq.getD (j + 1) 0 ≠ 0 := by
            intro j hj
            by_cases hjp : p ≤ j
            · have := hnz j hjp hj
              rw [hget] at this
              omega
            · rw [hP (j + 1) (by omega) (by omega) (by omega)]
              exact hpromptnz _ (by omega) (by omega)
          rw [hv]
          have := value_scoreRow (n := n) (step net (enc i)) (net.layers.map fun l => (l, Cache.init h d n)) seq p N 0
            ((seq.drop 1).map Int.ofNat) logits (hlogits N (by omega) hnz')
            (fun j h1 h2 => by
              rw [Nat.zero_add, hget]
              have := hnz' j h2
              exact ⟨rfl, by omega⟩)
            (fun k hk _ => by rw [hget, hpad (k + 1) (by omega)]; rfl)
          rw [Nat.zero_add] at this
          exact this

/-- Beam search as `decoding.beam_search` configures it: two beams, `alpha = 0.6`, a vocabulary of 6 tokens, EOS 1. -/
noncomputable def exampleCfg (maxLen : ℕ) : Cfg ℝ :=
  { k := 2, vocab := 6, eos := 1, maxLen := maxLen, negInf := -10000000, bp := fun n => ((5 + (n : ℝ)) / 6) ^ (0.6 : ℝ), minLogProb := -100, maxStep := 0 }

theorem exampleCfg_good (maxLen : ℕ) (h : 1 ≤ maxLen) : Good (exampleCfg maxLen) :=
  let b := brevity_good 0.6 (by norm_num) maxLen h
  { k := Nat.zero_lt_two, vocab := (by decide : 2 ≤ 6), neg := by unfold exampleCfg; norm_num, pos := b.1, mono := b.2.1, one := b.2.2 }

/-- The hypotheses of `C63_encdec` are met: the second row of the batch has a prompt of one token. -/
example : ∃ N, N ≤ 4 ∧ ∃ sc out logits, (beamEncDec (oneLayer 6 2) (fun _ => ![5, 1]) (exampleCfg 5) 9
      [(![0, 0, 0, 0] : Masks.Row 4), ![0, 5, 0, 0]])[1]? = some (some (sc, out)) ∧
      full (oneLayer 6 2) ![5, 1] (shifted 4 0 out) (asRow 4 out) = some logits ∧
      ((exampleCfg 5).negInf / (exampleCfg 5).bp 5 < sc →
        Reported 1 N 1 (exampleCfg 5).bp sc (scoreRow logits (asRow 4 out) (weightsFrom 4 1 out)) out) := by
  obtain ⟨N, h1, sc, out, lg, h2, h3, h4⟩ := C63_encdec (oneLayer 6 2) (fun _ => ![5, 1]) (exampleCfg 5) (exampleCfg_good 5 (by decide)) rfl
    (by decide) rfl 9 [(![0, 0, 0, 0] : Masks.Row 4), ![0, 5, 0, 0]] 1 ![0, 5, 0, 0] rfl 1 ⟨by decide, by decide⟩
  exact ⟨N, h1, sc, out, lg, h2, h3, fun h => (h4 h).2.2⟩

/-! ### Decoder-only models -/

theorem trailing_row (x : Masks.Row n) (p : Fin n) (h1 : x p ≠ 0) (h2 : ∀ j, p < j → x j = 0) : Align.Spec.trailing (List.ofFn x) = n - 1 - p.val := by
  have hlen : (List.ofFn x).length = n := List.length_ofFn
  have hpn := p.isLt
  have hget : ∀ j : Fin n, (List.ofFn x)[j.val]? = some (x j) := fun j => by rw [List.getElem?_ofFn, dif_pos j.isLt]
  have hlt : Align.Spec.trailing (List.ofFn x) < (List.ofFn x).length := by
    by_contra hc
    have := Align.trailing_all (List.ofFn x) (by omega)
    have h3 := hget p
    rw [this, List.getElem?_replicate, hlen, if_pos hpn] at h3
    exact h1 (Option.some.inj h3).symm
  obtain ⟨s1, s2⟩ := Align.trailing_spec _ hlt
  rw [hlen] at s1 s2 hlt
  by_contra hne
  rcases Nat.lt_or_gt_of_ne hne with hc | hc
  · have h3 := hget ⟨n - 1 - Align.Spec.trailing (List.ofFn x), by omega⟩
    rw [h2 _ (show p.val < n - 1 - Align.Spec.trailing (List.ofFn x) by omega)] at h3
    exact s1 h3
  · have h3 := s2 p.val (by omega) hpn
    rw [hget p] at h3
    exact h1 (Option.some.inj h3)

theorem rightAlign_row (x : Masks.Row n) (p : Fin n) (h1 : x p ≠ 0) (h2 : ∀ j, p < j → x j = 0) :
    Align.rightAlign (List.ofFn x) = List.replicate (n - 1 - p.val) 0 ++ (List.ofFn x).take (p.val + 1) := by
  have hpn := p.isLt
  rw [Align.C09_right_align, trailing_row x p h1 h2, List.length_ofFn]
  congr 2
  omega

/-- The returned sequence: the prompt's tokens, then the tokens found. -/
theorem reassemble_get (r : Masks.Row n × Masks.Row n) (x : Masks.Row n) (hx : x = fun j => r.1 j * r.2 j) (p : Fin n) (hp1 : 1 ≤ p.val) (h1 : ∀ j : Fin n, 1 ≤ j.val → j ≤ p → x j ≠ 0)
    (h0 : x ⟨0, p.pos⟩ = 0) (h2 : ∀ j, p < j → x j = 0) (seq : List Int) :
    (n ≤ p.val + seq.length → (reassemble r seq).length = n) ∧ ∀ j, j < n → (reassemble r seq).getD j 0 =
      if hj : j < p.val then x ⟨j + 1, by omega⟩ else seq.getD (j - p.val) 0 := by
  have hpn := p.isLt
  set T := (List.ofFn x).take (p.val + 1) with hT
  have hTlen : T.length = p.val + 1 := by rw [hT, List.length_take, List.length_ofFn]; omega
  have hTget : ∀ j (hj : j ≤ p.val), T[j]? = some (x ⟨j, by omega⟩) := by
    intro j hj
    rw [hT, List.getElem?_take_of_lt (by omega), List.getElem?_ofFn, dif_pos (by omega)]
  obtain ⟨T', hT'⟩ : ∃ T', T = 0 :: T' := by
    have := hTget 0 (by omega)
    rw [h0] at this
    cases hc : T with
    | nil => rw [hc] at this; cases this
    | cons a l => rw [hc] at this; exact ⟨l, by rw [Option.some.inj this]⟩
  obtain ⟨a, T'', hT''⟩ : ∃ a T'', T' = a :: T'' := by
    cases hc : T' with
    | nil => rw [hT', hc] at hTlen; simp at hTlen; omega
    | cons a l => exact ⟨a, l, rfl⟩
  have ha : a ≠ 0 := by
    have := hTget 1 hp1
    rw [hT', hT''] at this
    have e : a = x ⟨1, by omega⟩ := Option.some.inj this
    rw [e]
    exact h1 _ le_rfl hp1
  have hlead : Align.Spec.leading (T ++ seq) = 1 := by
    rw [hT', hT'']
    simp [Align.Spec.leading, ha]
  have hre : reassemble r seq = ((T' ++ seq) ++ List.replicate (n - 1 - p.val + 1) 0).take n := by
    unfold reassemble
    rw [← hx, rightAlign_row x p (h1 p hp1 le_rfl) h2, List.append_assoc, Align.C09_left_align, Align.leading_replicate_append, hlead]
    congr 2
    rw [List.drop_append, List.drop_eq_nil_of_le (by simp), List.nil_append, List.length_replicate, Nat.add_sub_cancel_left, ← hT, hT']
    rfl
  have hT'len : T'.length = p.val := by rw [hT'] at hTlen; simpa using hTlen
  refine ⟨fun hl => ?_, fun j hj => ?_⟩
  · rw [hre, List.length_take]
    simp only [List.length_append, List.length_replicate, hT'len]
    omega
  · rw [hre, List.getD_eq_getElem?_getD, List.getElem?_take_of_lt hj]
    split_ifs with hjp
    · rw [List.append_assoc, List.getElem?_append_left (by omega)]
      have := hTget (j + 1) (by omega)
      rw [hT', List.getElem?_cons_succ] at this
      rw [this]
      rfl
    · rw [List.append_assoc, List.getElem?_append_right (by omega), hT'len]
      by_cases hs : j - p.val < seq.length
      · rw [List.getElem?_append_left hs, List.getD_eq_getElem?_getD]
      · rw [List.getElem?_append_right (by omega), List.getElem?_replicate, List.getD_eq_getElem?_getD,
          List.getElem?_eq_none (show seq.length ≤ j - p.val by omega)]
        split_ifs <;> rfl

/-- **C63**, decoder-only models, with bidirectional attention over the prompt or without, for a row whose prompt (of `p` tokens) is the
shortest of the batch (rows with longer prompts may be searched beyond their maximal length).  `N - p` is the number of iterations. -/
theorem C63_decoder_only (net : Net H (Fin V → ℝ) h d 0) (bidirectional : Bool) (c : Cfg ℝ) (hc : Good c) (hV : c.vocab = V) (heos : c.eos ≠ 0)
    (hmax : c.maxLen = n + 1) (fuel : ℕ) (batch : List (Masks.Row n × Masks.Row n)) (i : ℕ) (r : Masks.Row n × Masks.Row n)
    (hr : batch[i]? = some r) (p : Fin n) (hp1 : 1 ≤ p.val) (hp : KVCache.Prompt r.1 r.2 p) (hbos : r.1 ⟨0, p.pos⟩ = 0)
    (hpos : ∀ j : Fin n, 1 ≤ j.val → j ≤ p → r.1 j > 0)
    (hmin : ∀ r' ∈ batch, p.val ≤ inputsLength fun j => r'.1 j * r'.2 j) :
    ∃ N, N ≤ n ∧ ∃ sc out logits, (beamLM net bidirectional c fuel batch)[i]? = some (some (sc, out)) ∧
      fullOnly net (shifted n 0 out) (asRow n out) (maybeCausal bidirectional r.2) = some logits ∧
      (c.negInf / c.bp c.maxLen < sc → out.length = n ∧ (∀ j : Fin n, 1 ≤ j.val → j ≤ p → out.getD (j.val - 1) 0 = r.1 j) ∧
        Reported p N c.eos c.bp sc (scoreRow logits (asRow n out) (weightsFrom n p out)) out) := by
  have hpn := p.isLt
  obtain ⟨x, hxdef⟩ : ∃ x : Masks.Row n, x = fun j => r.1 j * r.2 j := ⟨_, rfl⟩
  have hx : ∀ j, x j = if j ≤ p then r.1 j else 0 := fun j => by rw [hxdef]; simp only [hp.1 j]; split_ifs <;> simp
  have hxnz : ∀ j : Fin n, 1 ≤ j.val → j ≤ p → x j ≠ 0 := fun j h1 h2 => by rw [hx, if_pos h2]; exact (hpos j h1 h2).ne'
  have hx0 : x ⟨0, p.pos⟩ = 0 := by rw [hx, hbos]; split_ifs <;> rfl
  have hxpad : ∀ j, p < j → x j = 0 := fun j hj => by rw [hx, if_neg (not_le.2 hj)]
  obtain ⟨cs, hcs⟩ : ∃ cs, computeKvCache net bidirectional x r.2 = some (cs, p.val) := by
    obtain ⟨M, hM, _⟩ := mask_spec r.2 (maybeCausal bidirectional r.2)
    unfold computeKvCache
    rw [hM, hxdef, inputsLength_prompt r.1 r.2 p hp]
    exact ⟨_, rfl⟩
  have hindex : ∀ r' : Masks.Row n × Masks.Row n, (prefillRow net bidirectional r').1.initialIndex = inputsLength fun j => r'.1 j * r'.2 j := by
    intro r'
    obtain ⟨M, hM, _⟩ := mask_spec r'.2 (maybeCausal bidirectional r'.2)
    simp only [prefillRow, computeKvCache, hM, Option.getD_some]
  have hlast : ((Align.rightAlign (List.ofFn x)).getLast?.getD 0).toNat = (r.1 p).toNat := by
    rw [rightAlign_row x p (hxnz p hp1 le_rfl) hxpad]
    have : ((List.ofFn x).take (p.val + 1)).getLast? = some (x p) := by
      rw [List.getLast?_eq_getElem?, List.length_take, List.length_ofFn, List.getElem?_take_of_lt (by omega), List.getElem?_ofFn,
        dif_pos (by omega)]
      congr 2
      exact Fin.ext (by simp only; omega)
    rw [List.getLast?_append, this, hx, if_pos le_rfl]
    rfl
  have hpre : prefillRow net bidirectional r = (⟨(r.1 p).toNat :: List.replicate (n - 1) 0, p.val⟩, ((r.1 p).toNat, cs)) := by
    unfold prefillRow
    simp only [← hxdef, hlast, hcs, Option.getD_some]
  obtain ⟨N, hN, row, sc, seq, hrow, hbest, _, hsc⟩ := beam_generic (fun _ => stepOnly net) c hc hV heos
    (batch.map fun r => (prefillRow net bidirectional r).1) (batch.map fun r => (prefillRow net bidirectional r).2) (by simp) i
    ⟨(r.1 p).toNat :: List.replicate (n - 1) 0, p.val⟩ (r.1 p).toNat cs (by rw [List.getElem?_map, hr, Option.map_some, hpre])
    (by rw [List.getElem?_map, hr, Option.map_some, hpre]) 0
    ⟨by simp; omega, fun j h1 h2 => by omega, fun j h1 => by
      cases j with
      | zero => omega
      | succ j =>
        rw [List.getD_cons_succ, List.getD_eq_getElem?_getD, List.getElem?_replicate]
        split_ifs <;> rfl⟩
    (fun y hy => by
      obtain ⟨r', hr', rfl⟩ := List.mem_map.1 hy
      rw [hindex]
      exact hmin r' hr') (by simp only; omega) fuel
  simp only at hN
  obtain ⟨out, hout⟩ : ∃ out, out = reassemble r ((seq.drop 1).map Int.ofNat) := ⟨_, rfl⟩
  obtain ⟨logits, hlg⟩ := fullOnly_some net (shifted n 0 out) (asRow n out) (maybeCausal bidirectional r.2)
  refine ⟨p.val + N, by omega, sc, out, logits, ?_, hlg, fun hs => ?_⟩
  · unfold beamLM
    have hz : (batch.zip (beamRun (fun _ => stepOnly net) c (batch.map fun r => (prefillRow net bidirectional r).1)
        (batch.map fun r => (prefillRow net bidirectional r).2) fuel))[i]? = some (r, row) :=
      List.getElem?_zip_eq_some.2 ⟨hr, hrow⟩
    simp only
    rw [List.getElem?_map, hz, Option.map_some, hbest, hout]
    rfl
  · obtain ⟨hlen, hhead, hcase⟩ := hsc hs
    obtain ⟨hol, hog⟩ := reassemble_get r x hxdef p hp1 hxnz hx0 hxpad ((seq.drop 1).map Int.ofNat)
    rw [← hout] at hol hog
    have holen : out.length = n := hol (by simp [hlen, hmax])
    have hget : ∀ j, p.val ≤ j → j < n → out.getD j 0 = ((seq.getD (j - p.val + 1) 0 : ℕ) : Int) := by
      intro j h1 h2
      rw [hog j h2, dif_neg (by omega), getD_map_ofNat, getD_drop, Nat.add_comm]
    have hgetp : ∀ j (hj : j < p.val), out.getD j 0 = r.1 ⟨j + 1, by omega⟩ := by
      intro j hj
      rw [hog j (by omega), dif_pos hj, hx, if_pos (show (⟨j + 1, by omega⟩ : Fin n) ≤ p from (show j + 1 ≤ p.val by omega))]
    have hbeyond : ∀ j, n ≤ j → out.getD j 0 = 0 := by
      intro j hj
      rw [List.getD_eq_getElem?_getD, List.getElem?_eq_none (by omega)]
      rfl
    have hin : ∀ j : Fin n, j ≤ p → shifted n 0 out j = r.1 j := by
      intro j hj
      have hj' : j.val ≤ p.val := hj
      unfold shifted
      by_cases h0 : j.val = 0
      · rw [if_pos h0, ← hbos]
        exact congrArg r.1 (Fin.ext h0.symm)
      · rw [if_neg h0, hgetp _ (by omega)]
        exact congrArg r.1 (Fin.ext (Nat.sub_add_cancel (by omega)))
    have hp' : KVCache.Prompt (shifted n 0 out) r.2 p := ⟨hp.1, fun j h0 hj => by rw [hin j hj]; exact hp.2 j h0 hj⟩
    have hx' : (fun j => shifted n 0 out j * r.2 j) = x := by
      funext j
      rw [hx, hp.1 j]
      by_cases hj : j ≤ p
      · simp [hj, hin j hj]
      · simp [hj]
    have hlogits : ∀ t, p.val + t ≤ n → (∀ j, j < t → seq.getD (j + 1) 0 ≠ 0) → ∀ j, 0 ≤ j → j < t → ∃ hj : p.val + j < n,
        tokenLogProb (beamStep (stepOnly net)) cs seq j = (List.ofFn (logSoftmax (logits ⟨p.val + j, hj⟩))).getD (seq.getD (j + 1) 0) 0 := by
      intro t ht hnz j _ hjt
      refine ⟨by omega, ?_⟩
      obtain ⟨toks, lgs, o, g1, g2, g3, g4⟩ := C61_prefill net bidirectional (shifted n 0 out) (asRow n out) r.2 p ⟨p.val + j, by omega⟩ hp'
        (show p.val ≤ p.val + j by omega) (fun k hk => by
          have hk' : k.val ≤ p.val + j := hk
          show out.getD k.val 0 > 0
          by_cases hkp : k.val < p.val
          · rw [hgetp _ hkp]
            exact hpos _ (by simp only; omega) (show k.val + 1 ≤ p.val by omega)
          · rw [hget _ (by omega) k.isLt]
            have := hnz (k.val - p.val) (by omega)
            omega)
      rw [hlg] at g3
      obtain rfl := Option.some.inj g3
      simp only [predict, hx', hcs, Option.map_some, Option.some.injEq, Prod.mk.injEq] at g1
      rw [← g1.2.2] at g4
      refine tokenLogProb_eq _ _ _ _ ((List.ofFn (shifted n 0 out)).drop p.val) (fun k hk => ?_) _ (by
        simp only [Nat.add_sub_cancel_left] at g4
        exact g4)
      rw [List.getElem?_drop, List.getElem?_ofFn, dif_pos (by omega)]
      congr 1
      unfold shifted
      rw [if_neg (show ¬ p.val + k = 0 by omega)]
      simp only
      by_cases h0 : k = 0
      · subst h0
        have e : (⟨p.val + 0 - 1 + 1, by omega⟩ : Fin n) = p := Fin.ext (by simp only; omega)
        rw [hhead, hgetp _ (by omega), e]
        exact (Int.toNat_of_nonneg (hpos p hp1 le_rfl).le).symm
      · rw [hget _ (by omega) (by omega)]
        congr 2
        omega
    refine ⟨holen, ?_, ?_⟩
    · intro j h1 h2
      have h2' : j.val ≤ p.val := h2
      rw [hgetp _ (by omega)]
      exact congrArg r.1 (Fin.ext (Nat.sub_add_cancel h1))
    · rcases hcase with ⟨t, ht, hF, hv⟩ | ⟨hv, hP, hE, hpad⟩
      · left
        have hir := hF.inRange
        refine ⟨p.val + t, by omega, by omega, ?_, ?_, ?_, ?_⟩
        · rw [hget _ (by omega) (by omega)]
          have : p.val + t - 1 - p.val + 1 = t := by omega
          rw [this, hF.last]
        · intro j h1 h2
          rw [hget _ h1 (by omega)]
          have := hF.body (j - p.val + 1) (by omega) (by omega)
          omega
        · intro j hj
          by_cases hjn : j < n
          · rw [hget _ (by omega) hjn, hF.pad _ (by omega)]
            rfl
          · exact hbeyond j (by omega)
        · intro hnz
          have hnz' : ∀ j, j < t → seq.getD (j + 1) 0 ≠ 0 := by
            intro j hj
            have := hnz (p.val + j) (by omega) (by omega)
            rw [hget _ (by omega) (by omega), Nat.add_sub_cancel_left] at this
            omega
          rw [hv]
          congr 1
          have := value_scoreRow (n := n) (stepOnly net) cs seq 0 t p.val out logits (hlogits t (by omega) hnz')
              (fun j h1 h2 => by
                rw [hget _ (by omega) (by omega), Nat.add_sub_cancel_left]
                have := hnz' j h2
                exact ⟨rfl, by omega⟩)
              (fun k hk hkn => by rw [hget _ (by omega) hkn, hF.pad _ (by omega)]; rfl)
          rw [Nat.add_zero] at this
          exact this
      · right
        refine ⟨?_, ?_, ?_⟩
        · intro j h1 h2
          rw [hget _ h1 (by omega)]
          have := hE (j - p.val + 1) (by omega) (by omega)
          omega
        · intro j hj
          by_cases hjn : j < n
          · rw [hget _ (by omega) hjn, hpad _ (by omega)]
            rfl
          · exact hbeyond j (by omega)
        · intro hnz
          have hnz' : ∀ j, j < N → seq.getD (j + 1) 0 ≠ 0 := by
            intro j hj
            have := hnz (p.val + j) (by omega) (by omega)
            rw [hget _ (by omega) (by omega), Nat.add_sub_cancel_left] at this
            omega
          rw [hv]
          have := value_scoreRow (n := n) (stepOnly net) cs seq 0 N p.val out logits (hlogits N (by omega) hnz')
              (fun j h1 h2 => by
                rw [hget _ (by omega) (by omega), Nat.add_sub_cancel_left]
                have := hnz' j h2
                exact ⟨rfl, by omega⟩)
              (fun k hk hkn => by rw [hget _ (by omega) hkn, hpad _ (by omega)]; rfl)
          rw [Nat.add_zero] at this
          exact this

/-- The hypotheses of `C63_decoder_only` are met: a prompt of two tokens in a row of length 5, beside a row with a prompt of three. -/
example : ∃ N, N ≤ 5 ∧ ∃ sc out logits, (beamLM (oneLayer 6 0) true (exampleCfg 6) 9
      [((![0, 4, 5, 2, 2] : Masks.Row 5), ![1, 1, 1, 0, 0]), (![0, 4, 5, 2, 2], ![1, 1, 1, 1, 0])])[0]? = some (some (sc, out)) ∧
      fullOnly (oneLayer 6 0) (shifted 5 0 out) (asRow 5 out) (some ![1, 1, 1, 0, 0]) = some logits ∧
      ((exampleCfg 6).negInf / (exampleCfg 6).bp 6 < sc →
        Reported 2 N 1 (exampleCfg 6).bp sc (scoreRow logits (asRow 5 out) (weightsFrom 5 2 out)) out) := by
  obtain ⟨N, h1, sc, out, lg, h2, h3, h4⟩ := C63_decoder_only (oneLayer 6 0) true (exampleCfg 6) (exampleCfg_good 6 (by decide)) rfl
    (by decide) rfl 9 [((![0, 4, 5, 2, 2] : Masks.Row 5), ![1, 1, 1, 0, 0]), (![0, 4, 5, 2, 2], ![1, 1, 1, 1, 0])] 0
    (![0, 4, 5, 2, 2], ![1, 1, 1, 0, 0]) rfl 2 (by decide) ⟨by decide, by decide⟩ (by decide) (by decide)
    (by
      intro r' hr'
      rcases List.mem_cons.1 hr' with rfl | hr'
      · decide
      · rcases List.mem_cons.1 hr' with rfl | hr'
        · decide
        · cases hr')
  exact ⟨N, h1, sc, out, lg, h2, h3, fun h => (h4 h).2.2⟩

end Verif.Score
