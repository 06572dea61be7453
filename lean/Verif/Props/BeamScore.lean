import Verif.Props.Beam
/-
Properties C55 and C56: the scores of beam search are the scores of the returned sequences, and the
returned sequences are distinct.
-/
namespace Verif.Beam
open Verif.TopK Verif.TopK.Spec Spec

variable {K C : Type} [Field K] [LinearOrder K] [IsStrictOrderedRing K]

section congr
variable (st : Step K C) (ch : C)

omit [Field K] [LinearOrder K] [IsStrictOrderedRing K] in
theorem cacheAfter_congr (s s' : List ℕ) (n : ℕ) (h : ∀ j, j < n → s.getD j 0 = s'.getD j 0) :
    cacheAfter st ch s n = cacheAfter st ch s' n := by
  induction n with
  | zero => rfl
  | succ n ih =>
    rw [cacheAfter, cacheAfter, ih (fun j hj => h j (by omega)), h n (by omega)]

omit [LinearOrder K] [IsStrictOrderedRing K] in
theorem value_congr (s s' : List ℕ) (p n : ℕ) (h : ∀ j, j ≤ n → s.getD j 0 = s'.getD j 0) :
    value st ch s p n = value st ch s' p n := by
  unfold value
  congr 1
  apply List.map_congr_left
  intro j hj
  rw [List.mem_range'_1] at hj
  unfold tokenLogProb
  rw [h j (by omega), h (j + 1) (by omega), cacheAfter_congr st ch s s' j (fun i hi => h i (by omega))]

omit [LinearOrder K] [IsStrictOrderedRing K] in
theorem value_succ (s : List ℕ) (p n : ℕ) (h : p ≤ n) :
    value st ch s p (n + 1) = value st ch s p n + tokenLogProb st ch s n := by
  unfold value
  rw [show n + 1 - p = (n - p) + 1 by omega, List.range'_concat, List.map_append, List.sum_append]
  simp only [List.map_cons, List.map_nil, List.sum_cons, List.sum_nil, add_zero, one_mul]
  rw [show p + (n - p) = n by omega]

omit [LinearOrder K] [IsStrictOrderedRing K] in
theorem value_prompt (s : List ℕ) (p n : ℕ) (h : n ≤ p) : value st ch s p n = 0 := by
  unfold value
  rw [show n - p = 0 by omega]; rfl
end congr

theorem getD_set (l : List ℕ) (i j a : ℕ) (hi : i < l.length) :
    (l.set i a).getD j 0 = if j = i then a else l.getD j 0 := by
  rw [List.getD_eq_getElem?_getD, List.getElem?_set, List.getD_eq_getElem?_getD]
  by_cases h : j = i
  · subst h; simp [hi]
  · rw [if_neg (Ne.symm h), if_neg h]

theorem ext_getD (l l' : List ℕ) (h : l.length = l'.length) (he : ∀ j, l.getD j 0 = l'.getD j 0) : l = l' := by
  apply List.ext_getElem h
  intro i h1 h2
  have := he i
  simpa [List.getD_eq_getElem?_getD, h1, h2] using this

/-- The prompt of a row: p tokens after position 0, none of them padding or EOS, and some padding after. -/
structure Spec.Prompt (eos : ℕ) (inputs : List ℕ) (p : ℕ) : Prop where
  room : p + 1 < inputs.length
  tokens : ∀ j, 1 ≤ j → j ≤ p → inputs.getD j 0 ≠ 0 ∧ inputs.getD j 0 ≠ eos
  pad : ∀ j, p < j → inputs.getD j 0 = 0

theorem nextTok_eq {eos : ℕ} {inputs : List ℕ} {p : ℕ} (h : Prompt eos inputs p) (t : ℕ) :
    nextTok inputs t = inputs.getD (t + 1) 0 := by
  unfold nextTok
  have := h.room
  rcases Nat.lt_or_ge (inputs.length - 1) (t + 1) with h1 | h1
  · rw [Nat.min_eq_right (by omega), h.pad _ (by omega), h.pad _ (by omega)]
  · rw [Nat.min_eq_left h1]

/-- The decoder gives log-probabilities for the whole vocabulary. -/
def Spec.ValidStep (c : Cfg K) (st : Step K C) : Prop :=
  ∀ n tok ch, (st n tok ch).1.length = c.vocab ∧ ∀ x ∈ (st n tok ch).1, x ≤ 0

section main
variable (c : Cfg K) (hc : Good c) (inp : RowIn) (first : ℕ) (ch : C) (st : Step K C) (hst : ValidStep c st) (p : ℕ)
  (hp : Prompt c.eos inp.inputs p) (heos : c.eos ≠ 0)

/-- Everything that holds for a row after n iterations. -/
structure Inv2 (n : ℕ) (r : Row K C) : Prop where
  base : Inv c n r
  cache : r.cache = r.live.map (fun l => cacheAfter st ch l.2 n)
  len : ∀ l ∈ r.live, l.2.length = c.maxLen
  pad : ∀ l ∈ r.live, ∀ j, n < j → l.2.getD j 0 = 0
  head : ∀ l ∈ r.live, l.2.getD 0 0 = first
  prompt : ∀ l ∈ r.live, ∀ j, 1 ≤ j → j ≤ p → j ≤ n → l.2.getD j 0 = inp.inputs.getD j 0
  val : ∀ l ∈ r.live, c.negInf < l.1 → l.1 = value st ch l.2 p n ∧ ∀ j, p < j → j ≤ n → l.2.getD j 0 ≠ c.eos
  dist : r.live.Pairwise (fun a b => c.negInf < a.1 → c.negInf < b.1 → a.2 ≠ b.2)
  fin : ∀ f ∈ r.fin, f.2.2 = true → c.negInf / c.bp c.maxLen < f.1 →
    ∃ t, t ≤ n ∧ Finished c.eos c.maxLen first inp.inputs p t f.2.1 ∧ f.1 = value st ch f.2.1 p t / c.bp (inp.initialIndex + t)
  finDist : r.fin.Pairwise (fun a b => a.2.2 = true → b.2.2 = true → c.negInf / c.bp c.maxLen < a.1 →
    c.negInf / c.bp c.maxLen < b.1 → a.2.1 ≠ b.2.1)

include hc in
theorem inv2_init (hm : 0 < c.maxLen) : Inv2 c inp first ch st p 0 (initRow c first ch) := by
  have hmem : ∀ l ∈ (initRow c first ch).live, l.2 = first :: List.replicate (c.maxLen - 1) 0 := by
    intro l hl
    obtain ⟨v, _, rfl⟩ := List.mem_map.1 hl
    rfl
  refine ⟨inv_init c hc first ch, ?_, ?_, ?_, ?_, ?_, ?_, ?_, ?_, ?_⟩
  · have := hc.k
    simp only [initRow, cacheAfter, List.map_const', List.length_map, List.length_cons, List.length_replicate]
    congr 1; omega
  · intro l hl; rw [hmem l hl]; simp; omega
  · intro l hl j hj
    rw [hmem l hl]
    cases j with
    | zero => omega
    | succ j =>
      rw [List.getD_cons_succ, List.getD_eq_getElem?_getD, List.getElem?_replicate]
      split_ifs <;> rfl
  · intro l hl; rw [hmem l hl]; rfl
  · intro l hl j h1 _ h2; omega
  · intro l hl hn
    refine ⟨?_, by intro j h1 h2; omega⟩
    rw [value_prompt _ _ _ _ _ (Nat.zero_le p)]
    simp only [initRow, List.map_cons, List.map_replicate, List.mem_cons, List.mem_replicate] at hl
    rcases hl with rfl | ⟨_, rfl⟩
    · rfl
    · exact absurd hn (lt_irrefl _)
  · simp only [initRow, List.map_cons, List.map_replicate, List.pairwise_cons, List.mem_replicate]
    refine ⟨?_, ?_⟩
    · rintro a ⟨_, rfl⟩ _ h; exact absurd h (lt_irrefl _)
    · rw [List.pairwise_replicate]; right; intro h; exact absurd h (lt_irrefl _)
  · intro f hf ht
    simp only [initRow, List.mem_replicate] at hf
    rw [hf.2] at ht; cases ht
  · simp only [initRow, List.pairwise_replicate]
    right; intro h; cases h

include hst in
theorem decoder_valid {n : ℕ} {r : Row K C} (h : Inv2 c inp first ch st p n r) : ValidLogp c (decoder st n r).1 := by
  have hz : (decoder st n r).1 = r.live.map (fun l => (st n (l.2.getD n 0) (cacheAfter st ch l.2 n)).1) := by
    unfold decoder
    rw [h.cache, List.zipWith_map_right, List.zipWith_self]
    dsimp only
    rw [List.map_map]
    rfl
  rw [hz]
  refine ⟨by rw [List.length_map, h.base.liveLen], ?_, ?_⟩
  · intro v hv; obtain ⟨l, _, rfl⟩ := List.mem_map.1 hv; exact (hst _ _ _).1
  · intro v hv; obtain ⟨l, _, rfl⟩ := List.mem_map.1 hv; exact (hst _ _ _).2

/-- What holds for a candidate of iteration n. -/
structure CandOK (n : ℕ) (r : Row K C) (x : Cand K) : Prop where
  src : ∃ l, r.live[x.beam]? = some l ∧ ∀ j, j ≤ n → x.seq.getD j 0 = l.2.getD j 0
  len : x.seq.length = c.maxLen
  pad : ∀ j, n + 1 < j → x.seq.getD j 0 = 0
  head : x.seq.getD 0 0 = first
  prompt : ∀ j, 1 ≤ j → j ≤ p → j ≤ n + 1 → x.seq.getD j 0 = inp.inputs.getD j 0
  done : x.done = true ↔ x.seq.getD (n + 1) 0 = c.eos
  donePrompt : x.done = true → p < n + 1
  val : c.negInf < x.lp → x.lp = value st ch x.seq p (n + 1) ∧ ∀ j, p < j → j ≤ n → x.seq.getD j 0 ≠ c.eos

include hc hst hp in
theorem cand_ok {n : ℕ} {r : Row K C} (h : Inv2 c inp first ch st p n r) (hn : n + 1 < c.maxLen) (x : Cand K)
    (hx : x ∈ cands c n (nextTok inp.inputs n) (decoder st n r).1 r) : CandOK c inp first ch st p n r x := by
  obtain ⟨e, rk, l, lv, y, _, rfl, h1, h2, h3, hy, he⟩ :=
    mem_cands c hc n _ _ (decoder_valid c inp first ch st hst p h) r x hx
  have hl := List.mem_of_getElem? h1
  have hlv : lv = (st n (l.2.getD n 0) (cacheAfter st ch l.2 n)).1 := by
    have hz : (decoder st n r).1 = r.live.map (fun l => (st n (l.2.getD n 0) (cacheAfter st ch l.2 n)).1) := by
      unfold decoder
      rw [h.cache, List.zipWith_map_right, List.zipWith_self]
      dsimp only
      rw [List.map_map]
      rfl
    rw [hz, List.getElem?_map, h1] at h2
    exact (Option.some.inj h2).symm
  have hget : r.live.getD (e.2 / c.vocab) (0, []) = l := by
    rw [List.getD_eq_getElem?_getD, h1]; rfl
  set tok := if nextTok inp.inputs n = 0 then e.2 % c.vocab else nextTok inp.inputs n with htok
  have hmk : mkCand c r.live n (nextTok inp.inputs n) rk e =
      ⟨if nextTok inp.inputs n = 0 then e.1 else if rk = 0 then 0 else c.negInf, l.2.set (n + 1) tok,
        (l.2.set (n + 1) tok)[n + 1]? = some c.eos, e.2 / c.vocab⟩ := by
    unfold mkCand; dsimp only; rw [hget]
  rw [hmk]
  have hlen : n + 1 < l.2.length := by rw [h.len l hl]; exact hn
  have hnt := nextTok_eq hp n
  have hat : (l.2.set (n + 1) tok).getD (n + 1) 0 = tok := by rw [getD_set _ _ _ _ hlen, if_pos rfl]
  have hbelow : ∀ j, j ≤ n → (l.2.set (n + 1) tok).getD j 0 = l.2.getD j 0 := by
    intro j hj; rw [getD_set _ _ _ _ hlen, if_neg (by omega)]
  refine ⟨⟨l, h1, hbelow⟩, ?_, ?_, ?_, ?_, ?_, ?_, ?_⟩
  · dsimp only; rw [List.length_set, h.len l hl]
  · intro j hj; dsimp only
    rw [getD_set _ _ _ _ hlen, if_neg (by omega)]; exact h.pad l hl j (by omega)
  · dsimp only; rw [hbelow 0 (by omega)]; exact h.head l hl
  · intro j hj1 hj2 hj3
    dsimp only
    rcases Nat.lt_or_ge n j with hj | hj
    · have : j = n + 1 := by omega
      subst this
      rw [hat, htok, hnt, if_neg (hp.tokens _ hj1 hj2).1]
    · rw [hbelow j hj]; exact h.prompt l hl j hj1 hj2 hj
  · dsimp only
    rw [decide_eq_true_eq, List.getD_eq_getElem?_getD, List.getElem?_eq_getElem (by rw [List.length_set]; exact hlen)]
    simp
  · dsimp only
    rw [decide_eq_true_eq]
    intro hd
    by_contra hc'
    have hd' : tok = c.eos := by
      rw [← hat, List.getD_eq_getElem?_getD, hd]; rfl
    have := hp.tokens (n + 1) (by omega) (by omega)
    rw [htok, hnt, if_neg this.1] at hd'
    exact this.2 hd'
  · dsimp only
    intro hlp
    rcases Nat.lt_or_ge n p with hnp | hnp
    · rw [hnt, if_neg (hp.tokens (n + 1) (by omega) (by omega)).1] at hlp ⊢
      refine ⟨?_, by intro j h1 h2; omega⟩
      rw [value_prompt _ _ _ _ _ (by omega)]
      by_cases hrk : rk = 0
      · rw [if_pos hrk]
      · rw [if_neg hrk] at hlp; exact absurd hlp (lt_irrefl _)
    · have h0 : inp.inputs.getD (n + 1) 0 = 0 := hp.pad _ (by omega)
      rw [hnt, if_pos h0] at hlp ⊢
      have hgen : c.negInf < l.1 := by rw [he] at hlp; linarith
      obtain ⟨hv, hb⟩ := h.val l hl hgen
      refine ⟨?_, ?_⟩
      · rw [value_succ _ _ _ _ _ hnp, value_congr st ch _ l.2 p n hbelow, ← hv, he, add_comm]
        congr 1
        unfold tokenLogProb
        rw [hat, hbelow n le_rfl, cacheAfter_congr st ch _ l.2 n (fun j hj => hbelow j (by omega)), ← hlv, htok, hnt,
          if_pos h0, List.getD_eq_getElem?_getD, h3]
        rfl
      · intro j hj1 hj2
        rw [hbelow j hj2]; exact hb j hj1 hj2

include hc hst hp in
theorem cands_distinct {n : ℕ} {r : Row K C} (h : Inv2 c inp first ch st p n r) (hn : n + 1 < c.maxLen) :
    (cands c n (nextTok inp.inputs n) (decoder st n r).1 r).Pairwise
      (fun a b => c.negInf < a.lp → c.negInf < b.lp → a.seq ≠ b.seq) := by
  have hV := decoder_valid c inp first ch st hst p h
  unfold cands
  rw [List.pairwise_map, List.pairwise_iff_getElem]
  intro a b ha hb hab hla hlb
  rw [List.getElem_zipIdx] at hla hlb ⊢
  rw [List.getElem_zipIdx]
  set T := topK (flatLogProbs r.live (decoder st n r).1) (2 * c.k) with hT
  have hTk := topK_isTopK (flatLogProbs r.live (decoder st n r).1) (2 * c.k)
  rw [← hT] at hTk
  have ha' : a < T.length := by simpa using ha
  have hb' : b < T.length := by simpa using hb
  have hne : (T[a]'ha').2 ≠ (T[b]'hb').2 := by
    have hd := List.nodup_iff_pairwise_ne.1 hTk.distinct
    rw [List.pairwise_map] at hd
    exact List.pairwise_iff_getElem.1 hd a b ha' hb' hab
  have hVpos : 0 < c.vocab := by have := hc.vocab; omega
  obtain ⟨l, lv, y, h1, h2, h3, h4⟩ := flat_get r.live _ c.vocab hVpos hV.vocab _ _ (hTk.select _ (List.getElem_mem ha'))
  obtain ⟨l', lv', y', h1', h2', h3', h4'⟩ := flat_get r.live _ c.vocab hVpos hV.vocab _ _ (hTk.select _ (List.getElem_mem hb'))
  have hy := hV.nonpos lv (List.mem_of_getElem? h2) y (List.mem_of_getElem? h3)
  have hy' := hV.nonpos lv' (List.mem_of_getElem? h2') y' (List.mem_of_getElem? h3')
  unfold mkCand at hla hlb ⊢
  dsimp only at hla hlb ⊢
  by_cases h0 : nextTok inp.inputs n = 0
  · rw [if_pos h0] at hla hlb
    rw [if_pos h0, if_pos h0, List.getD_eq_getElem?_getD, List.getD_eq_getElem?_getD, h1, h1']
    simp only [Option.getD_some]
    have hl := List.mem_of_getElem? h1
    have hl' := List.mem_of_getElem? h1'
    have e1 : n + 1 < l.2.length := by rw [h.len l hl]; exact hn
    have e2 : n + 1 < l'.2.length := by rw [h.len l' hl']; exact hn
    intro heq
    have htok := congrArg (fun s => s.getD (n + 1) 0) heq
    rw [getD_set _ _ _ _ e1, getD_set _ _ _ _ e2, if_pos rfl, if_pos rfl] at htok
    have hbeam : (T[a]'ha').2 / c.vocab ≠ (T[b]'hb').2 / c.vocab := by
      intro hb2
      apply hne
      rw [← Nat.div_add_mod (T[a]'ha').2 c.vocab, ← Nat.div_add_mod (T[b]'hb').2 c.vocab, hb2, htok]
    obtain ⟨q1, rfl⟩ := List.getElem?_eq_some_iff.1 h1
    obtain ⟨q2, rfl⟩ := List.getElem?_eq_some_iff.1 h1'
    have g1 : c.negInf < (r.live[(T[a]'ha').2 / c.vocab]'q1).1 := by rw [h4] at hla; linarith
    have g2 : c.negInf < (r.live[(T[b]'hb').2 / c.vocab]'q2).1 := by rw [h4'] at hlb; linarith
    have hls : (r.live[(T[a]'ha').2 / c.vocab]'q1).2 ≠ (r.live[(T[b]'hb').2 / c.vocab]'q2).2 := by
      rcases Nat.lt_or_gt_of_ne hbeam with hlt | hlt
      · exact List.pairwise_iff_getElem.1 h.dist _ _ q1 q2 hlt g1 g2
      · exact (List.pairwise_iff_getElem.1 h.dist _ _ q2 q1 hlt g2 g1).symm
    apply hls
    apply ext_getD
    · rw [h.len _ hl, h.len _ hl']
    · intro j
      by_cases hj : j = n + 1
      · rw [h.pad _ hl j (by omega), h.pad _ hl' j (by omega)]
      · have := congrArg (fun s => s.getD j 0) heq
        rwa [getD_set _ _ _ _ e1, getD_set _ _ _ _ e2, if_neg hj, if_neg hj] at this
  · rw [if_neg h0, if_neg (by omega)] at hlb
    exact absurd hlb (lt_irrefl _)

include hc hst hp heos in
theorem inv2_body {n : ℕ} {r : Row K C} (h : Inv2 c inp first ch st p n r) (hn : n + 1 < c.maxLen)
    (hi : inp.initialIndex + (n + 1) ≤ c.maxLen) :
    Inv2 c inp first ch st p (n + 1) (rowBody c inp n (decoder st n r).1 (decoder st n r).2 r) := by
  have hV := decoder_valid c inp first ch st hst p h
  have hok := cand_ok c hc inp first ch st hst p hp h hn
  have hdist := cands_distinct c hc inp first ch st hst p hp h hn
  have hlive : ∀ l ∈ (rowBody c inp n (decoder st n r).1 (decoder st n r).2 r).live,
      ∃ x ∈ cands c n (nextTok inp.inputs n) (decoder st n r).1 r, l = (liveKey c x, x.seq) := by
    intro l hl
    obtain ⟨x, hx, rfl⟩ := List.mem_map.1 hl
    exact ⟨x, gatherTop_mem _ _ _ hx, rfl⟩
  have hkey : ∀ x ∈ cands c n (nextTok inp.inputs n) (decoder st n r).1 r, c.negInf < liveKey c x →
      c.negInf < x.lp ∧ x.done = false ∧ liveKey c x = x.lp := by
    intro x hx hk
    have hx0 := cand_nonpos c hc n _ _ hV r h.base.liveNonpos x hx
    unfold liveKey at hk ⊢
    cases hd : x.done with
    | true => rw [hd, if_pos rfl] at hk; linarith
    | false =>
      rw [hd] at hk
      simp only [Bool.false_eq_true, if_false, add_zero] at hk ⊢
      exact ⟨hk, trivial, trivial⟩
  have hnew : ∀ x ∈ cands c n (nextTok inp.inputs n) (decoder st n r).1 r, x.done = true →
      c.negInf / c.bp c.maxLen < score c (inp.initialIndex + (n + 1)) x →
      c.negInf < x.lp ∧ score c (inp.initialIndex + (n + 1)) x = x.lp / c.bp (inp.initialIndex + (n + 1)) := by
    intro x hx hd hs
    unfold score at hs ⊢
    rw [hd, if_pos rfl, add_zero] at hs ⊢
    refine ⟨?_, rfl⟩
    by_contra hle
    have := div_bound c hc c.negInf x.lp hc.neg.le (not_lt.1 hle) _ hi
    linarith
  have hfin : ∀ x ∈ cands c n (nextTok inp.inputs n) (decoder st n r).1 r, x.done = true →
      c.negInf < x.lp → Finished c.eos c.maxLen first inp.inputs p (n + 1) x.seq := by
    intro x hx hd hs
    have q := hok x hx
    exact ⟨q.len, ⟨q.donePrompt hd, hn⟩, q.head, fun j h1 h2 => q.prompt j h1 h2 (by have := q.donePrompt hd; omega),
      fun j h1 h2 => (q.val hs).2 j h1 (by omega), q.done.1 hd, q.pad⟩
  refine ⟨inv_body c hc inp n _ hV _ r h.base, ?_, ?_, ?_, ?_, ?_, ?_, ?_, ?_, ?_⟩
  · -- caches
    show (gatherTop _ _ _).filterMap _ = ((gatherTop _ _ _).map _).map _
    rw [List.map_map]
    have hz : (decoder st n r).2 = r.live.map (fun l => cacheAfter st ch l.2 (n + 1)) := by
      unfold decoder
      rw [h.cache, List.zipWith_map_right, List.zipWith_self]
      dsimp only
      rw [List.map_map]
      rfl
    have : ∀ x ∈ gatherTop (cands c n (nextTok inp.inputs n) (decoder st n r).1 r) (liveKey c) c.k,
        (decoder st n r).2[x.beam]? = some (cacheAfter st ch x.seq (n + 1)) := by
      intro x hx
      obtain ⟨l, h1, h2⟩ := (hok x (gatherTop_mem _ _ _ hx)).src
      rw [hz, List.getElem?_map, h1]
      simp only [Option.map_some]
      rw [cacheAfter_congr st ch x.seq l.2 (n + 1) (fun j hj => h2 j (by omega))]
    rw [← List.filterMap_eq_map]
    apply List.filterMap_congr
    intro x hx
    rw [this x hx]; rfl
  · intro l hl; obtain ⟨x, hx, rfl⟩ := hlive l hl; exact (hok x hx).len
  · intro l hl; obtain ⟨x, hx, rfl⟩ := hlive l hl; exact (hok x hx).pad
  · intro l hl; obtain ⟨x, hx, rfl⟩ := hlive l hl; exact (hok x hx).head
  · intro l hl; obtain ⟨x, hx, rfl⟩ := hlive l hl; exact (hok x hx).prompt
  · intro l hl hgen
    obtain ⟨x, hx, rfl⟩ := hlive l hl
    obtain ⟨g1, g2, g3⟩ := hkey x hx hgen
    have q := hok x hx
    obtain ⟨v1, v2⟩ := q.val g1
    refine ⟨by rw [← v1]; exact g3, ?_⟩
    intro j hj1 hj2
    rcases Nat.lt_or_ge n j with hj | hj
    · have : j = n + 1 := by omega
      subst this
      intro he
      rw [q.done.2 he] at g2; cases g2
    · exact v2 j hj1 hj
  · show ((gatherTop _ _ _).map _).Pairwise _
    rw [List.pairwise_map]
    have := gatherTop_pairwise _ (liveKey c) c.k
      (R := fun a b => c.negInf < a.lp → c.negInf < b.lp → a.seq ≠ b.seq) (fun a b hab h1 h2 => (hab h2 h1).symm) hdist
    refine this.imp_of_mem ?_
    intro a b ha hb hab h1 h2
    exact hab (hkey a (gatherTop_mem _ _ _ ha) h1).1 (hkey b (gatherTop_mem _ _ _ hb) h2).1
  · intro f hf hd hs
    have hf := gatherTop_mem _ _ _ hf
    rcases List.mem_append.1 hf with hf | hf
    · obtain ⟨t, h1, h2⟩ := h.fin f hf hd hs
      exact ⟨t, by omega, h2⟩
    · obtain ⟨x, hx, rfl⟩ := List.mem_map.1 hf
      obtain ⟨g1, g2⟩ := hnew x hx hd hs
      refine ⟨n + 1, le_rfl, hfin x hx hd g1, ?_⟩
      dsimp only
      rw [g2, ((hok x hx).val g1).1]
  · apply gatherTop_pairwise
    · intro a b hab h1 h2 h3 h4; exact (hab h2 h1 h4 h3).symm
    · rw [List.pairwise_append]
      refine ⟨h.finDist, ?_, ?_⟩
      · rw [List.pairwise_map]
        refine hdist.imp_of_mem ?_
        intro a b ha hb hab h1 h2 h3 h4
        exact hab (hnew a ha h1 h3).1 (hnew b hb h2 h4).1
      · intro a ha b hb h1 h2 h3 h4
        obtain ⟨x, hx, rfl⟩ := List.mem_map.1 hb
        obtain ⟨t, ht, hF, _⟩ := h.fin a ha h1 h3
        intro heq
        dsimp only at heq h2
        have e1 := hF.pad (n + 1) (by omega)
        have e2 := (hok x hx).done.1 h2
        rw [heq, e2] at e1
        exact heos e1

include hc hst hp heos in
theorem inv2_iter (n : ℕ) (hn : n < c.maxLen) (hi : inp.initialIndex + n ≤ c.maxLen) :
    Inv2 c inp first ch st p n (rowIter c inp first ch (decoder st) n) := by
  induction n with
  | zero => exact inv2_init c hc inp first ch st p hn
  | succ n ih => exact inv2_body c hc inp first ch st hst p hp heos (ih (by omega) (by omega)) hn hi

include hc hst hp heos in
/-- C55: after any number n of iterations within the maximal length, every finished beam whose score is
above that of an empty slot is the prompt, a continuation without EOS, one EOS, and padding; and its score is
the log-probability of that continuation, as the decoder gives it when it is fed that sequence alone from
the initial cache, divided by the brevity penalty of its length. -/
theorem C55_finished_score (n : ℕ) (hn : n < c.maxLen) (hi : inp.initialIndex + n ≤ c.maxLen) :
    ∀ f ∈ (rowIter c inp first ch (decoder st) n).fin, f.2.2 = true → c.negInf / c.bp c.maxLen < f.1 →
      ∃ t, t ≤ n ∧ Finished c.eos c.maxLen first inp.inputs p t f.2.1 ∧
        f.1 = value st ch f.2.1 p t / c.bp (inp.initialIndex + t) :=
  (inv2_iter c hc inp first ch st hst p hp heos n hn hi).fin

include hc hst hp heos in
/-- C55, live beams: a live beam above NEG_INF contains the prompt and no EOS, its log-probability is that of
its own tokens, and its cache is the one its own tokens produce. -/
theorem C55_live_score (n : ℕ) (hn : n < c.maxLen) (hi : inp.initialIndex + n ≤ c.maxLen) (i : ℕ) (l : K × List ℕ)
    (hl : (rowIter c inp first ch (decoder st) n).live[i]? = some l) :
    (rowIter c inp first ch (decoder st) n).cache[i]? = some (cacheAfter st ch l.2 n) ∧
    (c.negInf < l.1 → l.1 = value st ch l.2 p n ∧
      (∀ j, 1 ≤ j → j ≤ p → j ≤ n → l.2.getD j 0 = inp.inputs.getD j 0) ∧
      ∀ j, p < j → j ≤ n → l.2.getD j 0 ≠ c.eos) := by
  have h := inv2_iter c hc inp first ch st hst p hp heos n hn hi
  have hm := List.mem_of_getElem? hl
  refine ⟨?_, fun hg => ⟨(h.val l hm hg).1, h.prompt l hm, (h.val l hm hg).2⟩⟩
  rw [h.cache, List.getElem?_map, hl]; rfl

include hc hst hp heos in
/-- C56: the finished beams above the score of an empty slot are pairwise different sequences, and so are
the live beams above NEG_INF. -/
theorem C56_distinct (n : ℕ) (hn : n < c.maxLen) (hi : inp.initialIndex + n ≤ c.maxLen) :
    (rowIter c inp first ch (decoder st) n).fin.Pairwise (fun a b => a.2.2 = true → b.2.2 = true →
      c.negInf / c.bp c.maxLen < a.1 → c.negInf / c.bp c.maxLen < b.1 → a.2.1 ≠ b.2.1) ∧
    (rowIter c inp first ch (decoder st) n).live.Pairwise (fun a b => c.negInf < a.1 → c.negInf < b.1 → a.2 ≠ b.2) :=
  ⟨(inv2_iter c hc inp first ch st hst p hp heos n hn hi).finDist, (inv2_iter c hc inp first ch st hst p hp heos n hn hi).dist⟩

end main

section eosPrompt
variable (c : Cfg K) (hc : Good c) (inp : RowIn) (first : ℕ) (ch : C) (o : ℕ → Row K C → List (List K) × List C)
  (ho : ∀ n r, r.live.length = c.k → ValidLogp c (o n r).1)
include hc ho

/-- No score is ever positive, and empty slots are at NEG_INF or below. -/
theorem fin_nonpos (n : ℕ) : ∀ f ∈ (rowIter c inp first ch o n).fin, f.1 ≤ 0 ∧ (f.2.2 = false → f.1 ≤ c.negInf) := by
  induction n with
  | zero =>
    intro f hf
    simp only [rowIter, initRow, List.mem_replicate] at hf
    rw [hf.2]; exact ⟨hc.neg.le, fun _ => le_rfl⟩
  | succ n ih =>
    intro f hf
    have hf := gatherTop_mem _ _ _ hf
    rcases List.mem_append.1 hf with hf | hf
    · exact ih f hf
    · obtain ⟨x, hx, rfl⟩ := List.mem_map.1 hf
      have hi := inv_iter c hc inp first ch o ho n
      have h0 := cand_nonpos c hc n _ _ (ho n _ hi.liveLen) _ hi.liveNonpos x hx
      have h1 : x.lp / c.bp (inp.initialIndex + (n + 1)) ≤ 0 := div_nonpos_of_nonpos_of_nonneg h0 (hc.pos _).le
      have := hc.neg.le
      dsimp only
      unfold score
      refine ⟨by split_ifs <;> linarith, ?_⟩
      intro hd
      rw [hd]; simpa using h1

theorem live_len (hm : 0 < c.maxLen) (n : ℕ) : ∀ l ∈ (rowIter c inp first ch o n).live, l.2.length = c.maxLen := by
  induction n with
  | zero =>
    intro l hl
    obtain ⟨v, _, rfl⟩ := List.mem_map.1 hl
    simp; omega
  | succ n ih =>
    intro l hl
    obtain ⟨x, hx, rfl⟩ := List.mem_map.1 hl
    have hi := inv_iter c hc inp first ch o ho n
    obtain ⟨e, rk, l, lv, y, _, rfl, h1, _⟩ := mem_cands c hc n _ _ (ho n _ hi.liveLen) _ x (gatherTop_mem _ _ _ hx)
    dsimp only [mkCand]
    rw [List.length_set, List.getD_eq_getElem?_getD, h1]
    exact ih l (List.mem_of_getElem? h1)

/-- C55, what the assumption on prompts is for: if a prompt that is teacher-forced contains EOS, then from that
position on the row holds a finished sequence with the best possible score 0, whatever the decoder thinks. -/
theorem C55_eos_in_prompt (n m : ℕ) (hn : n + 1 < c.maxLen)
    (hnext : nextTok inp.inputs n = c.eos) (heos : c.eos ≠ 0) :
    ∃ f ∈ (rowIter c inp first ch o (n + 1 + m)).fin, f.2.2 = true ∧ f.1 = 0 := by
  have hfull : ∀ i, ∀ f ∈ (rowIter c inp first ch o i).fin, 0 ≤ f.1 → f.2.2 = true ∧ f.1 = 0 := by
    intro i f hf h0
    have := fin_nonpos c hc inp first ch o ho i f hf
    refine ⟨?_, le_antisymm this.1 h0⟩
    by_contra hfl
    have := this.2 (by simpa using hfl)
    have := hc.neg
    linarith
  have hkeep : ∀ i, (∃ f ∈ (rowIter c inp first ch o i).fin, 0 ≤ f.1) → ∃ f ∈ (rowIter c inp first ch o (i + 1)).fin, 0 ≤ f.1 := by
    rintro i ⟨f, hf, h0⟩
    have hlen := (inv_iter c hc inp first ch o ho (i + 1)).finLen
    rcases gatherTop_best ((rowIter c inp first ch o i).fin ++ (cands c i (nextTok inp.inputs i) (o i (rowIter c inp first ch o i)).1
        (rowIter c inp first ch o i)).map (fun x => (score c (inp.initialIndex + (i + 1)) x, x.seq, x.done))) (·.1) c.k f
        (List.mem_append_left _ hf) with h | h
    · exact ⟨f, h, h0⟩
    · have hne : (rowIter c inp first ch o (i + 1)).fin ≠ [] := by
        intro he; rw [he] at hlen; have := hc.k; simp at hlen; omega
      exact ⟨_, List.head_mem hne, le_trans h0 (h _ (List.head_mem hne))⟩
  have hstart : ∃ f ∈ (rowIter c inp first ch o (n + 1)).fin, 0 ≤ f.1 := by
    have hi := inv_iter c hc inp first ch o ho n
    have hV := ho n _ hi.liveLen
    have hlen := cands_length c hc n (nextTok inp.inputs n) _ hV _ hi.liveLen
    set r := rowIter c inp first ch o n with hr
    have hTl : (topK (flatLogProbs r.live (o n r).1) (2 * c.k)).length = 2 * c.k := by
      have := hlen
      unfold cands at this
      rwa [List.length_map, List.length_zipIdx] at this
    have hk := hc.k
    have hT0 : 0 < (topK (flatLogProbs r.live (o n r).1) (2 * c.k)).length := by omega
    set e := (topK (flatLogProbs r.live (o n r).1) (2 * c.k))[0]'hT0 with he
    have hmem : mkCand c r.live n (nextTok inp.inputs n) 0 e ∈ cands c n (nextTok inp.inputs n) (o n r).1 r := by
      unfold cands
      apply List.mem_map.2
      refine ⟨(e, 0), ?_, rfl⟩
      rw [List.mem_zipIdx_iff_getElem?]
      rw [List.getElem?_eq_getElem hT0]
    obtain ⟨l, lv, y, h1, _⟩ := flat_get r.live _ c.vocab (by have := hc.vocab; omega) hV.vocab e.2 e.1
      ((topK_isTopK (flatLogProbs r.live (o n r).1) (2 * c.k)).select e (List.getElem_mem hT0))
    have hll := live_len c hc inp first ch o ho (by omega) n l (List.mem_of_getElem? h1)
    have hnz : ¬ nextTok inp.inputs n = 0 := by rw [hnext]; exact heos
    have hs : score c (inp.initialIndex + (n + 1)) (mkCand c r.live n (nextTok inp.inputs n) 0 e) = 0 := by
      have e1 : (mkCand c r.live n (nextTok inp.inputs n) 0 e).lp = 0 := by
        unfold mkCand; dsimp only; rw [if_neg hnz, if_pos rfl]
      have e2 : (mkCand c r.live n (nextTok inp.inputs n) 0 e).done = true := by
        unfold mkCand
        dsimp only
        rw [decide_eq_true_eq, if_neg hnz, List.getD_eq_getElem?_getD, h1]
        simp only [Option.getD_some]
        rw [List.getElem?_set_self (by omega), hnext]
      unfold score
      rw [e1, e2, if_pos rfl, zero_div, add_zero]
    have hlenf := (inv_iter c hc inp first ch o ho (n + 1)).finLen
    rcases gatherTop_best (r.fin ++ (cands c n (nextTok inp.inputs n) (o n r).1 r).map
        (fun x => (score c (inp.initialIndex + (n + 1)) x, x.seq, x.done))) (·.1) c.k _
        (List.mem_append_right _ (List.mem_map_of_mem hmem)) with h | h
    · exact ⟨_, h, hs.ge⟩
    · have hne : (rowIter c inp first ch o (n + 1)).fin ≠ [] := by
        intro he; rw [he] at hlenf; simp at hlenf; omega
      exact ⟨_, List.head_mem hne, le_trans hs.ge (h _ (List.head_mem hne))⟩
  have hall : ∀ m, ∃ f ∈ (rowIter c inp first ch o (n + 1 + m)).fin, 0 ≤ f.1 := by
    intro m
    induction m with
    | zero => exact hstart
    | succ m ih => exact hkeep _ ih
  obtain ⟨f, hf, h0⟩ := hall m
  exact ⟨f, hf, hfull _ f hf h0⟩
end eosPrompt

/-! Concrete cases -/

/-- Two beams, three tokens (0 padding, 1 EOS, 2), five positions, alpha = 1. -/
def exCfg : Cfg ℚ := ⟨2, 3, 1, 5, -1000, fun n => (5 + n) / 6, -1000, 0⟩

theorem exCfg_good : Good exCfg := by
  refine ⟨by decide, by decide, by norm_num [exCfg], ?_, ?_, by norm_num [exCfg]⟩
  · intro n; show (0 : ℚ) < (5 + n) / 6; positivity
  · intro m n h
    show ((5 : ℚ) + m) / 6 ≤ (5 + n) / 6
    have : (m : ℚ) ≤ n := by exact_mod_cast h
    linarith

/-- A decoder whose answer depends on its cache (the sum of the tokens so far). -/
def exStep : Step ℚ ℕ := fun _ tok ch => if ch + tok ≤ 2 then ([-4, -3, -1], ch + tok) else ([-8, -1, -7], ch + tok)

theorem exStep_valid : ValidStep exCfg exStep := by
  intro n tok ch
  unfold exStep
  split_ifs <;> refine ⟨rfl, ?_⟩ <;> intro x hx <;> simp at hx <;> rcases hx with rfl | rfl | rfl <;> norm_num

theorem ex_prompt : Prompt exCfg.eos [0, 2, 0, 0] 1 := by
  refine ⟨by decide, ?_, ?_⟩
  · intro j h1 h2
    have : j = 1 := by omega
    subst this; decide
  · intro j hj
    match j, hj with
    | 2, _ => rfl
    | 3, _ => rfl
    | j + 4, _ => simp

/-- C55 and C56: a run with prompt [2]; the best sequence is 2 2 1 with score (-1 - 1) / (8 / 6). -/
example : ((rowIter exCfg ⟨[0, 2, 0, 0], 0⟩ 0 0 (decoder exStep) 3).fin.map (fun f => (f.1, f.2.1, f.2.2))) =
    [(-3 / (7 / 6), [0, 2, 1, 0, 0], true), (-2 / (8 / 6), [0, 2, 2, 1, 0], true)] := by
  decide +kernel

/-- C08: that row is terminated and both slots are full; the theorems apply with m = 1. -/
example : rowTerminated exCfg (rowIter exCfg ⟨[0, 2, 0, 0], 0⟩ 0 0 (decoder exStep) 3) = true ∧
    (∀ g ∈ (rowIter exCfg ⟨[0, 2, 0, 0], 0⟩ 0 0 (decoder exStep) 3).fin, g.2.2 = true) ∧
    (∀ i, 3 ≤ i → nextTok [0, 2, 0, 0] i = 0) := by
  refine ⟨by decide +kernel, by decide +kernel, ?_⟩
  intro i hi
  unfold nextTok
  rw [Nat.min_eq_right (by simp; omega)]; rfl

/-- C55: a prompt 2 1 2 with EOS in the middle.  The finished sequence 2 1 has score 0 although the decoder gives
its EOS log-probability -3, and it stays the best one. -/
example : nextTok [0, 2, 1, 2, 0] 1 = exCfg.eos ∧
    (rowIter exCfg ⟨[0, 2, 1, 2, 0], 0⟩ 0 0 (decoder exStep) 4).fin.getLast? = some (0, [0, 2, 1, 0, 0], true) := by
  decide +kernel

/-- C08: the length condition is needed.  With different prompt lengths in a batch the loop runs until the row with
the shortest prompt is full, so a row with a longer prompt can pass the maximal length; beyond it the bound used
by the termination test does not hold.  Here one beam, prompt length 7 of 8 positions: the row is terminated after
the first iteration, and the second one replaces its finished sequence by a better one. -/
theorem C08_needs_length :
    let c : Cfg ℚ := ⟨1, 2, 1, 8, -1000, fun n => (5 + n) / 6, -1000, 0⟩
    let o : ℕ → Row ℚ Unit → List (List ℚ) × List Unit := fun n _ => if n = 0 then ([[-26, -25]], [()]) else ([[-1, 0]], [()])
    let inp : RowIn := ⟨List.replicate 7 0, 7⟩
    Good c ∧ (∀ n r, ValidLogp c (o n r).1) ∧ (∀ i, nextTok inp.inputs i = 0) ∧
    rowTerminated c (rowIter c inp 5 () o 1) = true ∧ (∀ g ∈ (rowIter c inp 5 () o 1).fin, g.2.2 = true) ∧
    (rowIter c inp 5 () o 1).fin.map (·.1) = [-25 / (13 / 6)] ∧ (rowIter c inp 5 () o 2).fin.map (·.1) = [-26 / (14 / 6)] := by
  dsimp only
  refine ⟨⟨by decide, by decide, by norm_num, ?_, ?_, by norm_num⟩, ?_, ?_, by decide +kernel, by decide +kernel,
    by decide +kernel, by decide +kernel⟩
  · intro n; dsimp only; positivity
  · intro m n h; dsimp only
    have : (m : ℚ) ≤ n := by exact_mod_cast h
    linarith
  · intro n r
    split_ifs <;> refine ⟨rfl, ?_, ?_⟩ <;> intro v hv <;> simp at hv <;> subst hv
    · rfl
    · intro x hx; simp at hx; rcases hx with rfl | rfl <;> norm_num
    · rfl
    · intro x hx; simp at hx; rcases hx with rfl | rfl <;> norm_num
  · intro i
    unfold nextTok
    rw [List.getD_eq_getElem?_getD, List.getElem?_replicate]
    split_ifs <;> rfl

end Verif.Beam
