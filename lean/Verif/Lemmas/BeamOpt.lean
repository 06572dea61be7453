import Verif.Props.BeamScore
import Verif.Spec.BeamOpt
/-
Lemmas for C99: which sequences beam search keeps.
-/
namespace Verif.Beam
open Verif.TopK Verif.TopK.Spec Spec

variable {K C : Type} [Field K] [LinearOrder K] [IsStrictOrderedRing K]

section opt
variable (c : Cfg K) (hc : Good c) (inp : RowIn) (first : ℕ) (ch : C) (st : Step K C) (hst : ValidStep c st) (p : ℕ)
  (hp : Prompt c.eos inp.inputs p) (heos : c.eos ≠ 0)

include hc hst hp in
theorem cand_vocab {n : ℕ} {r : Row K C} (h : Inv2 c inp first ch st p n r) (hn : n + 1 < c.maxLen) (hpn : p ≤ n) (x : Cand K)
    (hx : x ∈ cands c n (nextTok inp.inputs n) (decoder st n r).1 r) : x.seq.getD (n + 1) 0 < c.vocab := by
  obtain ⟨e, rk, l, lv, y, _, rfl, h1, h2, h3, hy, he⟩ :=
    mem_cands c hc n _ _ (decoder_valid c inp first ch st hst p h) r x hx
  have hl := List.mem_of_getElem? h1
  have h0 : nextTok inp.inputs n = 0 := by rw [nextTok_eq hp]; exact hp.pad _ (by omega)
  have hget : r.live.getD (e.2 / c.vocab) (0, []) = l := by
    rw [List.getD_eq_getElem?_getD, h1]; rfl
  unfold mkCand
  dsimp only
  rw [hget, getD_set _ _ _ _ (by rw [h.len l hl]; exact hn), if_pos rfl, if_pos h0]
  exact Nat.mod_lt _ (by have := hc.vocab; omega)

/-- The live tokens after the prompt belong to the vocabulary. -/
def InVocab (n : ℕ) (r : Row K C) : Prop := ∀ l ∈ r.live, ∀ j, p < j → j ≤ n → l.2.getD j 0 < c.vocab

include hc hst hp heos in
theorem inVocab_iter (n : ℕ) (hn : n < c.maxLen) (hi : inp.initialIndex + n ≤ c.maxLen) :
    InVocab c p n (rowIter c inp first ch (decoder st) n) := by
  induction n with
  | zero => intro l _ j h1 h2; omega
  | succ n ih =>
    have h := inv2_iter c hc inp first ch st hst p hp heos n (by omega) (by omega)
    intro l hl j h1 h2
    change l ∈ (rowBody c inp n _ _ (rowIter c inp first ch (decoder st) n)).live at hl
    obtain ⟨x, hx, rfl⟩ := List.mem_map.1 hl
    have hx := gatherTop_mem _ _ _ hx
    rcases Nat.lt_or_ge n j with hj | hj
    · have : j = n + 1 := by omega
      subst this
      exact cand_vocab c hc inp first ch st hst p hp h hn (by omega) x hx
    · obtain ⟨l, e1, e2⟩ := (cand_ok c hc inp first ch st hst p hp h hn x hx).src
      dsimp only
      rw [e2 j hj]
      exact ih (by omega) (by omega) l (List.mem_of_getElem? e1) j h1 hj

include hc hst hp in
/-- A candidate that is not finished and lies above NEG_INF is an unfinished sequence. -/
theorem cand_prefix {n : ℕ} {r : Row K C} (h : Inv2 c inp first ch st p n r) (hv : InVocab c p n r) (hn : n + 1 < c.maxLen)
    (hpn : p ≤ n) (x : Cand K) (hx : x ∈ cands c n (nextTok inp.inputs n) (decoder st n r).1 r) (hd : x.done = false)
    (hlp : c.negInf < x.lp) : Prefix c.eos c.vocab c.maxLen first inp.inputs p (n + 1) x.seq := by
  have q := cand_ok c hc inp first ch st hst p hp h hn x hx
  refine ⟨q.len, q.head, fun j h1 h2 => q.prompt j h1 h2 (by omega), ?_, q.pad⟩
  intro j h1 h2
  rcases Nat.lt_or_ge n j with hj | hj
  · have : j = n + 1 := by omega
    subst this
    refine ⟨?_, cand_vocab c hc inp first ch st hst p hp h hn hpn x hx⟩
    intro he
    rw [q.done.2 he] at hd; cases hd
  · refine ⟨(q.val hlp).2 j h1 hj, ?_⟩
    obtain ⟨l, e1, e2⟩ := q.src
    rw [e2 j hj]
    exact hv l (List.mem_of_getElem? e1) j h1 hj

/-- Rivals that continue a live beam. -/
def Near (s : List ℕ) (n : ℕ) (r : Row K C) (u : List ℕ) : Prop :=
  Rival c inp first ch st p s (n + 1) u ∧ ∃ l ∈ r.live, c.negInf < l.1 ∧ ∀ j, j ≤ n → u.getD j 0 = l.2.getD j 0

omit [Field K] [LinearOrder K] [IsStrictOrderedRing K] in
theorem length_split (l : List (Cand K)) :
    l.length = (l.filter (fun x => x.done)).length + (l.filter (fun x => !x.done)).length := by
  induction l with
  | nil => rfl
  | cons a l ih =>
    rw [List.length_cons, ih, List.filter_cons, List.filter_cons]
    cases a.done <;> simp <;> omega

include hc hst hp in
/-- The live beam a candidate above NEG_INF continues is itself above NEG_INF. -/
theorem cand_parent {n : ℕ} {r : Row K C} (h : Inv2 c inp first ch st p n r) (hpn : p ≤ n) (x : Cand K)
    (hx : x ∈ cands c n (nextTok inp.inputs n) (decoder st n r).1 r) (hlp : c.negInf < x.lp) :
    ∃ l, r.live[x.beam]? = some l ∧ c.negInf < l.1 ∧ x.seq = l.2.set (n + 1) (x.seq.getD (n + 1) 0) := by
  obtain ⟨e, rk, l, lv, y, _, rfl, h1, h2, h3, hy, he⟩ :=
    mem_cands c hc n _ _ (decoder_valid c inp first ch st hst p h) r x hx
  have h0 : nextTok inp.inputs n = 0 := by rw [nextTok_eq hp]; exact hp.pad _ (by omega)
  have hget : r.live.getD (e.2 / c.vocab) (0, []) = l := by
    rw [List.getD_eq_getElem?_getD, h1]; rfl
  unfold mkCand at hlp ⊢
  dsimp only at hlp ⊢
  rw [if_pos h0] at hlp
  rw [hget]
  refine ⟨l, h1, by linarith, ?_⟩
  by_cases hlen : n + 1 < l.2.length
  · rw [getD_set _ _ _ _ hlen, if_pos rfl]
  · rw [List.set_eq_of_length_le (by omega), List.set_eq_of_length_le (by omega)]

include hc hst hp in
/-- If a live beam is the sequence so far, the continuation is one of the 2k candidates, unless there are too many rivals. -/
theorem cand_kept {n : ℕ} {r : Row K C} (h : Inv2 c inp first ch st p n r) (hv : InVocab c p n r) (hn : n + 1 < c.maxLen)
    (hpn : p ≤ n) (s : List ℕ) (l : K × List ℕ) (hl : l ∈ r.live) (hls : ∀ j, j ≤ n → l.2.getD j 0 = s.getD j 0)
    (hlv : l.1 = value st ch s p n) (hw : s.getD (n + 1) 0 < c.vocab) (hval : c.negInf < value st ch s p (n + 1))
    (hriv : ∀ L : List (List ℕ), L.Nodup → (∀ u ∈ L, Near c inp first ch st p s n r u) →
      L.length < c.k + if s.getD (n + 1) 0 = c.eos then 1 else 0) :
    ∃ x ∈ cands c n (nextTok inp.inputs n) (decoder st n r).1 r,
      (∀ j, j ≤ n + 1 → x.seq.getD j 0 = s.getD j 0) ∧ x.lp = value st ch s p (n + 1) := by
  have hok := cand_ok c hc inp first ch st hst p hp h hn
  have hV := decoder_valid c inp first ch st hst p h
  have hVpos : 0 < c.vocab := by have := hc.vocab; omega
  have h0 : nextTok inp.inputs n = 0 := by rw [nextTok_eq hp]; exact hp.pad _ (by omega)
  -- it is enough to find a candidate above NEG_INF which is the sequence
  by_contra hno
  have hno' : ∀ x ∈ cands c n (nextTok inp.inputs n) (decoder st n r).1 r, c.negInf < x.lp →
      ∃ j, j ≤ n + 1 ∧ x.seq.getD j 0 ≠ s.getD j 0 := by
    intro x hx hlp
    by_contra hall
    push Not at hall
    exact hno ⟨x, hx, hall, by rw [((hok x hx).val hlp).1]; exact value_congr st ch _ _ p _ hall⟩
  obtain ⟨b, hb, hbl⟩ := List.mem_iff_getElem.1 hl
  have hb' : r.live[b]? = some l := by rw [List.getElem?_eq_getElem hb, hbl]
  set T := topK (flatLogProbs r.live (decoder st n r).1) (2 * c.k) with hT
  have hTk := topK_isTopK (flatLogProbs r.live (decoder st n r).1) (2 * c.k)
  rw [← hT] at hTk
  -- the entry of the continuation
  have hflen := flat_length r.live (decoder st n r).1 c.vocab hV.vocab (by rw [h.base.liveLen, hV.beams])
  have hidx : b * c.vocab + s.getD (n + 1) 0 < (flatLogProbs r.live (decoder st n r).1).length := by
    rw [hflen]
    calc b * c.vocab + s.getD (n + 1) 0 < b * c.vocab + c.vocab := by omega
      _ = (b + 1) * c.vocab := by rw [Nat.succ_mul]
      _ ≤ r.live.length * c.vocab := Nat.mul_le_mul_right _ hb
  have hdiv : (b * c.vocab + s.getD (n + 1) 0) / c.vocab = b := by
    rw [Nat.mul_comm, Nat.mul_add_div hVpos, Nat.div_eq_of_lt hw, Nat.add_zero]
  have hmod : (b * c.vocab + s.getD (n + 1) 0) % c.vocab = s.getD (n + 1) 0 := by
    rw [Nat.mul_comm, Nat.mul_add_mod, Nat.mod_eq_of_lt hw]
  have hz : (decoder st n r).1 = r.live.map (fun l => (st n (l.2.getD n 0) (cacheAfter st ch l.2 n)).1) := by
    unfold decoder
    rw [h.cache, List.zipWith_map_right, List.zipWith_self]
    dsimp only
    rw [List.map_map]
    rfl
  have hentry : (flatLogProbs r.live (decoder st n r).1)[b * c.vocab + s.getD (n + 1) 0]? = some (value st ch s p (n + 1)) := by
    obtain ⟨z, hzz⟩ : ∃ z, (flatLogProbs r.live (decoder st n r).1)[b * c.vocab + s.getD (n + 1) 0]? = some z :=
      ⟨_, List.getElem?_eq_getElem hidx⟩
    obtain ⟨l', lv, y, g1, g2, g3, g4⟩ := flat_get r.live _ c.vocab hVpos hV.vocab _ _ hzz
    rw [hdiv] at g1 g2
    rw [hmod] at g3
    rw [hb'] at g1
    obtain rfl := Option.some.inj g1
    rw [hz, List.getElem?_map, hb'] at g2
    have g2 : (st n (l.2.getD n 0) (cacheAfter st ch l.2 n)).1 = lv := Option.some.inj g2
    rw [hzz, g4, value_succ _ _ _ _ _ hpn, hlv, add_comm]
    congr 2
    unfold tokenLogProb
    rw [← hls n le_rfl, ← cacheAfter_congr st ch l.2 s n (fun j hj => hls j (by omega)), g2,
      List.getD_eq_getElem?_getD, g3]
    rfl
  have hlen_l : n + 1 < l.2.length := by rw [h.len l hl]; exact hn
  -- that entry is not selected
  have hnot : b * c.vocab + s.getD (n + 1) 0 ∉ T.map (·.2) := by
    intro hm
    obtain ⟨e, he, hei⟩ := List.mem_map.1 hm
    obtain ⟨rk, hrk, hrke⟩ := List.mem_iff_getElem.1 he
    have hx : mkCand c r.live n (nextTok inp.inputs n) rk e ∈ cands c n (nextTok inp.inputs n) (decoder st n r).1 r := by
      refine List.mem_map.2 ⟨(e, rk), ?_, rfl⟩
      rw [List.mem_zipIdx_iff_getElem?, ← hT]
      exact (List.getElem?_eq_getElem hrk).trans (congrArg some hrke)
    have hsel := hTk.select e he
    rw [hei, hentry] at hsel
    have hsel := Option.some.inj hsel
    have hlp : (mkCand c r.live n (nextTok inp.inputs n) rk e).lp = value st ch s p (n + 1) := by
      unfold mkCand; dsimp only; rw [if_pos h0, hsel]
    obtain ⟨j, hj, hne⟩ := hno' _ hx (by rw [hlp]; exact hval)
    apply hne
    have hseq : (mkCand c r.live n (nextTok inp.inputs n) rk e).seq = l.2.set (n + 1) (s.getD (n + 1) 0) := by
      unfold mkCand; dsimp only
      rw [if_pos h0, hei, hdiv, hmod, List.getD_eq_getElem?_getD, hb']; rfl
    rw [hseq, getD_set _ _ _ _ hlen_l]
    split_ifs with hj'
    · rw [hj']
    · exact hls j (by omega)
  -- so all candidates are at least as likely
  have hge : ∀ x ∈ cands c n (nextTok inp.inputs n) (decoder st n r).1 r, value st ch s p (n + 1) ≤ x.lp := by
    intro x hx
    obtain ⟨⟨e, rk⟩, hp', rfl⟩ := List.mem_map.1 hx
    have he : e ∈ T := List.fst_mem_of_mem_zipIdx hp'
    have := hTk.largest _ _ hentry hnot e he
    unfold mkCand; dsimp only; rw [if_pos h0]; exact this
  have hgt : ∀ x ∈ cands c n (nextTok inp.inputs n) (decoder st n r).1 r, c.negInf < x.lp :=
    fun x hx => lt_of_lt_of_le hval (hge x hx)
  have hdist := cands_distinct c hc inp first ch st hst p hp h hn
  have hdist' : (cands c n (nextTok inp.inputs n) (decoder st n r).1 r).Pairwise (fun a b => a.seq ≠ b.seq) :=
    hdist.imp_of_mem (fun ha hb hab => hab (hgt _ ha) (hgt _ hb))
  have hclen := cands_length c hc n (nextTok inp.inputs n) _ hV r h.base.liveLen
  rw [length_split] at hclen
  -- the unfinished ones are rivals
  have hun : ((cands c n (nextTok inp.inputs n) (decoder st n r).1 r).filter (fun x => !x.done)).length <
      c.k + if s.getD (n + 1) 0 = c.eos then 1 else 0 := by
    rw [← List.length_map (fun x : Cand K => x.seq)]
    apply hriv
    · rw [List.nodup_iff_pairwise_ne, List.pairwise_map]
      exact hdist'.filter _
    · intro u hu
      obtain ⟨x, hx, rfl⟩ := List.mem_map.1 hu
      obtain ⟨hx, hd⟩ := List.mem_filter.1 hx
      obtain ⟨l', g1, g2, _⟩ := cand_parent c hc inp first ch st hst p hp h hpn x hx (hgt x hx)
      obtain ⟨l'', k1, k2⟩ := (hok x hx).src
      rw [g1] at k1
      obtain rfl := Option.some.inj k1
      refine ⟨⟨cand_prefix c hc inp first ch st hst p hp h hv hn hpn x hx (by simpa using hd) (hgt x hx), hno' x hx (hgt x hx), ?_⟩,
        l', List.mem_of_getElem? g1, g2, k2⟩
      rw [← ((hok x hx).val (hgt x hx)).1]
      exact hge x hx
  -- the finished ones continue different beams
  have hfd : ((cands c n (nextTok inp.inputs n) (decoder st n r).1 r).filter (fun x => x.done)).length +
      (if s.getD (n + 1) 0 = c.eos then 1 else 0) ≤ c.k := by
    set D := (cands c n (nextTok inp.inputs n) (decoder st n r).1 r).filter (fun x => x.done) with hD
    have hDm : ∀ x ∈ D, x ∈ cands c n (nextTok inp.inputs n) (decoder st n r).1 r ∧ x.seq.getD (n + 1) 0 = c.eos := by
      intro x hx
      obtain ⟨hx, hd⟩ := List.mem_filter.1 hx
      exact ⟨hx, (hok x hx).done.1 hd⟩
    have hnd : (D.map (fun x : Cand K => x.beam)).Nodup := by
      rw [List.nodup_iff_pairwise_ne, List.pairwise_map]
      refine (hdist'.filter _).imp_of_mem ?_
      intro x y hx hy hxy hbeam
      obtain ⟨hx, ex⟩ := hDm x hx
      obtain ⟨hy, ey⟩ := hDm y hy
      obtain ⟨l1, a1, _, a3⟩ := cand_parent c hc inp first ch st hst p hp h hpn x hx (hgt x hx)
      obtain ⟨l2, b1, _, b3⟩ := cand_parent c hc inp first ch st hst p hp h hpn y hy (hgt y hy)
      rw [hbeam, b1] at a1
      obtain rfl := Option.some.inj a1
      apply hxy
      rw [a3, b3, ex, ey]
    have hlt : ∀ i ∈ D.map (fun x : Cand K => x.beam), i < c.k := by
      intro i hi
      obtain ⟨x, hx, rfl⟩ := List.mem_map.1 hi
      obtain ⟨l1, a1, _⟩ := cand_parent c hc inp first ch st hst p hp h hpn x (hDm x hx).1 (hgt x (hDm x hx).1)
      have := (List.getElem?_eq_some_iff.1 a1).1
      rwa [h.base.liveLen] at this
    by_cases hE : s.getD (n + 1) 0 = c.eos
    · rw [if_pos hE]
      have hbn : b ∉ D.map (fun x : Cand K => x.beam) := by
        intro hbm
        obtain ⟨x, hx, hxb⟩ := List.mem_map.1 hbm
        obtain ⟨hx, ex⟩ := hDm x hx
        obtain ⟨l1, a1, _, a3⟩ := cand_parent c hc inp first ch st hst p hp h hpn x hx (hgt x hx)
        rw [hxb, hb'] at a1
        obtain rfl := Option.some.inj a1
        obtain ⟨j, hj, hne⟩ := hno' x hx (hgt x hx)
        apply hne
        rw [a3, ex, getD_set _ _ _ _ hlen_l]
        split_ifs with hj'
        · rw [hj', hE]
        · exact hls j (by omega)
      have hnd' : (b :: D.map (fun x : Cand K => x.beam)).Nodup := List.nodup_cons.2 ⟨hbn, hnd⟩
      have hsub : (b :: D.map (fun x : Cand K => x.beam)) ⊆ List.range c.k := by
        intro i hi
        rw [List.mem_range]
        rcases List.mem_cons.1 hi with rfl | hi
        · rw [← h.base.liveLen]; exact hb
        · exact hlt i hi
      have := (hnd'.subperm hsub).length_le
      simpa using this
    · rw [if_neg hE]
      have hsub : (D.map (fun x : Cand K => x.beam)) ⊆ List.range c.k := fun i hi => List.mem_range.2 (hlt i hi)
      have := (hnd.subperm hsub).length_le
      simpa using this
  omega

include hc hst hp in
/-- If a live beam is the sequence so far and the next token is not EOS, then one of the next live beams is the sequence,
unless there are k rivals. -/
theorem live_kept {n : ℕ} {r : Row K C} (h : Inv2 c inp first ch st p n r) (hv : InVocab c p n r) (hn : n + 1 < c.maxLen)
    (hpn : p ≤ n) (s : List ℕ) (l : K × List ℕ) (hl : l ∈ r.live) (hls : ∀ j, j ≤ n → l.2.getD j 0 = s.getD j 0)
    (hlv : l.1 = value st ch s p n) (hw : s.getD (n + 1) 0 < c.vocab) (hval : c.negInf < value st ch s p (n + 1))
    (hne : s.getD (n + 1) 0 ≠ c.eos)
    (hriv : ∀ L : List (List ℕ), L.Nodup → (∀ u ∈ L, Near c inp first ch st p s n r u) → L.length < c.k) :
    ∃ l' ∈ (rowBody c inp n (decoder st n r).1 (decoder st n r).2 r).live,
      (∀ j, j ≤ n + 1 → l'.2.getD j 0 = s.getD j 0) ∧ l'.1 = value st ch s p (n + 1) := by
  have hok := cand_ok c hc inp first ch st hst p hp h hn
  have hV := decoder_valid c inp first ch st hst p h
  obtain ⟨x, hx, hxs, hxv⟩ := cand_kept c hc inp first ch st hst p hp h hv hn hpn s l hl hls hlv hw hval
    (by rw [if_neg hne]; exact hriv)
  have hxd : x.done = false := by
    rw [← Bool.not_eq_true]
    intro hd
    exact hne (by rw [← hxs (n + 1) le_rfl]; exact (hok x hx).done.1 hd)
  have hxk : liveKey c x = value st ch s p (n + 1) := by
    unfold liveKey; rw [hxd, hxv]; simp
  by_contra hno
  -- all surviving candidates are rivals
  have hbest : ∀ y ∈ gatherTop (cands c n (nextTok inp.inputs n) (decoder st n r).1 r) (liveKey c) c.k,
      value st ch s p (n + 1) ≤ liveKey c y := by
    rcases gatherTop_best _ (liveKey c) c.k x hx with hin | hall
    · exact absurd ⟨_, List.mem_map.2 ⟨x, hin, rfl⟩, hxs, hxk⟩ hno
    · rwa [hxk] at hall
  have hkey : ∀ y ∈ gatherTop (cands c n (nextTok inp.inputs n) (decoder st n r).1 r) (liveKey c) c.k,
      c.negInf < y.lp ∧ y.done = false ∧ liveKey c y = y.lp := by
    intro y hy
    have hy0 := cand_nonpos c hc n _ _ hV r h.base.liveNonpos y (gatherTop_mem _ _ _ hy)
    have hk := lt_of_lt_of_le hval (hbest y hy)
    unfold liveKey at hk ⊢
    cases hd : y.done with
    | true => rw [hd, if_pos rfl] at hk; linarith
    | false =>
      rw [hd] at hk
      simp only [Bool.false_eq_true, if_false, add_zero] at hk ⊢
      exact ⟨hk, trivial, trivial⟩
  have hlen : (gatherTop (cands c n (nextTok inp.inputs n) (decoder st n r).1 r) (liveKey c) c.k).length = c.k := by
    rw [gatherTop_length, cands_length c hc n (nextTok inp.inputs n) _ hV r h.base.liveLen]; omega
  have := hriv ((gatherTop (cands c n (nextTok inp.inputs n) (decoder st n r).1 r) (liveKey c) c.k).map (fun x => x.seq)) ?_ ?_
  · rw [List.length_map, hlen] at this
    exact lt_irrefl _ this
  · rw [List.nodup_iff_pairwise_ne, List.pairwise_map]
    have := gatherTop_pairwise _ (liveKey c) c.k
      (R := fun a b => c.negInf < a.lp → c.negInf < b.lp → a.seq ≠ b.seq) (fun a b hab h1 h2 => (hab h2 h1).symm)
      (cands_distinct c hc inp first ch st hst p hp h hn)
    exact this.imp_of_mem (fun ha hb hab => hab (hkey _ ha).1 (hkey _ hb).1)
  · intro u hu
    obtain ⟨y, hy, rfl⟩ := List.mem_map.1 hu
    have hym := gatherTop_mem _ _ _ hy
    obtain ⟨k1, k2, k3⟩ := hkey y hy
    obtain ⟨l', g1, g2, _⟩ := cand_parent c hc inp first ch st hst p hp h hpn y hym k1
    obtain ⟨l'', q1, q2⟩ := (hok y hym).src
    rw [g1] at q1
    obtain rfl := Option.some.inj q1
    have hyv := ((hok y hym).val k1).1
    refine ⟨⟨cand_prefix c hc inp first ch st hst p hp h hv hn hpn y hym k2 k1, ?_, ?_⟩, l', List.mem_of_getElem? g1, g2, q2⟩
    · by_contra hall
      push Not at hall
      refine hno ⟨_, List.mem_map.2 ⟨y, hy, rfl⟩, hall, ?_⟩
      dsimp only
      rw [k3, hyv]
      exact value_congr st ch _ _ p _ hall
    · rw [← hyv, ← k3]; exact hbest y hy

include hc hst hp heos in
/-- Through the prompt one live beam keeps log-probability 0. -/
theorem live_prompt (n : ℕ) (hnp : n ≤ p) (hn : n < c.maxLen) (hi : inp.initialIndex + n ≤ c.maxLen) :
    ∃ l ∈ (rowIter c inp first ch (decoder st) n).live, l.1 = 0 := by
  induction n with
  | zero => exact ⟨(0, first :: List.replicate (c.maxLen - 1) 0), by simp [rowIter, initRow], rfl⟩
  | succ n ih =>
    have h := inv2_iter c hc inp first ch st hst p hp heos n (by omega) (by omega)
    have hV := decoder_valid c inp first ch st hst p h
    show ∃ l ∈ (rowBody c inp n _ _ (rowIter c inp first ch (decoder st) n)).live, l.1 = 0
    set r := rowIter c inp first ch (decoder st) n with hr
    have hnt : nextTok inp.inputs n ≠ 0 := by rw [nextTok_eq hp]; exact (hp.tokens (n + 1) (by omega) hnp).1
    have hclen := cands_length c hc n (nextTok inp.inputs n) _ hV r h.base.liveLen
    have hk := hc.k
    have hlen : 0 < (cands c n (nextTok inp.inputs n) (decoder st n r).1 r).length := by omega
    set x := (cands c n (nextTok inp.inputs n) (decoder st n r).1 r)[0]'hlen with hx
    have hxm : x ∈ cands c n (nextTok inp.inputs n) (decoder st n r).1 r := List.getElem_mem _
    have hxl : x.lp = 0 := by
      rw [hx]
      simp only [cands, List.getElem_map, List.getElem_zipIdx, mkCand, if_neg hnt]
      rfl
    have hxd : x.done = false := by
      rw [← Bool.not_eq_true]
      intro hd
      have := (cand_ok c hc inp first ch st hst p hp h (by omega) x hxm).donePrompt hd
      omega
    have hxk : liveKey c x = 0 := by unfold liveKey; rw [hxd, hxl]; simp
    have hi' := inv_body c hc inp n _ hV (decoder st n r).2 r h.base
    rcases gatherTop_best _ (liveKey c) c.k x hxm with hin | hall
    · exact ⟨_, List.mem_map.2 ⟨x, hin, rfl⟩, hxk⟩
    · have hne : (rowBody c inp n (decoder st n r).1 (decoder st n r).2 r).live ≠ [] := by
        intro he
        have := hi'.liveLen
        rw [he] at this; simp at this; omega
      refine ⟨_, List.head_mem hne, le_antisymm (hi'.liveNonpos _ (List.head_mem hne)) ?_⟩
      obtain ⟨y, hy, hye⟩ := List.mem_map.1 (List.head_mem hne)
      rw [← hye]
      dsimp only
      rw [← hxk]; exact hall y hy

include hst in
omit [IsStrictOrderedRing K] in
theorem tokenLogProb_nonpos (s : List ℕ) (n : ℕ) : tokenLogProb st ch s n ≤ 0 := by
  unfold tokenLogProb
  rw [List.getD_eq_getElem?_getD]
  cases hg : (st n (s.getD n 0) (cacheAfter st ch s n)).1[s.getD (n + 1) 0]? with
  | none => exact le_rfl
  | some y => exact (hst _ _ _).2 y (List.mem_of_getElem? hg)

include hst in
theorem value_anti (s : List ℕ) (m n : ℕ) (hm : p ≤ m) (h : m ≤ n) : value st ch s p n ≤ value st ch s p m := by
  induction n, h using Nat.le_induction with
  | base => exact le_rfl
  | succ n hmn ih =>
    rw [value_succ _ _ _ _ _ (by omega)]
    have := tokenLogProb_nonpos c ch st hst s n
    linarith

include hc hst hp heos in
/-- The live beams follow the sequence as long as it is not outnumbered by rivals that continue live beams. -/
theorem follow (s : List ℕ) (t : ℕ) (hF : Finished c.eos c.maxLen first inp.inputs p t s)
    (hw : ∀ j, p < j → j ≤ t → s.getD j 0 < c.vocab) (hval : c.negInf < value st ch s p t)
    (hit : inp.initialIndex + t ≤ c.maxLen)
    (hriv : ∀ n, p ≤ n → n < t → ∀ L : List (List ℕ), L.Nodup →
      (∃ l ∈ (rowIter c inp first ch (decoder st) n).live, c.negInf < l.1 ∧ ∀ j, j ≤ n → l.2.getD j 0 = s.getD j 0) →
      (∀ u ∈ L, Near c inp first ch st p s n (rowIter c inp first ch (decoder st) n) u) →
      L.length < c.k + if n + 1 = t then 1 else 0) :
    ∀ n, p ≤ n → n < t → ∃ l ∈ (rowIter c inp first ch (decoder st) n).live,
      (∀ j, j ≤ n → l.2.getD j 0 = s.getD j 0) ∧ l.1 = value st ch s p n := by
  obtain ⟨hpt, htm⟩ := hF.inRange
  intro n hpn
  induction n, hpn using Nat.le_induction with
  | base =>
    intro _
    obtain ⟨l, hl, hl0⟩ := live_prompt c hc inp first ch st hst p hp heos p le_rfl (by omega) (by omega)
    have h := inv2_iter c hc inp first ch st hst p hp heos p (by omega) (by omega)
    refine ⟨l, hl, ?_, by rw [hl0, value_prompt _ _ _ _ _ le_rfl]⟩
    intro j hj
    rcases Nat.eq_zero_or_pos j with rfl | hj0
    · rw [h.head l hl, hF.head]
    · rw [h.prompt l hl j hj0 hj hj, hF.prompt j hj0 hj]
  | succ n hpn ih =>
    intro hnt
    obtain ⟨l, hl, hls, hlv⟩ := ih (by omega)
    have hgen : c.negInf < l.1 := by
      rw [hlv]; exact lt_of_lt_of_le hval (value_anti c ch st hst p s n t hpn (by omega))
    apply live_kept c hc inp first ch st hst p hp
      (inv2_iter c hc inp first ch st hst p hp heos n (by omega) (by omega))
      (inVocab_iter c hc inp first ch st hst p hp heos n (by omega) (by omega)) (by omega) hpn s l hl hls hlv
      (hw _ (by omega) (by omega)) (lt_of_lt_of_le hval (value_anti c ch st hst p s _ t (by omega) (by omega)))
      (hF.body _ (by omega) hnt)
    intro L hL hu
    have := hriv n hpn (by omega) L hL ⟨l, hl, hgen, hls⟩ hu
    rwa [if_neg (by omega)] at this

include hc hst hp heos in
/-- General form: if the sequence is never outnumbered by rivals that continue live beams, the row ends up with a finished
score at least its own. -/
theorem found_near (s : List ℕ) (t : ℕ) (hF : Finished c.eos c.maxLen first inp.inputs p t s)
    (hw : ∀ j, p < j → j ≤ t → s.getD j 0 < c.vocab) (hval : c.negInf < value st ch s p t)
    (hit : inp.initialIndex + t ≤ c.maxLen)
    (hriv : ∀ n, p ≤ n → n < t → ∀ L : List (List ℕ), L.Nodup →
      (∃ l ∈ (rowIter c inp first ch (decoder st) n).live, c.negInf < l.1 ∧ ∀ j, j ≤ n → l.2.getD j 0 = s.getD j 0) →
      (∀ u ∈ L, Near c inp first ch st p s n (rowIter c inp first ch (decoder st) n) u) →
      L.length < c.k + if n + 1 = t then 1 else 0) :
    ∃ f ∈ (rowIter c inp first ch (decoder st) t).fin, value st ch s p t / c.bp (inp.initialIndex + t) ≤ f.1 := by
  obtain ⟨hpt, htm⟩ := hF.inRange
  have hfollow := follow c hc inp first ch st hst p hp heos s t hF hw hval hit hriv
  obtain ⟨n, rfl⟩ : ∃ n, t = n + 1 := ⟨t - 1, by omega⟩
  obtain ⟨l, hl, hls, hlv⟩ := hfollow n (by omega) (by omega)
  have hgen : c.negInf < l.1 := by
    rw [hlv]; exact lt_of_lt_of_le hval (value_anti c ch st hst p s n (n + 1) (by omega) (by omega))
  have h := inv2_iter c hc inp first ch st hst p hp heos n (by omega) (by omega)
  obtain ⟨x, hx, hxs, hxv⟩ := cand_kept c hc inp first ch st hst p hp h
    (inVocab_iter c hc inp first ch st hst p hp heos n (by omega) (by omega)) htm (by omega) s l hl hls hlv
    (hw _ hpt le_rfl) hval (by
      intro L hL hu
      have := hriv n (by omega) (by omega) L hL ⟨l, hl, hgen, hls⟩ hu
      rw [if_pos rfl] at this
      rwa [if_pos hF.last])
  have hxd : x.done = true := by
    rw [(cand_ok c hc inp first ch st hst p hp h htm x hx).done, hxs _ le_rfl, hF.last]
  have hsc : score c (inp.initialIndex + (n + 1)) x = value st ch s p (n + 1) / c.bp (inp.initialIndex + (n + 1)) := by
    unfold score; rw [hxd, if_pos rfl, add_zero, hxv]
  have hlen := (inv2_iter c hc inp first ch st hst p hp heos (n + 1) htm hit).base.finLen
  rcases gatherTop_best ((rowIter c inp first ch (decoder st) n).fin ++
      (cands c n (nextTok inp.inputs n) (decoder st n (rowIter c inp first ch (decoder st) n)).1
      (rowIter c inp first ch (decoder st) n)).map (fun x => (score c (inp.initialIndex + (n + 1)) x, x.seq, x.done)))
      (·.1) c.k (score c (inp.initialIndex + (n + 1)) x, x.seq, x.done)
      (List.mem_append_right _ (List.mem_map.2 ⟨x, hx, rfl⟩)) with hin | hall
  · exact ⟨_, hin, by rw [← hsc]⟩
  · have hne : (rowIter c inp first ch (decoder st) (n + 1)).fin ≠ [] := by
      intro he; rw [he] at hlen; have := hc.k; simp at hlen; omega
    refine ⟨_, List.head_mem hne, ?_⟩
    rw [← hsc]
    exact hall _ (List.head_mem hne)

omit [Field K] [LinearOrder K] [IsStrictOrderedRing K] in
theorem decoder_congr (n : ℕ) (r r' : Row K C) (h1 : r.live = r'.live) (h2 : r.cache = r'.cache) :
    decoder st n r = decoder st n r' := by
  unfold decoder; rw [h1, h2]

/-- Live beams and caches do not depend on the initial index. -/
theorem live_index (a n : ℕ) :
    (rowIter c inp first ch (decoder st) n).live = (rowIter c ⟨inp.inputs, a⟩ first ch (decoder st) n).live ∧
    (rowIter c inp first ch (decoder st) n).cache = (rowIter c ⟨inp.inputs, a⟩ first ch (decoder st) n).cache := by
  induction n with
  | zero => exact ⟨rfl, rfl⟩
  | succ n ih =>
    have hd : decoder st n (rowIter c inp first ch (decoder st) n) =
        decoder st n (rowIter c ⟨inp.inputs, a⟩ first ch (decoder st) n) := decoder_congr st n _ _ ih.1 ih.2
    have hcs : cands c n (nextTok inp.inputs n) (decoder st n (rowIter c inp first ch (decoder st) n)).1
        (rowIter c inp first ch (decoder st) n) =
        cands c n (nextTok inp.inputs n) (decoder st n (rowIter c ⟨inp.inputs, a⟩ first ch (decoder st) n)).1
        (rowIter c ⟨inp.inputs, a⟩ first ch (decoder st) n) := by
      unfold cands; rw [hd, ih.1]
    constructor
    · show ((gatherTop _ _ _).map _) = ((gatherTop _ _ _).map _)
      rw [hcs]
    · show ((gatherTop _ _ _).filterMap _) = ((gatherTop _ _ _).filterMap _)
      rw [hcs, hd]

omit [IsStrictOrderedRing K] in
theorem fin_len (o : ℕ → Row K C → List (List K) × List C) (n : ℕ) : (rowIter c inp first ch o n).fin.length = c.k := by
  induction n with
  | zero => simp [rowIter, initRow]
  | succ n ih =>
    show (gatherTop _ _ _).length = _
    rw [gatherTop_length, List.length_append, ih]; omega

include hc hst hp heos in
/-- The decoder's answers are valid in every reachable state. -/
theorem reach_valid (n : ℕ) (hn : n < c.maxLen) :
    ValidLogp c (decoder st n (rowIter c inp first ch (decoder st) n)).1 ∧
    (rowIter c inp first ch (decoder st) n).live.length = c.k ∧ ∀ l ∈ (rowIter c inp first ch (decoder st) n).live, l.1 ≤ 0 := by
  have h := inv2_iter c hc ⟨inp.inputs, 0⟩ first ch st hst p hp heos n hn (by simp; omega)
  have hV := decoder_valid c ⟨inp.inputs, 0⟩ first ch st hst p h
  obtain ⟨e1, e2⟩ := live_index c inp first ch st 0 n
  have hd : decoder st n (rowIter c inp first ch (decoder st) n) =
      decoder st n (rowIter c ⟨inp.inputs, 0⟩ first ch (decoder st) n) := decoder_congr st n _ _ e1 e2
  rw [hd, e1]
  exact ⟨hV, h.base.liveLen, h.base.liveNonpos⟩

include hc hst hp heos in
/-- Empty slots are at NEG_INF or below. -/
theorem slot_le (n : ℕ) (hn : n < c.maxLen) :
    ∀ f ∈ (rowIter c inp first ch (decoder st) n).fin, f.2.2 = false → f.1 ≤ c.negInf := by
  induction n with
  | zero =>
    intro f hf _
    simp only [rowIter, initRow, List.mem_replicate] at hf
    rw [hf.2]
  | succ n ih =>
    intro f hf
    have hf := gatherTop_mem _ _ _ hf
    rcases List.mem_append.1 hf with hf | hf
    · exact ih (by omega) f hf
    · obtain ⟨x, hx, rfl⟩ := List.mem_map.1 hf
      obtain ⟨g1, g2, g3⟩ := reach_valid c hc inp first ch st hst p hp heos n (by omega)
      have h0 := cand_nonpos c hc n _ _ g1 _ g3 x hx
      have h1 : x.lp / c.bp (inp.initialIndex + (n + 1)) ≤ 0 := div_nonpos_of_nonpos_of_nonneg h0 (hc.pos _).le
      dsimp only
      unfold score
      intro hd
      rw [hd]; simpa using h1

omit [IsStrictOrderedRing K] in
theorem fin_asc (o : ℕ → Row K C → List (List K) × List C) (n : ℕ) :
    (rowIter c inp first ch o n).fin.Pairwise (fun a b => a.1 ≤ b.1) := by
  cases n with
  | zero => simp [rowIter, initRow, List.pairwise_replicate]
  | succ n => exact gatherTop_sorted _ _ _

omit [IsStrictOrderedRing K] in
/-- The last entry is the best. -/
theorem fin_last (hc : Good c) (o : ℕ → Row K C → List (List K) × List C) (n : ℕ) :
    ∃ f, (rowIter c inp first ch o n).fin.getLast? = some f ∧ f ∈ (rowIter c inp first ch o n).fin ∧
      ∀ g ∈ (rowIter c inp first ch o n).fin, g.1 ≤ f.1 := by
  have hne : (rowIter c inp first ch o n).fin ≠ [] := by
    intro he
    have := fin_len c inp first ch o n
    rw [he] at this; have := hc.k; simp at *; omega
  refine ⟨_, List.getLast?_eq_getLast_of_ne_nil hne, List.getLast_mem hne, ?_⟩
  intro g hg
  have := fin_asc c inp first ch o n
  rw [← List.dropLast_append_getLast hne, List.pairwise_append] at this
  rw [← List.dropLast_append_getLast hne] at hg
  rcases List.mem_append.1 hg with hg | hg
  · exact this.2.2 g hg _ (List.mem_singleton.2 rfl)
  · rw [List.mem_singleton.1 hg]

include hc in
/-- What has been found is not lost. -/
theorem fin_kept (o : ℕ → Row K C → List (List K) × List C) (B : K) (i m : ℕ)
    (h : ∃ f ∈ (rowIter c inp first ch o i).fin, B ≤ f.1) : ∃ f ∈ (rowIter c inp first ch o (i + m)).fin, B ≤ f.1 := by
  induction m with
  | zero => exact h
  | succ m ih =>
    obtain ⟨f, hf, h0⟩ := ih
    have hlen := fin_len c inp first ch o (i + m + 1)
    rcases gatherTop_best ((rowIter c inp first ch o (i + m)).fin ++
        (cands c (i + m) (nextTok inp.inputs (i + m)) (o (i + m) (rowIter c inp first ch o (i + m))).1
        (rowIter c inp first ch o (i + m))).map (fun x => (score c (inp.initialIndex + (i + m + 1)) x, x.seq, x.done)))
        (·.1) c.k f (List.mem_append_left _ hf) with h | h
    · exact ⟨f, h, h0⟩
    · have hne : (rowIter c inp first ch o (i + m + 1)).fin ≠ [] := by
        intro he; rw [he] at hlen; have := hc.k; simp at hlen; omega
      exact ⟨_, List.head_mem hne, le_trans h0 (h _ (List.head_mem hne))⟩

/-- The decoder, frozen to the states it meets. -/
def frozen (n : ℕ) (_ : Row K C) : List (List K) × List C :=
  if n < c.maxLen then decoder st n (rowIter c inp first ch (decoder st) n)
  else (List.replicate c.k (List.replicate c.vocab 0), [])

omit [IsStrictOrderedRing K] in
theorem frozen_iter (n : ℕ) (hn : n ≤ c.maxLen) :
    rowIter c inp first ch (frozen c inp first ch st) n = rowIter c inp first ch (decoder st) n := by
  induction n with
  | zero => rfl
  | succ n ih =>
    have hf : ∀ r, frozen c inp first ch st n r = decoder st n (rowIter c inp first ch (decoder st) n) := by
      intro r; unfold frozen; rw [if_pos (by omega)]
    show rowBody c inp n (frozen c inp first ch st n _).1 (frozen c inp first ch st n _).2 _ = rowBody c inp n _ _ _
    rw [hf, ih (by omega)]

include hc hst hp heos in
theorem frozen_valid (n : ℕ) (r : Row K C) : ValidLogp c (frozen c inp first ch st n r).1 := by
  unfold frozen
  split_ifs with h
  · exact (reach_valid c hc inp first ch st hst p hp heos n h).1
  · refine ⟨by simp, ?_, ?_⟩
    · intro v hv; rw [(List.mem_replicate.1 hv).2]; simp
    · intro v hv x hx
      rw [(List.mem_replicate.1 hv).2] at hx
      rw [(List.mem_replicate.1 hx).2]

include hc hst hp heos in
/-- What is found after t iterations bounds what a row holds that was terminated before. -/
theorem found_terminated (s : List ℕ) (t n : ℕ) (hF : Finished c.eos c.maxLen first inp.inputs p t s) (hnt : n ≤ t)
    (hit : inp.initialIndex + t ≤ c.maxLen) (ht : rowTerminated c (rowIter c inp first ch (decoder st) n) = true) (B : K)
    (hB : c.negInf < B) (h : ∃ f ∈ (rowIter c inp first ch (decoder st) t).fin, B ≤ f.1) :
    ∃ f ∈ (rowIter c inp first ch (decoder st) n).fin, B ≤ f.1 := by
  obtain ⟨hpt, htm⟩ := hF.inRange
  have hpn : p ≤ n := by
    by_contra hlt
    obtain ⟨l, hl, hl0⟩ := live_prompt c hc inp first ch st hst p hp heos n (by omega) (by omega) (by omega)
    have hi := (inv2_iter c hc inp first ch st hst p hp heos n (by omega) (by omega)).base
    have hlast : (0 : K) ≤ ((rowIter c inp first ch (decoder st) n).live.getLast?.map (·.1)).getD 0 := by
      rcases Nat.eq_zero_or_pos n with h0 | h0
      · rw [h0] at ht
        rw [show rowIter c inp first ch (decoder st) 0 = initRow c first ch from rfl, not_terminated_init c hc] at ht
        cases ht
      · have := live_le_last hi h0 l hl
        rwa [hl0] at this
    obtain ⟨f, _, hf, _⟩ := fin_last c inp first ch hc (decoder st) n
    have h1 := terminated_iff ht f hf
    have h2 : (0 : K) ≤ ((rowIter c inp first ch (decoder st) n).live.getLast?.map (·.1)).getD 0 / c.bp c.maxLen :=
      div_nonneg hlast (hc.pos _).le
    have hneg := hc.neg
    cases hfl : f.2.2 with
    | false => have := h1.2 hfl; linarith
    | true =>
      have h3 := h1.1 hfl
      have h4 : f.1 ≤ 0 := by
        have := fin_nonpos c hc inp first ch (frozen c inp first ch st)
          (fun n r _ => frozen_valid c hc inp first ch st hst p hp heos n r) n f (by
            rw [frozen_iter c inp first ch st n (by omega)]; exact hf)
        exact this.1
      linarith
  obtain ⟨f, hf, hfB⟩ := h
  have hb := C08_bound c hc inp first ch (frozen c inp first ch st)
    (fun n r _ => frozen_valid c hc inp first ch st hst p hp heos n r) n (t - n)
    (by intro i hi; rw [nextTok_eq hp]; exact hp.pad _ (by omega)) (by omega)
    (by rw [frozen_iter c inp first ch st n (by omega)]; exact ht) f (by
      rw [frozen_iter c inp first ch st _ (by omega), show n + (t - n) = t by omega]; exact hf)
  rw [frozen_iter c inp first ch st n (by omega)] at hb
  rcases hb with hb | hb | hb
  · exact ⟨f, hb, hfB⟩
  · have := slot_le c hc inp first ch st hst p hp heos t htm f hf hb
    exact absurd (lt_of_lt_of_le hB hfB) (not_lt.2 this)
  · obtain ⟨g, _, hg, _⟩ := fin_last c inp first ch hc (decoder st) n
    refine ⟨g, hg, ?_⟩
    have := hb g hg
    cases hfl : g.2.2 with
    | false => have := this.2 hfl; linarith
    | true => have := this.1 hfl; linarith

end opt

section search
variable (c : Cfg K) (hc : Good c) (ins : List RowIn) (firsts : List (ℕ × C)) (o : Oracle K C) (i : ℕ) (inp : RowIn)
  (first : ℕ) (ch : C) (st : Step K C)

omit [IsStrictOrderedRing K] in
/-- Row i of the batch is the row of its own. -/
theorem iter_decoder (h1 : ins[i]? = some inp) (h2 : firsts[i]? = some (first, ch))
    (ho : ∀ (s : State K C) r, s.rows[i]? = some r → (o s)[i]? = some (decoder st s.cur r)) (n : ℕ) :
    (iter c ins firsts o n).rows[i]? = some (rowIter c inp first ch (decoder st) n) := by
  induction n with
  | zero => simp [iter, init, rowIter, h2]
  | succ n ih =>
    have hz : ((ins.zip (o (iter c ins firsts o n))).zip (iter c ins firsts o n).rows)[i]? =
        some ((inp, decoder st (iter c ins firsts o n).cur (rowIter c inp first ch (decoder st) n)),
          rowIter c inp first ch (decoder st) n) :=
      List.getElem?_zip_eq_some.2 ⟨List.getElem?_zip_eq_some.2 ⟨h1, ho _ _ ih⟩, ih⟩
    show (((ins.zip (o _)).zip (iter c ins firsts o n).rows).map _)[i]? = _
    rw [List.getElem?_map, hz, iter_cur]
    rfl

include hc in
/-- Whole search, general form: what is found in t iterations bounds the result. -/
theorem search_found (h1 : ins[i]? = some inp) (h2 : firsts[i]? = some (first, ch))
    (ho : ∀ (s : State K C) r, s.rows[i]? = some r → (o s)[i]? = some (decoder st s.cur r))
    (hst : ValidStep c st) (p : ℕ) (hp : Prompt c.eos inp.inputs p) (heos : c.eos ≠ 0)
    (hstep : c.maxStep ≤ 0) (hmin : c.minLogProb ≤ c.negInf) (fuel : ℕ) (hfuel : c.maxLen ≤ fuel)
    (s : List ℕ) (t : ℕ) (hF : Finished c.eos c.maxLen first inp.inputs p t s)
    (hw : ∀ j, p < j → j ≤ t → s.getD j 0 < c.vocab) (hval : c.negInf < value st ch s p t)
    (hsc : c.negInf < value st ch s p t / c.bp (inp.initialIndex + t)) (hit : inp.initialIndex + t < c.maxLen)
    (hriv : ∀ n, p ≤ n → n < t → ∀ L : List (List ℕ), L.Nodup →
      (∃ l ∈ (rowIter c inp first ch (decoder st) n).live, c.negInf < l.1 ∧ ∀ j, j ≤ n → l.2.getD j 0 = s.getD j 0) →
      (∀ u ∈ L, Near c inp first ch st p s n (rowIter c inp first ch (decoder st) n) u) →
      L.length < c.k + if n + 1 = t then 1 else 0) :
    ∃ r f, (loop c ins o fuel (init c firsts)).rows[i]? = some r ∧ r.fin.getLast? = some f ∧ f.2.2 = true ∧
      value st ch s p t / c.bp (inp.initialIndex + t) ≤ f.1 := by
  obtain ⟨hpt, htm⟩ := hF.inRange
  have hfound := found_near c hc inp first ch st hst p hp heos s t hF hw hval (by omega) hriv
  obtain ⟨n, e1, e2, e3, e4⟩ := loop_iter c ins firsts o fuel 0
  rw [Nat.zero_add] at e1 e4
  change loop c ins o fuel (init c firsts) = _ at e1
  have hmem : inp ∈ ins := List.mem_of_getElem? h1
  have hmi : (ins.map (·.initialIndex)).min?.getD 0 ≤ inp.initialIndex := by
    cases hm : (ins.map (·.initialIndex)).min? with
    | none => simp
    | some a =>
      rw [List.min?_eq_some_iff] at hm
      exact hm.2 _ (List.mem_map_of_mem hmem)
  have hrow := iter_decoder c ins firsts o i inp first ch st h1 h2 ho
  -- the number of iterations
  have hnlt : n < c.maxLen := by
    rcases Nat.eq_zero_or_pos n with h0 | h0
    · omega
    · have := e3 (n - 1) (by omega)
      unfold cond at this
      simp only [Bool.and_eq_true, decide_eq_true_eq, iter_cur] at this
      omega
  have hcond := e4 (by omega)
  have hbest : ∃ f ∈ (rowIter c inp first ch (decoder st) n).fin, value st ch s p t / c.bp (inp.initialIndex + t) ≤ f.1 := by
    rcases Nat.lt_or_ge n t with hnt | hnt
    · -- stopped before t
      have hlast : c.negInf ≤ (((rowIter c inp first ch (decoder st) n).live.getLast?).map (·.1)).getD 0 := by
        have hgood : ∃ l ∈ (rowIter c inp first ch (decoder st) n).live, c.negInf ≤ l.1 := by
          rcases Nat.lt_or_ge n p with hnp | hnp
          · obtain ⟨l, hl, h0⟩ := live_prompt c hc inp first ch st hst p hp heos n (by omega) hnlt (by omega)
            exact ⟨l, hl, by rw [h0]; exact hc.neg.le⟩
          · obtain ⟨l, hl, h0⟩ := follow c hc inp first ch st hst p hp heos s t hF hw hval (by omega) hriv n hnp hnt
            refine ⟨l, hl, ?_⟩
            rw [h0.2]
            exact (lt_of_lt_of_le hval (value_anti c ch st hst p s n t hnp (by omega))).le
        obtain ⟨l, hl, hlg⟩ := hgood
        rcases Nat.eq_zero_or_pos n with h0 | h0
        · subst h0
          have hne : (initRow c first ch).live ≠ [] := by simp [initRow]
          show c.negInf ≤ (((initRow c first ch).live.getLast?).map (·.1)).getD 0
          rw [List.getLast?_eq_getLast_of_ne_nil hne]
          have hm := List.getLast_mem hne
          simp only [Option.map_some, Option.getD_some]
          generalize (initRow c first ch).live.getLast hne = z at hm
          simp only [initRow, List.map_cons, List.map_replicate, List.mem_cons, List.mem_replicate] at hm
          rcases hm with rfl | ⟨_, rfl⟩
          · exact hc.neg.le
          · exact le_rfl
        · exact le_trans hlg (live_le_last (inv2_iter c hc inp first ch st hst p hp heos n hnlt (by omega)).base h0 l hl)
      have hrm := List.mem_of_getElem? (hrow n)
      have hterm : rowTerminated c (rowIter c inp first ch (decoder st) n) = true := by
        by_contra hnt'
        have c1 : decide ((iter c ins firsts o n).cur + (ins.map (·.initialIndex)).min?.getD 0 < c.maxLen - 1) = true := by
          rw [decide_eq_true_eq, iter_cur]; omega
        have c2 : ((iter c ins firsts o n).rows.all (rowTerminated c)) = false := by
          rw [← Bool.not_eq_true]
          intro hall
          exact hnt' (List.all_eq_true.1 hall _ hrm)
        have c3 : ((iter c ins firsts o n).rows.all (fun r =>
            decide ((r.live.getLast?.map (·.1)).getD 0 / c.bp c.maxLen < c.minLogProb / c.bp c.maxLen))) = false := by
          rw [← Bool.not_eq_true]
          intro hall
          have := List.all_eq_true.1 hall _ hrm
          rw [decide_eq_true_eq, div_lt_div_iff_of_pos_right (hc.pos _)] at this
          linarith
        have c4 : (decide (c.maxStep > 0)) = false := by
          rw [decide_eq_false_iff_not]; omega
        unfold cond at hcond
        dsimp only at hcond
        rw [c1, c2, c3, c4] at hcond
        simp at hcond
      exact found_terminated c hc inp first ch st hst p hp heos s t n hF (by omega) (by omega) hterm _ hsc hfound
    · have := fin_kept c hc inp first ch (decoder st) _ t (n - t) hfound
      rwa [show t + (n - t) = n by omega] at this
  obtain ⟨g, hg, hgB⟩ := hbest
  obtain ⟨f, f1, f2, f3⟩ := fin_last c inp first ch hc (decoder st) n
  have hfB := le_trans hgB (f3 g hg)
  refine ⟨_, f, by rw [e1]; exact hrow n, f1, ?_, hfB⟩
  by_contra hfl
  have := slot_le c hc inp first ch st hst p hp heos n hnlt f f2 (by simpa using hfl)
  linarith

end search
end Verif.Beam
