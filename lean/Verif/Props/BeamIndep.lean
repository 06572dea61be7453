import Verif.Model.BeamIndep
import Verif.Lemmas.ScoreBeam
import Verif.Props.PredictIndep
import Verif.Props.OfflineInfer
/-
C110: the beams found for an example do not depend on the batch it comes in, up to the order of beams with equal scores.
-/
namespace Verif.BeamIndep
open Verif.Beam Verif.Beam.Spec Verif.TopK Verif.TopK.Spec

section rows
variable {K C : Type} [Field K] [LinearOrder K] [IsStrictOrderedRing K]

/-- A decoder that works row by row: `st b` for row `b`. -/
def rowWise (st : ℕ → Step K C) (rows : ℕ) : Oracle K C := fun s =>
  (List.range rows).map fun b =>
    match s.rows[b]? with
    | some r => decoder (st b) s.cur r
    | none => ([], [])

/-- The best live log-probability of a row. -/
def bestLive (r : Row K C) : K := (r.live.getLast?.map (·.1)).getD 0

omit [Field K] [LinearOrder K] [IsStrictOrderedRing K] in
theorem rowWise_get (st : ℕ → Step K C) (rows : ℕ) (s : State K C) (i : ℕ) (hi : i < rows) (r : Row K C) (h : s.rows[i]? = some r) :
    (rowWise st rows s).getD i ([], []) = decoder (st i) s.cur r := by
  unfold rowWise
  rw [List.getD_eq_getElem?_getD, List.getElem?_map, List.getElem?_range hi]
  simp only [Option.map_some, Option.getD_some]
  rw [h]

omit [IsStrictOrderedRing K] in
theorem iter_rowWise (st : ℕ → Step K C) (c : Cfg K) (ins : List RowIn) (firsts : List (ℕ × C)) (hf : firsts.length = ins.length) (i : ℕ)
    (inp : RowIn) (first : ℕ) (ch : C) (h1 : ins[i]? = some inp) (h2 : firsts[i]? = some (first, ch)) (n : ℕ) :
    (iter c ins firsts (rowWise st ins.length) n).rows[i]? = some (rowIter c inp first ch (decoder (st i)) n) := by
  have hl : ∀ s, (rowWise st ins.length s).length = ins.length := by intro s; simp [rowWise]
  induction n with
  | zero => simp [iter, init, rowIter, h2]
  | succ n ih =>
    have hi := (List.getElem?_eq_some_iff.1 h1).1
    have e1 := iter_row c ins firsts (rowWise st ins.length) hf hl i inp first ch h1 h2 (n + 1)
    have e0 := iter_row c ins firsts (rowWise st ins.length) hf hl i inp first ch h1 h2 n
    rw [ih] at e0
    rw [e1]
    congr 1
    rw [rowIter, ← Option.some.inj e0]
    have : rowOracle c ins firsts (rowWise st ins.length) i n (rowIter c inp first ch (decoder (st i)) n) =
        decoder (st i) n (rowIter c inp first ch (decoder (st i)) n) := by
      unfold rowOracle
      rw [rowWise_get st _ _ i hi _ ih, iter_cur]
    simp only [this]
    rfl

/-- During the prompt nothing is finished. -/
theorem fin_prompt (c : Cfg K) (hc : Good c) (inp : RowIn) (first : ℕ) (ch : C) (st : Step K C) (hst : ValidStep c st) (p : ℕ)
    (hp : Prompt c.eos inp.inputs p) (heos : c.eos ≠ 0) (n : ℕ) (hn : n < c.maxLen) (hi : inp.initialIndex + n ≤ c.maxLen) :
    ∀ g ∈ (rowIter c inp first ch (decoder st) n).fin, g.2.2 = true → p < n := by
  induction n with
  | zero =>
    intro g hg ht
    simp only [rowIter, initRow, List.mem_replicate] at hg
    rw [hg.2] at ht; cases ht
  | succ n ih =>
    intro g hg ht
    have inv := inv2_iter c hc inp first ch st hst p hp heos n (by omega) (by omega)
    simp only [rowIter, rowBody] at hg
    rcases List.mem_append.1 (gatherTop_mem _ _ _ hg) with h | h
    · have := ih (by omega) (by omega) g h ht; omega
    · obtain ⟨x, hx, rfl⟩ := List.mem_map.1 h
      exact (cand_ok c hc inp first ch st hst p hp inv hn x hx).donePrompt ht

omit [IsStrictOrderedRing K] in
/-- The decoder may be replaced by one that ignores the row. -/
theorem rowIter_fixed (c : Cfg K) (inp : RowIn) (first : ℕ) (ch : C) (o o' : ℕ → Row K C → List (List K) × List C) (N : ℕ)
    (h : ∀ n < N, o' n (rowIter c inp first ch o n) = o n (rowIter c inp first ch o n)) (n : ℕ) (hn : n ≤ N) :
    rowIter c inp first ch o' n = rowIter c inp first ch o n := by
  induction n with
  | zero => rfl
  | succ n ih =>
    simp only [rowIter]
    rw [ih (by omega), h n (by omega)]

/-- A row that is terminated after `n` iterations is not changed by more of them. -/
theorem stays (c : Cfg K) (hc : Good c) (inp : RowIn) (first : ℕ) (ch : C) (st : Step K C) (hst : ValidStep c st) (p : ℕ)
    (hp : Prompt c.eos inp.inputs p) (heos : c.eos ≠ 0) (hmin : c.negInf ≤ c.minLogProb) (n n' : ℕ) (hle : n ≤ n')
    (hn : inp.initialIndex + n' < c.maxLen)
    (hpass : c.minLogProb ≤ bestLive (rowIter c inp first ch (decoder st) n))
    (ht : rowTerminated c (rowIter c inp first ch (decoder st) n) = true) :
    (result (rowIter c inp first ch (decoder st) n')).Perm (result (rowIter c inp first ch (decoder st) n)) ∧
      (result (rowIter c inp first ch (decoder st) n')).map (·.1) = (result (rowIter c inp first ch (decoder st) n)).map (·.1) := by
  have hfull : ∀ g ∈ (rowIter c inp first ch (decoder st) n).fin, g.2.2 = true := by
    intro g hg
    by_contra hc'
    have h1 := (terminated_iff ht g hg).2 (by simpa using hc')
    have h2 : c.negInf ≤ bestLive (rowIter c inp first ch (decoder st) n) := hmin.trans hpass
    have h3 : c.negInf ≤ bestLive (rowIter c inp first ch (decoder st) n) / c.bp c.maxLen := by
      rw [le_div_iff₀ (hc.pos _)]
      have := hc.one
      have := hc.neg
      nlinarith
    exact absurd h1 (not_lt.2 h3)
  have inv := fun k (hk : k ≤ n') => inv2_iter c hc inp first ch st hst p hp heos k (by omega) (by omega)
  have hlen := (inv n hle).base.finLen
  have hlen' := (inv n' le_rfl).base.finLen
  have hkpos := hc.k
  obtain ⟨g, hg⟩ : ∃ g, g ∈ (rowIter c inp first ch (decoder st) n).fin := by
    cases hf : (rowIter c inp first ch (decoder st) n).fin with
    | nil => rw [hf] at hlen; simp at hlen; omega
    | cons a l => exact ⟨a, List.mem_cons_self ..⟩
  have hpn := fin_prompt c hc inp first ch st hst p hp heos n (by omega) (by omega) g hg (hfull g hg)
  let dummy : List (List K) := List.replicate c.k (List.replicate c.vocab 0)
  let o' : ℕ → Row K C → List (List K) × List C := fun k _ => if k ≤ n' then decoder st k (rowIter c inp first ch (decoder st) k) else (dummy, [])
  have ho' : ∀ k (r : Row K C), r.live.length = c.k → ValidLogp c (o' k r).1 := by
    intro k r _
    simp only [o']
    split_ifs with hk
    · exact decoder_valid c inp first ch st hst p (inv k hk)
    · refine ⟨by simp [dummy], ?_, ?_⟩
      · intro v hv; rw [(List.mem_replicate.1 hv).2]; simp
      · intro v hv x hx
        rw [(List.mem_replicate.1 hv).2] at hx
        rw [(List.mem_replicate.1 hx).2]
  have heq := rowIter_fixed c inp first ch (decoder st) o' n' (fun k hk => if_pos (le_of_lt hk))
  have key := C08_early_stop c hc inp first ch o' ho' n (n' - n)
    (fun i hi => by rw [nextTok_eq hp]; exact hp.pad _ (by omega)) (by omega)
    (by rw [heq n hle]; exact ht) (by rw [heq n hle]; exact hfull)
  rw [show n + (n' - n) = n' by omega, heq n hle, heq n' le_rfl] at key
  have any : ∀ (l : List (K × List ℕ × Bool)), l ≠ [] → (∀ g ∈ l, g.2.2 = true) → l.any (·.2.2) = true := by
    intro l hl hall
    obtain ⟨g, hg⟩ := List.exists_mem_of_ne_nil _ hl
    exact List.any_eq_true.2 ⟨g, hg, hall g hg⟩
  have a1 := any _ (List.ne_nil_of_mem hg) hfull
  have a2 := any _ (List.ne_nil_of_mem (key.1.mem_iff.2 hg)) (fun g hg => hfull g (key.1.mem_iff.1 hg))
  unfold result
  rw [if_pos a1, if_pos a2]
  refine ⟨key.1.map _, ?_⟩
  rw [List.map_map, List.map_map]
  exact key.2

/-- Among the candidates there is one without EOS, and none without EOS is better than the best of them: the best live log-probability falls by at
most `L` in an iteration if no token has a log-probability below `-L`. -/
theorem bestLive_step (c : Cfg K) (hc : Good c) (inp : RowIn) (first : ℕ) (ch : C) (st : Step K C) (hst : ValidStep c st) (p : ℕ)
    (n : ℕ) (r : Row K C) (inv : Inv2 c inp first ch st p n r) (hnext : nextTok inp.inputs n = 0) (L B : K)
    (hL : ∀ t ∈ r.live, ∀ x ∈ (st n (t.2.getD n 0) (cacheAfter st ch t.2 n)).1, -L ≤ x) (hB : ∃ l ∈ r.live, B ≤ l.1) :
    B - L ≤ bestLive (rowBody c inp n (decoder st n r).1 (decoder st n r).2 r) := by
  have hm := decoder_valid c inp first ch st hst p inv
  have hV := hc.vocab
  have hk := hc.k
  have hlive := inv.base.liveLen
  have hflat := flat_length r.live (decoder st n r).1 c.vocab hm.vocab (by rw [hlive, hm.beams])
  rw [hlive] at hflat
  have T := topK_isTopK (flatLogProbs r.live (decoder st n r).1) (2 * c.k)
  have hsize : (topK (flatLogProbs r.live (decoder st n r).1) (2 * c.k)).length = 2 * c.k := by
    rw [T.length, hflat]
    have : 2 * c.k ≤ c.k * c.vocab := by rw [Nat.mul_comm]; exact Nat.mul_le_mul_left _ hV
    omega
  have hz : (decoder st n r).1 = r.live.map (fun l => (st n (l.2.getD n 0) (cacheAfter st ch l.2 n)).1) := by
    unfold decoder
    rw [inv.cache, List.zipWith_map_right, List.zipWith_self]
    dsimp only
    rw [List.map_map]
    rfl
  -- one candidate without EOS
  have hone : ∃ e ∈ topK (flatLogProbs r.live (decoder st n r).1) (2 * c.k), e.2 % c.vocab ≠ c.eos := by
    by_contra hno
    push Not at hno
    have hsub : ((topK (flatLogProbs r.live (decoder st n r).1) (2 * c.k)).map (·.2)) ⊆ (List.range c.k).map fun j => j * c.vocab + c.eos := by
      intro i hi
      obtain ⟨e, he, rfl⟩ := List.mem_map.1 hi
      have h1 := (List.getElem?_eq_some_iff.1 (T.select e he)).1
      rw [hflat] at h1
      refine List.mem_map.2 ⟨e.2 / c.vocab, List.mem_range.2 (Nat.div_lt_of_lt_mul (by rw [Nat.mul_comm]; exact h1)), ?_⟩
      have := hno e he
      have := Nat.div_add_mod e.2 c.vocab
      rw [Nat.mul_comm] at this
      omega
    have := (List.subperm_of_subset T.distinct hsub).length_le
    rw [List.length_map, hsize, List.length_map, List.length_range] at this
    omega
  -- the continuation of the best live beam
  obtain ⟨l, hl, hlB⟩ := hB
  obtain ⟨j, hj, hjl⟩ := List.getElem_of_mem hl
  obtain ⟨t, htV, hte⟩ : ∃ t, t < c.vocab ∧ t ≠ c.eos := by
    by_cases h0 : c.eos = 0
    · exact ⟨1, by omega, by omega⟩
    · exact ⟨0, by omega, by omega⟩
  have hidx : j * c.vocab + t < (flatLogProbs r.live (decoder st n r).1).length := by
    rw [hflat]
    rw [hlive] at hj
    calc j * c.vocab + t < j * c.vocab + c.vocab := by omega
      _ = (j + 1) * c.vocab := by ring
      _ ≤ c.k * c.vocab := Nat.mul_le_mul_right _ hj
  have hget : (flatLogProbs r.live (decoder st n r).1)[j * c.vocab + t]? = some ((flatLogProbs r.live (decoder st n r).1)[j * c.vocab + t]) :=
    List.getElem?_eq_getElem hidx
  have hdiv : (j * c.vocab + t) / c.vocab = j := by
    rw [Nat.mul_comm, Nat.mul_add_div (by omega), Nat.div_eq_of_lt htV, Nat.add_zero]
  have hmod : (j * c.vocab + t) % c.vocab = t := by
    rw [Nat.mul_comm, Nat.mul_add_mod, Nat.mod_eq_of_lt htV]
  have hval : B - L ≤ (flatLogProbs r.live (decoder st n r).1)[j * c.vocab + t] := by
    obtain ⟨l', lv, y, g1, g2, g3, g4⟩ := flat_get r.live _ c.vocab (by omega) hm.vocab _ _ hget
    rw [hdiv] at g1 g2
    rw [List.getElem?_eq_getElem hj, hjl] at g1
    cases g1
    rw [hz, List.getElem?_map, List.getElem?_eq_getElem hj, hjl] at g2
    cases g2
    have := hL l hl y (List.mem_of_getElem? g3)
    rw [g4]; linarith
  have hgood : ∃ e ∈ topK (flatLogProbs r.live (decoder st n r).1) (2 * c.k), e.2 % c.vocab ≠ c.eos ∧ B - L ≤ e.1 := by
    by_cases hin : j * c.vocab + t ∈ (topK (flatLogProbs r.live (decoder st n r).1) (2 * c.k)).map (·.2)
    · obtain ⟨e, he, hee⟩ := List.mem_map.1 hin
      refine ⟨e, he, by rw [hee, hmod]; exact hte, ?_⟩
      have := T.select e he
      rw [hee, hget] at this
      exact hval.trans (le_of_eq (Option.some.inj this))
    · obtain ⟨e, he, hne⟩ := hone
      exact ⟨e, he, hne, hval.trans (T.largest _ _ hget hin e he)⟩
  obtain ⟨e, he, hne, hge⟩ := hgood
  obtain ⟨q, hq, hqe⟩ := List.getElem_of_mem he
  have hx : mkCand c r.live n (nextTok inp.inputs n) q e ∈ cands c n (nextTok inp.inputs n) (decoder st n r).1 r := by
    unfold cands
    refine List.mem_map.2 ⟨(e, q), ?_, rfl⟩
    rw [List.mem_zipIdx_iff_getElem?]
    simp only []
    rw [List.getElem?_eq_getElem hq, hqe]
  have hkey : B - L ≤ liveKey c (mkCand c r.live n (nextTok inp.inputs n) q e) := by
    unfold liveKey mkCand
    rw [hnext]
    simp only [if_true]
    rw [if_neg, add_zero]
    · exact hge
    · intro hd
      rw [decide_eq_true_eq, List.getElem?_set] at hd
      split_ifs at hd
      all_goals first
        | exact hne (by simpa using hd)
        | (exfalso; omega)
        | contradiction
  have hinv' := inv_body c hc inp n _ hm (decoder st n r).2 r inv.base
  have hex : ∃ y ∈ gatherTop (cands c n (nextTok inp.inputs n) (decoder st n r).1 r) (liveKey c) c.k, B - L ≤ liveKey c y := by
    rcases gatherTop_best _ (liveKey c) c.k _ hx with h | h
    · exact ⟨_, h, hkey⟩
    · have hlen := gatherTop_length (cands c n (nextTok inp.inputs n) (decoder st n r).1 r) (liveKey c) c.k
      rw [cands_length c hc n _ _ hm r hlive] at hlen
      obtain ⟨y, hy⟩ := List.exists_mem_of_length_pos (show 0 < (gatherTop (cands c n (nextTok inp.inputs n) (decoder st n r).1 r)
        (liveKey c) c.k).length by omega)
      exact ⟨y, hy, hkey.trans (h y hy)⟩
  obtain ⟨y, hy, hyge⟩ := hex
  exact hyge.trans (live_le_last hinv' (Nat.succ_pos n) (liveKey c y, y.seq) (List.mem_map.2 ⟨y, hy, rfl⟩))

/-- The best live log-probability after `n` iterations. -/
theorem bestLive_ge (c : Cfg K) (hc : Good c) (inp : RowIn) (first : ℕ) (ch : C) (st : Step K C) (hst : ValidStep c st)
    (hp : Prompt c.eos inp.inputs 0) (heos : c.eos ≠ 0) (L : K) (hL : ∀ n t a, ∀ x ∈ (st n t a).1, -L ≤ x) (n : ℕ) (hn : 0 < n)
    (hlen : inp.initialIndex + n < c.maxLen) : -(n * L) ≤ bestLive (rowIter c inp first ch (decoder st) n) := by
  have hk := hc.k
  have hnext : ∀ k, nextTok inp.inputs k = 0 := fun k => by rw [nextTok_eq hp]; exact hp.pad _ (by omega)
  induction n with
  | zero => omega
  | succ n ih =>
    have inv := inv2_iter c hc inp first ch st hst 0 hp heos n (by omega) (by omega)
    have hB : ∃ l ∈ (rowIter c inp first ch (decoder st) n).live, -(n * L) ≤ l.1 := by
      rcases Nat.eq_zero_or_pos n with h0 | h0
      · subst h0
        refine ⟨(0, first :: List.replicate (c.maxLen - 1) 0), ?_, by simp⟩
        simp [rowIter, initRow]
      · have h1 := ih h0 (by omega)
        have h2 := inv.base.liveLen
        cases hl : (rowIter c inp first ch (decoder st) n).live.getLast? with
        | none => rw [List.getLast?_eq_none_iff] at hl; rw [hl] at h2; simp at h2; omega
        | some l =>
          refine ⟨l, List.mem_of_getLast? hl, ?_⟩
          unfold bestLive at h1
          rw [hl] at h1
          exact h1
    have := bestLive_step c hc inp first ch st hst 0 n _ inv (hnext n) L _ (fun t _ x hx => hL _ _ _ x hx) hB
    simp only [rowIter]
    refine le_trans (le_of_eq ?_) this
    push_cast; ring

/-- Why and when the loop ends. -/
theorem loop_end (st : ℕ → Step K C) (c : Cfg K) (ins : List RowIn) (firsts : List (ℕ × C)) (hf : firsts.length = ins.length) (i : ℕ)
    (inp : RowIn) (first : ℕ) (ch : C) (h1 : ins[i]? = some inp) (h2 : firsts[i]? = some (first, ch))
    (hinit : ∀ x ∈ ins, x.initialIndex = inp.initialIndex) (hroom : inp.initialIndex < c.maxLen) (fuel : ℕ) (hfuel : c.maxLen ≤ fuel)
    (hbp : 0 < c.bp c.maxLen) (hpass : ∀ n, 0 < n → inp.initialIndex + n < c.maxLen → c.minLogProb ≤ bestLive (rowIter c inp first ch (decoder (st i)) n)) :
    ∃ n, inp.initialIndex + n < c.maxLen ∧
      (loop c ins (rowWise st ins.length) fuel (init c firsts)).rows[i]? = some (rowIter c inp first ch (decoder (st i)) n) ∧
      (∀ j < n, inp.initialIndex + j < c.maxLen - 1 ∧ ¬ (0 < c.maxStep ∧ c.maxStep ≤ j)) ∧
      (inp.initialIndex + n < c.maxLen - 1 → ¬ (0 < c.maxStep ∧ c.maxStep ≤ n) →
        rowTerminated c (rowIter c inp first ch (decoder (st i)) n) = true) := by
  obtain ⟨n, e1, e2, e3, e4⟩ := loop_iter c ins firsts (rowWise st ins.length) fuel 0
  simp only [Nat.zero_add] at e1 e3 e4
  have hmem : inp ∈ ins := List.mem_of_getElem? h1
  have hmin : (ins.map (·.initialIndex)).min?.getD 0 = inp.initialIndex := by
    have : ins.map (·.initialIndex) = List.replicate ins.length inp.initialIndex := by
      rw [List.eq_replicate_iff]
      exact ⟨by simp, fun x hx => by obtain ⟨y, hy, rfl⟩ := List.mem_map.1 hx; exact hinit y hy⟩
    rw [this, List.min?_replicate_of_pos (List.length_pos_of_mem hmem)]; rfl
  have hrun : ∀ j < n, inp.initialIndex + j < c.maxLen - 1 ∧ ¬ (0 < c.maxStep ∧ c.maxStep ≤ j) := by
    intro j hj
    have := e3 j hj
    unfold Beam.cond at this
    simp only [Bool.and_eq_true, decide_eq_true_eq, iter_cur, hmin, Bool.not_eq_true', Bool.and_eq_false_iff, decide_eq_false_iff_not] at this
    refine ⟨by omega, fun hc => ?_⟩
    rcases this.2 with h | h
    · exact h hc.1
    · exact h hc.2
  have hn : inp.initialIndex + n < c.maxLen := by
    cases n with
    | zero => omega
    | succ n => have := (hrun n (by omega)).1; omega
  have hrow := iter_rowWise st c ins firsts hf i inp first ch h1 h2 n
  refine ⟨n, hn, by rw [show init c firsts = iter c ins firsts (rowWise st ins.length) 0 from rfl, e1]; exact hrow, hrun, fun hend hstep => ?_⟩
  have hcond := e4 (by omega)
  have hmemrow := List.mem_of_getElem? hrow
  unfold Beam.cond at hcond
  simp only [iter_cur, hmin] at hcond
  by_contra hterm
  have b1 : ((iter c ins firsts (rowWise st ins.length) n).rows.all (rowTerminated c)) = false := by
    rw [List.all_eq_false]
    exact ⟨_, hmemrow, hterm⟩
  have b2 : ((iter c ins firsts (rowWise st ins.length) n).rows.all (fun r =>
      decide ((r.live.getLast?.map (·.1)).getD 0 / c.bp c.maxLen < c.minLogProb / c.bp c.maxLen)) && decide (n > 0)) = false := by
    rw [Bool.and_eq_false_iff]
    rcases Nat.eq_zero_or_pos n with h0 | h0
    · right; simp [h0]
    · left
      rw [List.all_eq_false]
      refine ⟨_, hmemrow, ?_⟩
      simp only [decide_eq_true_eq, not_lt]
      have := hpass n h0 hn
      unfold bestLive at this
      gcongr
  have b3 : decide (n + inp.initialIndex < c.maxLen - 1) = true := by rw [decide_eq_true_eq]; omega
  have b4 : (decide (c.maxStep > 0) && decide ((n : ℤ) ≥ c.maxStep)) = false := by
    rw [Bool.and_eq_false_iff]
    by_cases h : c.maxStep > 0
    · right; rw [decide_eq_false_iff_not]; exact fun hh => hstep ⟨h, hh⟩
    · left; simpa using h
  rw [b1, b2, b3, b4] at hcond
  simp at hcond

/-- **C110, beam search.**  Row `i` of one batch and row `i'` of another with the same prompt, cache and decoder get the same beams with the same
scores, in the same order as far as the scores differ.  The other rows do not matter: neither how many there are, nor how long they take.
(Same initial index in all rows; the search must not be cut off by `min_log_prob`.) -/
theorem C110_beam (c : Cfg K) (hc : Good c) (heos : c.eos ≠ 0) (hmin : c.negInf ≤ c.minLogProb) (st st' : ℕ → Step K C)
    (ins ins' : List RowIn) (firsts firsts' : List (ℕ × C)) (hf : firsts.length = ins.length) (hf' : firsts'.length = ins'.length)
    (i i' : ℕ) (inp : RowIn) (first : ℕ) (ch : C) (h1 : ins[i]? = some inp) (h2 : firsts[i]? = some (first, ch))
    (h1' : ins'[i']? = some inp) (h2' : firsts'[i']? = some (first, ch)) (hst : ValidStep c (st i)) (p : ℕ) (hp : Prompt c.eos inp.inputs p)
    (hinit : ∀ x ∈ ins ++ ins', x.initialIndex = inp.initialIndex) (hroom : inp.initialIndex < c.maxLen)
    (P : C → Prop) (hP : P ch) (hsame : ∀ n t a, P a → st i n t a = st' i' n t a ∧ P (st i n t a).2)
    (hpass : ∀ n, 0 < n → inp.initialIndex + n < c.maxLen → c.minLogProb ≤ bestLive (rowIter c inp first ch (decoder (st i)) n))
    (fuel fuel' : ℕ) (hfuel : c.maxLen ≤ fuel) (hfuel' : c.maxLen ≤ fuel') :
    ∃ r r', (loop c ins (rowWise st ins.length) fuel (init c firsts)).rows[i]? = some r ∧
      (loop c ins' (rowWise st' ins'.length) fuel' (init c firsts')).rows[i']? = some r' ∧
      (result r).Perm (result r') ∧ (result r).map (·.1) = (result r').map (·.1) ∧
      (((result r).map (·.1)).Nodup → result r = result r') := by
  have heq : ∀ n, rowIter c inp first ch (decoder (st' i')) n = rowIter c inp first ch (decoder (st i)) n ∧
      ∀ a ∈ (rowIter c inp first ch (decoder (st i)) n).cache, P a := by
    intro n
    induction n with
    | zero =>
      refine ⟨rfl, fun a ha => ?_⟩
      simp only [rowIter, initRow] at ha
      rw [(List.mem_replicate.1 ha).2]; exact hP
    | succ n ih =>
      obtain ⟨i1, i2⟩ := ih
      have hz : ∀ (l : List (K × List ℕ)) (q : List C), (∀ a ∈ q, P a) →
          List.zipWith (fun (l : K × List ℕ) ch => st' i' n (l.2.getD n 0) ch) l q =
            List.zipWith (fun (l : K × List ℕ) ch => st i n (l.2.getD n 0) ch) l q ∧
          ∀ x ∈ List.zipWith (fun (l : K × List ℕ) ch => st i n (l.2.getD n 0) ch) l q, P x.2 := by
        intro l
        induction l with
        | nil => intro q _; simp
        | cons a l ihl =>
          intro q hq
          cases q with
          | nil => simp
          | cons b q =>
            obtain ⟨j1, j2⟩ := ihl q (fun a ha => hq a (List.mem_cons_of_mem _ ha))
            obtain ⟨k1, k2⟩ := hsame n (a.2.getD n 0) b (hq b (List.mem_cons_self ..))
            simp only [List.zipWith_cons_cons]
            refine ⟨by rw [j1, k1], fun x hx => ?_⟩
            rcases List.mem_cons.1 hx with rfl | hx
            · exact k2
            · exact j2 x hx
      obtain ⟨z1, z2⟩ := hz (rowIter c inp first ch (decoder (st i)) n).live _ i2
      have hd : decoder (st' i') n (rowIter c inp first ch (decoder (st i)) n) = decoder (st i) n (rowIter c inp first ch (decoder (st i)) n) := by
        simp only [decoder]; rw [z1]
      refine ⟨by simp only [rowIter]; rw [i1, hd], fun a ha => ?_⟩
      simp only [rowIter, rowBody] at ha
      obtain ⟨x, _, hx⟩ := List.mem_filterMap.1 ha
      have := List.mem_of_getElem? hx
      simp only [decoder] at this
      obtain ⟨y, hy, rfl⟩ := List.mem_map.1 this
      exact z2 y hy
  have hbp := hc.pos c.maxLen
  obtain ⟨n, a1, a2, a3, a4⟩ := loop_end st c ins firsts hf i inp first ch h1 h2 (fun x hx => hinit x (List.mem_append_left _ hx)) hroom fuel hfuel
    hbp hpass
  obtain ⟨n', b1, b2, b3, b4⟩ := loop_end st' c ins' firsts' hf' i' inp first ch h1' h2' (fun x hx => hinit x (List.mem_append_right _ hx)) hroom
    fuel' hfuel' hbp (fun k hk hk' => by rw [(heq k).1]; exact hpass k hk hk')
  rw [(heq n').1] at b2 b4
  have hpos : ∀ k, rowTerminated c (rowIter c inp first ch (decoder (st i)) k) = true → 0 < k := by
    intro k hk
    rcases Nat.eq_zero_or_pos k with h0 | h0
    · subst h0
      exact absurd hk (by rw [show rowIter c inp first ch (decoder (st i)) 0 = initRow c first ch from rfl, not_terminated_init c hc]; simp)
    · exact h0
  have main : (result (rowIter c inp first ch (decoder (st i)) n)).Perm (result (rowIter c inp first ch (decoder (st i)) n')) ∧
      (result (rowIter c inp first ch (decoder (st i)) n)).map (·.1) = (result (rowIter c inp first ch (decoder (st i)) n')).map (·.1) := by
    rcases lt_trichotomy n n' with h | h | h
    · have ht := a4 (b3 n h).1 (b3 n h).2
      obtain ⟨s1, s2⟩ := stays c hc inp first ch (st i) hst p hp heos hmin n n' h.le b1 (hpass n (hpos n ht) a1) ht
      exact ⟨s1.symm, s2.symm⟩
    · subst h; exact ⟨List.Perm.refl _, rfl⟩
    · have ht := b4 (a3 n' h).1 (a3 n' h).2
      exact stays c hc inp first ch (st i) hst p hp heos hmin n' n h.le a1 (hpass n' (hpos n' ht) b1) ht
  refine ⟨_, _, a2, b2, main.1, main.2, fun hnd => ?_⟩
  have key : ∀ (l l' : List (K × List ℕ)), l.Perm l' → l.map (·.1) = l'.map (·.1) → (l.map (·.1)).Nodup → l = l' := by
    intro l l' hperm hmap hnd
    have hlen := congrArg List.length hmap
    simp only [List.length_map] at hlen
    apply List.ext_getElem hlen
    intro j hj hj'
    have hmem : l'[j] ∈ l := hperm.mem_iff.2 (List.getElem_mem hj')
    obtain ⟨k, hk, hke⟩ := List.getElem_of_mem hmem
    have e1 : (l.map (·.1))[k]'(by simpa using hk) = (l.map (·.1))[j]'(by simpa using hj) := by
      have : (l.map (·.1))[j]'(by simpa using hj) = (l'.map (·.1))[j]'(by simpa using hj') := by simp only [hmap]
      rw [this, List.getElem_map, List.getElem_map, hke]
    have := (List.Nodup.getElem_inj_iff hnd).1 e1
    subst this
    exact hke
  exact key _ _ main.1 main.2 hnd

end rows

/-! ### The T5 network -/

section t5
open Verif.Transformer Verif.Transformer.Spec Verif.T5Decode Verif.Masks Verif.PredictIndep

variable {d h e f V : Nat} {ex : ℝ → ℝ} {lg : ℕ → ℝ} {net : Transformer.Net d h e f V} {θ M : ℝ}

theorem batchDecoder_rowWise {S : Type} (g : ℕ → S → Int → (Fin V → ℝ) × S) (rows : ℕ) :
    Score.batchDecoder g rows = rowWise (fun b => Score.beamStep (g b)) rows := by
  funext s
  unfold Score.batchDecoder rowWise
  refine List.map_congr_left fun b _ => ?_
  cases s.rows[b]? <;> rfl

/-- `G` bounds all logits the network can give, by its final layer norm and the output weights. -/
def LogitsWithin (net : Transformer.Net d h e f V) (G : ℝ) : Prop :=
  match net.head with
  | .viaEmbedding => ∀ v, (∑ i, √d * |net.decNorm i| * |net.table v i|) / √d ≤ G
  | .denseKernel kernel => ∀ v, ∑ i, √d * |net.decNorm i| * |kernel i v| ≤ G

theorem toLogits_le (he : 0 ≤ net.eps) {G : ℝ} (hG : LogitsWithin net G) (y : Vec d) (v : Fin V) : |toLogits net y v| ≤ G := by
  unfold LogitsWithin at hG
  unfold toLogits
  cases hh : net.head with
  | viaEmbedding =>
    rw [hh] at hG
    refine le_trans ?_ (hG v)
    simp only [attendEmbedding]
    rw [abs_div, abs_of_nonneg (Real.sqrt_nonneg _)]
    gcongr
    refine (Finset.abs_sum_le_sum_abs _ _).trans (Finset.sum_le_sum fun i _ => ?_)
    rw [abs_mul]
    exact mul_le_mul_of_nonneg_right (layerNorm_le _ he _ _ _) (abs_nonneg _)
  | denseKernel kernel =>
    rw [hh] at hG
    refine le_trans ?_ (hG v)
    simp only [dense]
    refine (Finset.abs_sum_le_sum_abs _ _).trans (Finset.sum_le_sum fun i _ => ?_)
    rw [abs_mul]
    exact mul_le_mul_of_nonneg_right (layerNorm_le _ he _ _ _) (abs_nonneg _)

theorem logSoftmax_ge {V : Nat} (x : Fin V → ℝ) (G : ℝ) (hG : ∀ v, |x v| ≤ G) (t : Fin V) : -(2 * G + Real.log V) ≤ Score.logSoftmax x t := by
  unfold Score.logSoftmax Loss.logsumexp
  have hV : (0 : ℝ) < V := by exact_mod_cast t.pos
  have h1 : ∑ i, Real.exp (x i) ≤ V * Real.exp G := by
    calc ∑ i, Real.exp (x i) ≤ ∑ _i : Fin V, Real.exp G := Finset.sum_le_sum fun i _ => Real.exp_le_exp.2 ((le_abs_self _).trans (hG i))
      _ = V * Real.exp G := by simp
  have hpos : 0 < ∑ i, Real.exp (x i) := Finset.sum_pos (fun i _ => Real.exp_pos _) ⟨t, Finset.mem_univ t⟩
  have h2 := Real.log_le_log hpos h1
  rw [Real.log_mul hV.ne' (Real.exp_pos _).ne', Real.log_exp] at h2
  have h3 := neg_abs_le (x t)
  have h4 := hG t
  linarith

/-- **C110, the T5 network.**  The same input in two batches, padded to any lengths: `predict_batch_with_aux` with beam search returns the same
beams with the same scores, in the same order if no two of the scores are equal.  The logits must be small enough that no text can reach
`min_log_prob` (-10^7 by default). -/
theorem C110_t5 (hex : Underflows ex θ) (hθ : 0 < θ) (ht : Tame net θ M) (c : Cfg ℝ) (hc : Good c) (hV : c.vocab = V) (heos : c.eos ≠ 0)
    (hmin : c.negInf ≤ c.minLogProb) {G : ℝ} (hG : LogitsWithin net G) (hlow : c.minLogProb ≤ -(c.maxLen * (2 * G + Real.log V)))
    {m m' : Nat} (n : Nat) (hn : 2 ≤ n) (hlen : 0 < c.maxLen) (rows : List (Masks.Row m)) (rows' : List (Masks.Row m'))
    (b b' : Nat) (r : Masks.Row m) (r' : Masks.Row m') (hb : rows[b]? = some r) (hb' : rows'[b']? = some r')
    (x : List Int) (hne : x ≠ []) (hx : ∀ t ∈ x, 0 < t) (hr : Padded r x) (hr' : Padded r' x) :
    ∃ B B', (beamT5 ex lg net n rows c)[b]? = some B ∧ (beamT5 ex lg net n rows' c)[b']? = some B' ∧
      B.Perm B' ∧ B.map (·.1) = B'.map (·.1) ∧ ((B.map (·.1)).Nodup → B = B') := by
  have g1 : rows.getD b (fun _ => 0) = r := by rw [List.getD_eq_getElem?_getD, hb]; rfl
  have g2 : rows'.getD b' (fun _ => 0) = r' := by rw [List.getD_eq_getElem?_getD, hb']; rfl
  have hVpos : 0 < V := by have := hc.vocab; omega
  have hG0 : 0 ≤ G := (abs_nonneg _).trans (toLogits_le ht.eps hG (fun _ => 0) ⟨0, hVpos⟩)
  have hL0 : 0 ≤ 2 * G + Real.log V := by
    have : (1 : ℝ) ≤ V := by exact_mod_cast hVpos
    have := Real.log_nonneg this
    linarith
  have hprompt : Prompt c.eos (List.replicate n 0) 0 :=
    ⟨by simp only [List.length_replicate]; omega, fun j a b => by omega, fun j _ => by
      rw [List.getD_eq_getElem?_getD, List.getElem?_replicate]; split_ifs <;> rfl⟩
  have hpass : ∀ k, 0 < k → k < c.maxLen → c.minLogProb ≤ bestLive (rowIter c ⟨List.replicate n 0, 0⟩ 0 (emptyCaches net n)
      (Beam.Spec.decoder (Score.beamStep (step ex lg net r (encoder ex lg net r (makeEncoderMask r none))))) k) := by
    intro k hk hkm
    have := bestLive_ge c hc ⟨List.replicate n 0, 0⟩ 0 (emptyCaches net n)
      (Score.beamStep (step ex lg net r (encoder ex lg net r (makeEncoderMask r none)))) (Score.beamStep_valid _ c hV) hprompt heos
      (2 * G + Real.log V) (fun q t a y hy => by
        simp only [Score.beamStep, List.mem_ofFn] at hy
        obtain ⟨w, rfl⟩ := hy
        exact logSoftmax_ge _ G (fun v => by simp only [step]; exact toLogits_le ht.eps hG _ v) w) k hk (by simpa using hkm)
    refine hlow.trans (le_trans ?_ this)
    have hkm' : (k : ℝ) ≤ c.maxLen := by exact_mod_cast hkm.le
    nlinarith
  obtain ⟨R, R', e1, e2, e3, e4, e5⟩ := C110_beam c hc heos hmin
    (fun b => Score.beamStep (step ex lg net (rows.getD b (fun _ => 0)) (encoder ex lg net (rows.getD b (fun _ => 0))
      (makeEncoderMask (rows.getD b (fun _ => 0)) none))))
    (fun b => Score.beamStep (step ex lg net (rows'.getD b (fun _ => 0)) (encoder ex lg net (rows'.getD b (fun _ => 0))
      (makeEncoderMask (rows'.getD b (fun _ => 0)) none))))
    (rows.map fun _ => ⟨List.replicate n 0, 0⟩) (rows'.map fun _ => ⟨List.replicate n 0, 0⟩)
    (rows.map fun _ => (0, emptyCaches net n)) (rows'.map fun _ => (0, emptyCaches net n)) (by simp) (by simp) b b' ⟨List.replicate n 0, 0⟩ 0
    (emptyCaches net n) (by rw [List.getElem?_map, hb]; rfl) (by rw [List.getElem?_map, hb]; rfl) (by rw [List.getElem?_map, hb']; rfl)
    (by rw [List.getElem?_map, hb']; rfl) (Score.beamStep_valid _ c hV) 0
    hprompt
    (fun q hq => by
      rcases List.mem_append.1 hq with hq | hq <;> obtain ⟨_, _, rfl⟩ := List.mem_map.1 hq <;> rfl) hlen
    (fun cs => ∀ a ∈ cs, a.1 ∈ net.dec) (fun a ha => by obtain ⟨l, hl, rfl⟩ := List.mem_map.1 ha; exact hl)
    (fun k t cs hcs => by
      simp only [g1, g2, Score.beamStep]
      obtain ⟨k1, k2⟩ := step_padded (lg := lg) hex hθ ht r r' x hne hx hr hr' cs hcs t
      rw [k1] at k2 ⊢
      exact ⟨rfl, k2⟩)
    (fun k hk hk' => by simp only [g1]; exact hpass k hk (by simpa using hk')) c.maxLen c.maxLen le_rfl le_rfl
  refine ⟨_, _, ?_, ?_, e3, e4, e5⟩
  · simp only [beamT5, Score.beamRun, List.length_map]
    rw [List.getElem?_map, batchDecoder_rowWise]
    rw [List.length_map] at e1
    rw [e1]; rfl
  · simp only [beamT5, Score.beamRun, List.length_map]
    rw [List.getElem?_map, batchDecoder_rowWise]
    rw [List.length_map] at e2
    rw [e2]; rfl

theorem loop_length {K C : Type} [Field K] [LinearOrder K] (c : Cfg K) (ins : List RowIn) (firsts : List (ℕ × C)) (st : ℕ → Step K C)
    (hf : firsts.length = ins.length) (fuel : ℕ) : (loop c ins (rowWise st ins.length) fuel (init c firsts)).rows.length = ins.length := by
  have key : ∀ n (s : State K C), s.rows.length = ins.length → (loop c ins (rowWise st ins.length) n s).rows.length = ins.length := by
    intro n
    induction n with
    | zero => intro s hs; exact hs
    | succ n ih =>
      intro s hs
      simp only [loop]
      split_ifs
      · refine ih _ ?_
        simp [body, rowWise, hs]
      · exact hs
  exact key fuel _ (by simp [init, hf])

theorem beamT5_length (c : Cfg ℝ) {m : Nat} (n : Nat) (rows : List (Masks.Row m)) : (beamT5 ex lg net n rows c).length = rows.length := by
  simp only [beamT5, Score.beamRun, List.length_map]
  rw [batchDecoder_rowWise]
  have := loop_length c (rows.map fun _ => (⟨List.replicate n 0, 0⟩ : RowIn)) (rows.map fun _ => (0, emptyCaches net n))
    (fun b => Score.beamStep (step ex lg net (rows.getD b (fun _ => 0)) (encoder ex lg net (rows.getD b (fun _ => 0))
      (makeEncoderMask (rows.getD b (fun _ => 0)) none)))) (by simp) c.maxLen
  simpa using this

/-- **C110, offline inference.**  A pass of inference with beam search returns for each example, in the order of the data set, the beams found for
its input (cut to the feature length) alone, unpadded: the same sequences with the same scores, in the same order as far as the scores differ. -/
theorem C110_infer (hex : Underflows ex θ) (hθ : 0 < θ) (ht : Tame net θ M) (c : Cfg ℝ) (hc : Good c) (hV : c.vocab = V) (heos : c.eos ≠ 0)
    (hmin : c.negInf ≤ c.minLogProb) {G : ℝ} (hG : LogitsWithin net G) (hlow : c.minLogProb ≤ -(c.maxLen * (2 * G + Real.log V)))
    (m n : Nat) (hm : 0 < m) (hn : 2 ≤ n) (hlen : 0 < c.maxLen) (shards B : Nat) (hB : 0 < B) (hs : shards ∣ B)
    (xs : List (List Int × List Int)) (hxs : xs ≠ []) :
    ∃ out, Infer.inferFn shards B (fun _ b => predictBeams ex lg net c m n b) xs = .ok out ∧
      List.Forall₂ (fun x o => OfflineInfer.Good x → ∃ alone, beamT5 ex lg net n [fun i : Fin (x.1.take m).length => (x.1.take m)[i]] c = [alone] ∧
        o.Perm alone ∧ o.map (·.1) = alone.map (·.1) ∧ ((o.map (·.1)).Nodup → o = alone)) xs (Infer.extract out) := by
  obtain ⟨out, h1, -, -, h4⟩ := Infer.C36_results shards B hB hs
    (fun x o => OfflineInfer.Good x → ∃ alone, beamT5 ex lg net n [fun i : Fin (x.1.take m).length => (x.1.take m)[i]] c = [alone] ∧
        o.Perm alone ∧ o.map (·.1) = alone.map (·.1) ∧ ((o.map (·.1)).Nodup → o = alone))
    (fun _ b => predictBeams ex lg net c m n b) (fun _ b => by
      rw [List.forall₂_iff_get]
      have hlb : (predictBeams ex lg net c m n b).length = b.length := by
        unfold predictBeams
        rw [beamT5_length]; simp [OfflineInfer.convert]
      refine ⟨hlb.symm, fun i hi hi' hg => ?_⟩
      simp only [List.get_eq_getElem] at hg ⊢
      have hne : b[i].1.take m ≠ [] := by
        intro hc
        rcases List.take_eq_nil_iff.1 hc with hc | hc
        · omega
        · exact hg.2.2 hc
      obtain ⟨A, A', r1, r2, r3⟩ := C110_t5 (lg := lg) hex hθ ht c hc hV heos hmin hG hlow (m := m) (m' := (b[i].1.take m).length) n hn hlen
        ((OfflineInfer.convert m n b).encoderInput.map fun r (j : Fin m) => r.getD j.val 0) [fun j => (b[i].1.take m)[j]] i 0
        (fun j => (Export.cutPad m b[i].1).getD j.val 0) (fun j => (b[i].1.take m)[j])
        (by
          simp only [OfflineInfer.convert]
          rw [List.getElem?_map, List.getElem?_map, List.getElem?_eq_getElem hi]; rfl) rfl (b[i].1.take m) hne
        (fun t ht => hg.1 t (List.mem_of_mem_take ht)) ⟨List.length_take_le _ _, fun j => OfflineInfer.cutPad_getD _ _ _⟩
        ⟨le_rfl, fun j => by rw [List.getD_eq_getElem?_getD, List.getElem?_eq_getElem j.isLt]; rfl⟩
      have e1 : (predictBeams ex lg net c m n b)[i] = A := by
        have : (predictBeams ex lg net c m n b)[i]? = some A := r1
        rw [List.getElem?_eq_getElem hi'] at this
        exact Option.some.inj this
      have hl := beamT5_length (ex := ex) (lg := lg) (net := net) c n [fun j : Fin (b[i].1.take m).length => (b[i].1.take m)[j]]
      obtain ⟨a, ha⟩ := List.length_eq_one_iff.1 hl
      rw [ha] at r2
      have : a = A' := by simpa using r2
      subst this
      exact ⟨a, ha, by rw [e1]; exact r3⟩) xs hxs
  exact ⟨out, h1, h4⟩

/-- The parameters of the example: two beams, alpha = 0.6, NEG_INF = -10^7. -/
noncomputable def demoCfg : Cfg ℝ := ⟨2, 2, 1, 4, -10 ^ 7, fun n => ((5 + (n : ℝ)) / 6) ^ (0.6 : ℝ), -10 ^ 7, -1⟩

theorem demoCfg_good : Good demoCfg := by
  obtain ⟨h1, h2, h3⟩ := brevity_good 0.6 (by norm_num) 4 (by norm_num)
  exact ⟨by norm_num [demoCfg], by norm_num [demoCfg], by norm_num [demoCfg], h1, h2, h3⟩

/-- An example: three inputs in batches of two on two shards. -/
example : ∃ out, Infer.inferFn 2 2 (fun _ b => predictBeams flushed lg demoNet demoCfg 3 3 b) [([1], [1]), ([1, 1], []), ([1, 1, 1], [1])] = .ok out ∧
    List.Forall₂ (fun x o => OfflineInfer.Good x → ∃ alone, beamT5 flushed lg demoNet 3 [fun i : Fin (x.1.take 3).length => (x.1.take 3)[i]] demoCfg = [alone] ∧
      o.Perm alone ∧ o.map (·.1) = alone.map (·.1) ∧ ((o.map (·.1)).Nodup → o = alone)) [([1], [1]), ([1, 1], []), ([1, 1, 1], [1])] (Infer.extract out) := by
  have hlog : Real.log ((2 : ℕ) : ℝ) ≤ 1 := by
    have := Real.log_le_sub_one_of_pos (show (0 : ℝ) < ((2 : ℕ) : ℝ) by norm_num)
    norm_num at this ⊢
    linarith
  refine C110_infer (fun x hx => if_pos hx) (by norm_num) demoNet_tame demoCfg demoCfg_good rfl (by norm_num [demoCfg]) (by norm_num [demoCfg])
    (G := 1) (by simp [LogitsWithin, demoNet]) ?_ 3 3 (by norm_num) (by norm_num) (by norm_num [demoCfg]) 2 2 (by norm_num) (by norm_num) _ (by simp)
  simp only [demoCfg]
  push_cast at hlog ⊢
  linarith

end t5

/-! ### Limits -/

/-- Parameters for the examples: two beams, tokens 0 to 3, EOS 1, no brevity penalty, three positions. -/
def tieCfg (maxLen : ℕ) (minLogProb : ℚ) : Cfg ℚ := ⟨2, 4, 1, maxLen, -1000, fun _ => 1, minLogProb, 0⟩

theorem tieCfg_good (n : ℕ) (q : ℚ) : Good (tieCfg n q) :=
  ⟨by simp [tieCfg], by simp [tieCfg], by simp [tieCfg], fun _ => by simp [tieCfg], fun _ _ _ => by simp [tieCfg], by simp [tieCfg]⟩

/-- A decoder that gives tokens 2 and 3 the same probability and ends after one of them; row 1 takes longer. -/
def tieStep (b : ℕ) : Step ℚ Unit := fun n _ _ => (if b = 0 then (if n = 0 then [-100, -100, -1, -1] else [-100, -1, -100, -100])
  else [-100, -100, -1, -2], ())

theorem tieStep_valid (n : ℕ) (q : ℚ) (b : ℕ) : ValidStep (tieCfg n q) (tieStep b) := by
  intro k t a
  unfold tieStep
  refine ⟨by dsimp only; split_ifs <;> rfl, ?_⟩
  intro x hx
  dsimp only at hx
  split_ifs at hx <;> simp at hx <;> rcases hx with rfl | rfl | rfl <;> norm_num

/-- C110, a limit: beams with equal scores change places in every iteration that the row waits for others.  So the best beam, which is what
`predict_batch` returns, depends on the batch: alone the row gives 3 1, beside a slower row 2 1. -/
theorem C110_ties :
    (loop (tieCfg 4 (-1000)) [⟨[0, 0, 0], 0⟩] (rowWise tieStep 1) 4 (init (tieCfg 4 (-1000)) [(0, ())])).rows[0]?.map
        (fun r => (result r).getLast?) = some (some ((-2 : ℚ), [3, 1, 0])) ∧
    (loop (tieCfg 4 (-1000)) [⟨[0, 0, 0], 0⟩, ⟨[0, 0, 0], 0⟩] (rowWise tieStep 2) 4 (init (tieCfg 4 (-1000)) [(0, ()), (0, ())])).rows[0]?.map
        (fun r => (result r).getLast?) = some (some ((-2 : ℚ), [2, 1, 0])) := by
  decide +kernel

/-- A decoder whose row 0 is not likely at first, and then ends; row 1 as before. -/
def lowStep (b : ℕ) : Step ℚ Unit := fun n _ _ => (if b = 0 then (if n = 0 then [-100, -100, -6, -7] else [-100, -1, -100, -100])
  else [-100, -100, -1, -2], ())

/-- C110, another limit: `min_log_prob` stops the search when no row has a live beam above it.  With -5 the row alone stops after one iteration,
and the empty text is the best it has; beside a likelier row it goes on to 2 1. -/
theorem C110_min_log_prob :
    (loop (tieCfg 4 (-5)) [⟨[0, 0, 0], 0⟩] (rowWise lowStep 1) 4 (init (tieCfg 4 (-5)) [(0, ())])).rows[0]?.map
        (fun r => (result r).getLast?) = some (some ((-100 : ℚ), [1, 0, 0])) ∧
    (loop (tieCfg 4 (-5)) [⟨[0, 0, 0], 0⟩, ⟨[0, 0, 0], 0⟩] (rowWise lowStep 2) 4 (init (tieCfg 4 (-5)) [(0, ()), (0, ())])).rows[0]?.map
        (fun r => (result r).getLast?) = some (some ((-7 : ℚ), [2, 1, 0])) := by
  decide +kernel

/-- A decoder whose row 0 prefers token 2, or token 3 if it can go on for another token; row 1 as before. -/
def longStep (b : ℕ) : Step ℚ Unit := fun n t _ =>
  (if b = 0 then (if n = 0 then [-100, -101, -1, -2] else if t = 2 then [-100, -10, -101, -102] else [-100, -1, -101, -102])
  else [-100, -100, -1, -2], ())

/-- C110, a limit with prefilled prompts: the search goes on as long as the row with the shortest prompt has room.  A prompt of two tokens in
rows of three leaves room for one; alone, the row gives EOS, beside a row with a shorter prompt it gives token 3, since the search went on beyond
the length limit, found EOS there, and its score decided; the EOS is then cut off. -/
theorem C110_longer_prompt :
    (loop (tieCfg 4 (-1000)) [⟨[7, 0, 0], 2⟩] (rowWise longStep 1) 4 (init (tieCfg 4 (-1000)) [(7, ())])).rows[0]?.map
        (fun r => (result r).getLast?) = some (some ((-101 : ℚ), [1, 0, 0])) ∧
    (loop (tieCfg 4 (-1000)) [⟨[7, 0, 0], 2⟩, ⟨[7, 0, 0], 1⟩] (rowWise longStep 2) 4 (init (tieCfg 4 (-1000)) [(7, ()), (7, ())])).rows[0]?.map
        (fun r => (result r).getLast?) = some (some ((-3 : ℚ), [3, 1, 0])) := by
  decide +kernel

/-- A decoder without ties. -/
def okStep (b : ℕ) : Step ℚ Unit := fun n _ _ => (if b = 0 then (if n = 0 then [-100, -101, -1, -2] else [-100, -1, -101, -102])
  else [-100, -100, -1, -2], ())

theorem okStep_valid (n : ℕ) (q : ℚ) (b : ℕ) : ValidStep (tieCfg n q) (okStep b) := by
  intro k t a
  unfold okStep
  refine ⟨by dsimp only; split_ifs <;> rfl, ?_⟩
  intro x hx
  dsimp only at hx
  split_ifs at hx <;> simp at hx <;> rcases hx with rfl | rfl | rfl | rfl <;> norm_num

/-- An example of C110: row 0 alone and beside the slower row. -/
example : ∃ r r', (loop (tieCfg 4 (-1000)) [⟨[0, 0, 0], 0⟩] (rowWise okStep 1) 4 (init (tieCfg 4 (-1000)) [(0, ())])).rows[0]? = some r ∧
    (loop (tieCfg 4 (-1000)) [⟨[0, 0, 0], 0⟩, ⟨[0, 0, 0], 0⟩] (rowWise okStep 2) 4 (init (tieCfg 4 (-1000)) [(0, ()), (0, ())])).rows[0]? = some r' ∧
    (result r).Perm (result r') ∧ (result r).map (·.1) = (result r').map (·.1) ∧ (((result r).map (·.1)).Nodup → result r = result r') :=
  C110_beam (tieCfg 4 (-1000)) (tieCfg_good _ _) (by decide) (by decide +kernel) okStep okStep [⟨[0, 0, 0], 0⟩] [⟨[0, 0, 0], 0⟩, ⟨[0, 0, 0], 0⟩] [(0, ())]
    [(0, ()), (0, ())] rfl rfl 0 0 ⟨[0, 0, 0], 0⟩ 0 () rfl rfl rfl rfl (okStep_valid _ _ _) 0
    ⟨by decide, fun j a b => by omega, fun j _ => by
      rw [List.getD_eq_getElem?_getD]
      match j with
      | 0 => rfl
      | 1 => rfl
      | 2 => rfl
      | j + 3 => rfl⟩ (by decide) (by decide) (fun _ => True) trivial (fun _ _ _ _ => ⟨rfl, trivial⟩)
    (fun n h1 h2 => by
      change 0 + n < 4 at h2
      obtain rfl | rfl | rfl : n = 1 ∨ n = 2 ∨ n = 3 := by omega
      all_goals decide +kernel) 4 4 le_rfl le_rfl

end Verif.BeamIndep
