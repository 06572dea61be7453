import Verif.Lemmas.Beam
import Verif.Spec.Beam
import Mathlib.Analysis.SpecialFunctions.Pow.Real
/-
Property C08: stopping early loses nothing.
-/
namespace Verif.Beam
open Verif.TopK Verif.TopK.Spec Spec

variable {K C : Type} [Field K] [LinearOrder K] [IsStrictOrderedRing K]

/-- The brevity penalty of the code satisfies the assumptions for every alpha ≥ 0. -/
theorem brevity_good (α : ℝ) (hα : 0 ≤ α) (maxLen : ℕ) (hm : 1 ≤ maxLen) :
    let bp : ℕ → ℝ := fun n => ((5 + (n : ℝ)) / 6) ^ α
    (∀ n, 0 < bp n) ∧ (∀ m n, m ≤ n → bp m ≤ bp n) ∧ 1 ≤ bp maxLen := by
  refine ⟨?_, ?_, ?_⟩
  · intro n; exact Real.rpow_pos_of_pos (by positivity) _
  · intro m n h
    apply Real.rpow_le_rpow (by positivity) _ hα
    have : (m : ℝ) ≤ n := by exact_mod_cast h
    linarith
  · apply Real.one_le_rpow _ hα
    have : (1 : ℝ) ≤ maxLen := by exact_mod_cast hm
    linarith

theorem cands_length (c : Cfg K) (hc : Good c) (cur next : ℕ) (m : List (List K)) (hm : ValidLogp c m) (r : Row K C)
    (hr : r.live.length = c.k) : (cands c cur next m r).length = 2 * c.k := by
  unfold cands
  rw [List.length_map, List.length_zipIdx, (topK_isTopK _ _).length,
    flat_length r.live m c.vocab hm.vocab (by rw [hr, hm.beams]), hr]
  have : 2 * c.k ≤ c.k * c.vocab := by
    rw [Nat.mul_comm]; exact Nat.mul_le_mul_left _ hc.vocab
  omega

/-- Where a candidate comes from. -/
theorem mem_cands (c : Cfg K) (hc : Good c) (cur next : ℕ) (m : List (List K)) (hm : ValidLogp c m) (r : Row K C)
    (x : Cand K) (hx : x ∈ cands c cur next m r) :
    ∃ (e : K × ℕ) (n : ℕ) (l : K × List ℕ) (lv : List K) (y : K), (e, n) ∈ (topK (flatLogProbs r.live m) (2 * c.k)).zipIdx ∧
      x = mkCand c r.live cur next n e ∧ r.live[e.2 / c.vocab]? = some l ∧ m[e.2 / c.vocab]? = some lv ∧
      lv[e.2 % c.vocab]? = some y ∧ y ≤ 0 ∧ e.1 = y + l.1 := by
  obtain ⟨⟨e, n⟩, hp, rfl⟩ := List.mem_map.1 hx
  have he : e ∈ topK (flatLogProbs r.live m) (2 * c.k) := List.fst_mem_of_mem_zipIdx hp
  have hs := (topK_isTopK (flatLogProbs r.live m) (2 * c.k)).select e he
  obtain ⟨l, lv, y, h1, h2, h3, h4⟩ := flat_get r.live m c.vocab (by have := hc.vocab; omega) hm.vocab e.2 e.1 hs
  exact ⟨e, n, l, lv, y, hp, rfl, h1, h2, h3, hm.nonpos lv (List.mem_of_getElem? h2) y (List.mem_of_getElem? h3), h4⟩

theorem cand_nonpos (c : Cfg K) (hc : Good c) (cur next : ℕ) (m : List (List K)) (hm : ValidLogp c m) (r : Row K C)
    (hr : ∀ l ∈ r.live, l.1 ≤ 0) (x : Cand K) (hx : x ∈ cands c cur next m r) : x.lp ≤ 0 := by
  obtain ⟨e, n, l, lv, y, _, rfl, h1, _, _, hy, he⟩ := mem_cands c hc cur next m hm r x hx
  unfold mkCand
  dsimp only
  have := hr l (List.mem_of_getElem? h1)
  have := hc.neg.le
  split_ifs
  · rw [he]; linarith
  · exact le_rfl
  · assumption

theorem cand_le (c : Cfg K) (hc : Good c) (cur : ℕ) (m : List (List K)) (hm : ValidLogp c m) (r : Row K C) (B : K)
    (hr : ∀ l ∈ r.live, l.1 ≤ B) (x : Cand K) (hx : x ∈ cands c cur 0 m r) : x.lp ≤ B := by
  obtain ⟨e, n, l, lv, y, _, rfl, h1, _, _, hy, he⟩ := mem_cands c hc cur 0 m hm r x hx
  unfold mkCand
  dsimp only
  have := hr l (List.mem_of_getElem? h1)
  rw [if_pos rfl, he]; linarith

/-- Invariant of a row. -/
structure Inv (c : Cfg K) (n : ℕ) (r : Row K C) : Prop where
  liveLen : r.live.length = c.k
  liveNonpos : ∀ l ∈ r.live, l.1 ≤ 0
  liveAsc : 0 < n → r.live.Pairwise (fun a b => a.1 ≤ b.1)
  finLen : r.fin.length = c.k
  finAsc : r.fin.Pairwise (fun a b => a.1 ≤ b.1)

theorem inv_init (c : Cfg K) (hc : Good c) (first : ℕ) (ch : C) : Inv c 0 (initRow c first ch) := by
  refine ⟨?_, ?_, by simp, ?_, ?_⟩
  · simp [initRow]; have := hc.k; omega
  · intro l hl
    simp only [initRow, List.map_cons, List.map_replicate, List.mem_cons, List.mem_replicate] at hl
    rcases hl with rfl | ⟨_, rfl⟩
    · exact le_rfl
    · exact hc.neg.le
  · simp [initRow]
  · simp [initRow, List.pairwise_replicate]

theorem inv_body (c : Cfg K) (hc : Good c) (inp : RowIn) (n : ℕ) (m : List (List K)) (hm : ValidLogp c m) (nc : List C) (r : Row K C)
    (h : Inv c n r) : Inv c (n + 1) (rowBody c inp n m nc r) := by
  have hlen := cands_length c hc n (nextTok inp.inputs n) m hm r h.liveLen
  refine ⟨?_, ?_, ?_, ?_, ?_⟩
  · show ((gatherTop _ _ _).map _).length = _
    rw [List.length_map, gatherTop_length, hlen]; omega
  · intro l hl
    obtain ⟨x, hx, rfl⟩ := List.mem_map.1 hl
    have := cand_nonpos c hc n _ m hm r h.liveNonpos x (gatherTop_mem _ _ _ hx)
    have := hc.neg.le
    unfold liveKey
    dsimp only
    split_ifs <;> linarith
  · intro _
    show ((gatherTop _ _ _).map _).Pairwise _
    rw [List.pairwise_map]
    exact gatherTop_sorted _ _ _
  · show (gatherTop _ _ _).length = _
    rw [gatherTop_length, List.length_append, List.length_map, hlen, h.finLen]; omega
  · exact gatherTop_sorted _ _ _

theorem inv_iter (c : Cfg K) (hc : Good c) (inp : RowIn) (first : ℕ) (ch : C) (o : ℕ → Row K C → List (List K) × List C)
    (ho : ∀ n r, r.live.length = c.k → ValidLogp c (o n r).1) (n : ℕ) : Inv c n (rowIter c inp first ch o n) := by
  induction n with
  | zero => exact inv_init c hc first ch
  | succ n ih => exact inv_body c hc inp n _ (ho n _ ih.liveLen) _ _ ih

/-- The best live entry is the last one. -/
theorem live_le_last {c : Cfg K} {n : ℕ} {r : Row K C} (h : Inv c n r) (hn : 0 < n) (l : K × List ℕ) (hl : l ∈ r.live) :
    l.1 ≤ (r.live.getLast?.map (·.1)).getD 0 := by
  have hne : r.live ≠ [] := List.ne_nil_of_mem hl
  rw [List.getLast?_eq_getLast_of_ne_nil hne]
  simp only [Option.map_some, Option.getD_some]
  have := h.liveAsc hn
  rw [← List.dropLast_append_getLast hne, List.pairwise_append] at this
  rw [← List.dropLast_append_getLast hne] at hl
  rcases List.mem_append.1 hl with hl | hl
  · exact this.2.2 l hl _ (List.mem_singleton.2 rfl)
  · rw [List.mem_singleton.1 hl]

theorem min_le_mem (l : List K) (x : K) (hx : x ∈ l) : l.min?.getD 0 ≤ x := by
  cases h : l.min? with
  | none => rw [List.min?_eq_none_iff] at h; rw [h] at hx; cases hx
  | some a =>
    rw [List.min?_eq_some_iff] at h
    exact h.2 x hx

/-- What a terminated row says about its slots. -/
theorem terminated_iff {c : Cfg K} {r : Row K C} (h : rowTerminated c r = true) (g : K × List ℕ × Bool) (hg : g ∈ r.fin) :
    (g.2.2 = true → (r.live.getLast?.map (·.1)).getD 0 / c.bp c.maxLen < g.1) ∧
    (g.2.2 = false → (r.live.getLast?.map (·.1)).getD 0 / c.bp c.maxLen < c.negInf) := by
  unfold rowTerminated at h
  dsimp only at h
  have := List.all_eq_true.1 h g hg
  rw [decide_eq_true_eq] at this
  constructor
  · intro hf
    rw [hf, if_pos rfl] at this
    exact lt_of_lt_of_le this (min_le_mem _ _ (List.mem_map_of_mem hg))
  · intro hf
    rw [hf] at this
    simpa using this

/-- A row is never terminated before the first iteration. -/
theorem not_terminated_init (c : Cfg K) (hc : Good c) (first : ℕ) (ch : C) : rowTerminated c (initRow c first ch) = false := by
  rw [← Bool.not_eq_true]
  intro h
  have hk := hc.k
  have hg : ((c.negInf, List.replicate c.maxLen 0, false) : K × List ℕ × Bool) ∈ (initRow c first ch).fin := by
    simp [initRow]; omega
  have := (terminated_iff h _ hg).2 rfl
  have hlast : c.negInf ≤ ((initRow c first ch).live.getLast?.map (·.1)).getD 0 := by
    have hne : (initRow c first ch).live ≠ [] := by simp [initRow]
    rw [List.getLast?_eq_getLast_of_ne_nil hne]
    have hm := List.getLast_mem hne
    simp only [Option.map_some, Option.getD_some]
    generalize (initRow c first ch).live.getLast hne = z at hm
    simp only [initRow, List.map_cons, List.map_replicate, List.mem_cons, List.mem_replicate] at hm
    rcases hm with rfl | ⟨_, rfl⟩
    · exact hc.neg.le
    · exact le_rfl
  have h1 : c.negInf ≤ ((initRow c first ch).live.getLast?.map (·.1)).getD 0 / c.bp c.maxLen := by
    rw [le_div_iff₀ (hc.pos _)]
    have := mul_le_mul_of_nonpos_left hc.one hc.neg.le
    linarith
  linarith

/-- The score of anything finished after the state with best live log-prob B. -/
theorem div_bound (c : Cfg K) (hc : Good c) (B lp : K) (hB : B ≤ 0) (h : lp ≤ B) (len : ℕ) (hl : len ≤ c.maxLen) :
    lp / c.bp len ≤ B / c.bp c.maxLen := by
  have h1 : lp / c.bp len ≤ B / c.bp len := div_le_div_of_nonneg_right h (hc.pos _).le
  have h2 : B / c.bp len ≤ B / c.bp c.maxLen := by
    rw [div_le_div_iff₀ (hc.pos _) (hc.pos _)]
    exact mul_le_mul_of_nonpos_left (hc.mono _ _ hl) hB
  linarith

section future
variable (c : Cfg K) (hc : Good c) (inp : RowIn) (first : ℕ) (ch : C) (o : ℕ → Row K C → List (List K) × List C)
  (ho : ∀ n r, r.live.length = c.k → ValidLogp c (o n r).1)
include hc ho

/-- From a state on, outside the prompt, the live beams stay below the best live beam. -/
theorem live_stays (n : ℕ) (hp : ∀ i, n ≤ i → nextTok inp.inputs i = 0) (B : K)
    (hB : ∀ l ∈ (rowIter c inp first ch o n).live, l.1 ≤ B) (m : ℕ) :
    ∀ l ∈ (rowIter c inp first ch o (n + m)).live, l.1 ≤ B := by
  induction m with
  | zero => exact hB
  | succ m ih =>
    intro l hl
    have hi := inv_iter c hc inp first ch o ho (n + m)
    change l ∈ (rowBody c inp (n + m) _ _ (rowIter c inp first ch o (n + m))).live at hl
    obtain ⟨x, hx, rfl⟩ := List.mem_map.1 hl
    have hx := gatherTop_mem _ _ _ hx
    rw [hp (n + m) (by omega)] at hx
    have := cand_le c hc (n + m) _ (ho _ _ hi.liveLen) _ B ih x hx
    have := hc.neg.le
    unfold liveKey
    dsimp only
    split_ifs <;> linarith

/-- C08: suppose the termination test holds for a row after n iterations and the prompt is over.  Whatever
the decoder answers from then on, for any number m of further iterations within the maximal length, every
finished entry of the row is one that was already there, or an empty slot, or has a score below every
finished entry of the terminated state (and, if that state still had an empty slot, below NEG_INF). -/
theorem C08_bound (n m : ℕ) (hp : ∀ i, n ≤ i → nextTok inp.inputs i = 0)
    (hlen : inp.initialIndex + (n + m) ≤ c.maxLen)
    (ht : rowTerminated c (rowIter c inp first ch o n) = true) :
    ∀ f ∈ (rowIter c inp first ch o (n + m)).fin, f ∈ (rowIter c inp first ch o n).fin ∨ f.2.2 = false ∨
      ∀ g ∈ (rowIter c inp first ch o n).fin, (g.2.2 = true → f.1 < g.1) ∧ (g.2.2 = false → f.1 < c.negInf) := by
  have hn : 0 < n := by
    rcases Nat.eq_zero_or_pos n with h0 | h0
    · subst h0
      exact absurd ht (by rw [show rowIter c inp first ch o 0 = initRow c first ch from rfl, not_terminated_init c hc]; simp)
    · exact h0
  have hi := inv_iter c hc inp first ch o ho n
  set B := ((rowIter c inp first ch o n).live.getLast?.map (·.1)).getD 0 with hBdef
  have hB : ∀ l ∈ (rowIter c inp first ch o n).live, l.1 ≤ B := fun l hl => live_le_last hi hn l hl
  have hB0 : B ≤ 0 := by
    rw [hBdef]
    have hne : (rowIter c inp first ch o n).live ≠ [] := by
      intro h; have := hi.liveLen; rw [h] at this; have := hc.k; simp at *; omega
    rw [List.getLast?_eq_getLast_of_ne_nil hne]
    exact hi.liveNonpos _ (List.getLast_mem hne)
  induction m with
  | zero => intro f hf; exact Or.inl hf
  | succ m ih =>
    intro f hf
    have hi' := inv_iter c hc inp first ch o ho (n + m)
    change f ∈ (rowBody c inp (n + m) _ _ (rowIter c inp first ch o (n + m))).fin at hf
    have hf := gatherTop_mem _ _ _ hf
    rcases List.mem_append.1 hf with hf | hf
    · exact ih (by omega) f hf
    · obtain ⟨x, hx, rfl⟩ := List.mem_map.1 hf
      right
      by_cases hd : x.done = true
      · right
        rw [hp (n + m) (by omega)] at hx
        have hle := cand_le c hc (n + m) _ (ho _ _ hi'.liveLen) _ B (live_stays c hc inp first ch o ho n hp B hB m) x hx
        have hb := div_bound c hc B x.lp hB0 hle (inp.initialIndex + (n + m + 1)) (by omega)
        intro g hg
        have := terminated_iff ht g hg
        dsimp only
        unfold score
        rw [hd, if_pos rfl, add_zero]
        exact ⟨fun h => lt_of_le_of_lt hb (this.1 h), fun h => lt_of_le_of_lt hb (this.2 h)⟩
      · left
        simpa using hd

/-- C08: if moreover every slot of the terminated row holds a finished sequence, then further iterations
change nothing: the same entries remain (entries of equal score may change places). -/
theorem C08_early_stop (n m : ℕ) (hp : ∀ i, n ≤ i → nextTok inp.inputs i = 0)
    (hlen : inp.initialIndex + (n + m) ≤ c.maxLen)
    (ht : rowTerminated c (rowIter c inp first ch o n) = true)
    (hfull : ∀ g ∈ (rowIter c inp first ch o n).fin, g.2.2 = true) :
    (rowIter c inp first ch o (n + m)).fin.Perm (rowIter c inp first ch o n).fin ∧
    (rowIter c inp first ch o (n + m)).fin.map (·.1) = (rowIter c inp first ch o n).fin.map (·.1) := by
  have hi := inv_iter c hc inp first ch o ho n
  have hperm : (rowIter c inp first ch o (n + m)).fin.Perm (rowIter c inp first ch o n).fin := by
    have hn : 0 < n := by
      rcases Nat.eq_zero_or_pos n with h0 | h0
      · subst h0
        exact absurd ht (by rw [show rowIter c inp first ch o 0 = initRow c first ch from rfl, not_terminated_init c hc]; simp)
      · exact h0
    set B := ((rowIter c inp first ch o n).live.getLast?.map (·.1)).getD 0 with hBdef
    have hB : ∀ l ∈ (rowIter c inp first ch o n).live, l.1 ≤ B := fun l hl => live_le_last hi hn l hl
    have hB0 : B ≤ 0 := by
      rw [hBdef]
      have hne : (rowIter c inp first ch o n).live ≠ [] := by
        intro h; have := hi.liveLen; rw [h] at this; have := hc.k; simp at *; omega
      rw [List.getLast?_eq_getLast_of_ne_nil hne]
      exact hi.liveNonpos _ (List.getLast_mem hne)
    induction m with
    | zero => exact List.Perm.refl _
    | succ m ih =>
      have ih := ih (by omega)
      have hi' := inv_iter c hc inp first ch o ho (n + m)
      refine List.Perm.trans ?_ ih
      rw [show n + (m + 1) = (n + m) + 1 from rfl, rowIter]
      show (gatherTop (_ ++ _) _ _).Perm _
      apply gatherTop_stable _ _ _ _ hi'.finLen
      intro g hg f hf
      obtain ⟨x, hx, rfl⟩ := List.mem_map.1 hf
      have hg := ih.mem_iff.1 hg
      rw [hp (n + m) (by omega)] at hx
      have hle := cand_le c hc (n + m) _ (ho _ _ hi'.liveLen) _ B (live_stays c hc inp first ch o ho n hp B hB m) x hx
      have hb := div_bound c hc B x.lp hB0 hle (inp.initialIndex + (n + m + 1)) (by omega)
      have hw := (terminated_iff ht g hg).1 (hfull g hg)
      have := hc.neg
      dsimp only
      unfold score
      split_ifs <;> linarith
  refine ⟨hperm, ?_⟩
  have h1 := (inv_iter c hc inp first ch o ho (n + m)).finAsc
  have h2 := hi.finAsc
  exact (hperm.map (·.1)).eq_of_pairwise' (List.pairwise_map.2 h1) (List.pairwise_map.2 h2)
end future

section batch
variable (c : Cfg K) (ins : List RowIn) (firsts : List (ℕ × C)) (o : Oracle K C)

/-- The decoder seen by batch row i. -/
def rowOracle (i : ℕ) : ℕ → Row K C → List (List K) × List C := fun n _ => (o (iter c ins firsts o n)).getD i ([], [])

omit [IsStrictOrderedRing K] in
theorem iter_cur (n : ℕ) : (iter c ins firsts o n).cur = n := by
  induction n with
  | zero => rfl
  | succ n ih => show (iter c ins firsts o n).cur + 1 = _; rw [ih]

omit [IsStrictOrderedRing K] in
/-- Batch rows do not influence each other, except through the loop condition and the decoder. -/
theorem iter_row (hf : firsts.length = ins.length) (ho : ∀ s, (o s).length = ins.length) (i : ℕ) (inp : RowIn) (first : ℕ) (ch : C)
    (h1 : ins[i]? = some inp) (h2 : firsts[i]? = some (first, ch)) (n : ℕ) :
    (iter c ins firsts o n).rows[i]? = some (rowIter c inp first ch (rowOracle c ins firsts o i) n) := by
  induction n with
  | zero => simp [iter, init, rowIter, h2]
  | succ n ih =>
    have hi := (List.getElem?_eq_some_iff.1 h1).1
    have hoi : (o (iter c ins firsts o n))[i]? = some ((o (iter c ins firsts o n)).getD i ([], [])) := by
      rw [List.getD_eq_getElem?_getD, List.getElem?_eq_getElem (by rw [ho]; exact hi)]; rfl
    show (((ins.zip (o _)).zip (iter c ins firsts o n).rows).map _)[i]? = _
    have hz : ((ins.zip (o (iter c ins firsts o n))).zip (iter c ins firsts o n).rows)[i]? =
        some ((inp, (o (iter c ins firsts o n)).getD i ([], [])), rowIter c inp first ch (rowOracle c ins firsts o i) n) :=
      List.getElem?_zip_eq_some.2 ⟨List.getElem?_zip_eq_some.2 ⟨h1, hoi⟩, ih⟩
    rw [List.getElem?_map, hz, iter_cur]
    rfl

omit [IsStrictOrderedRing K] in
/-- The while loop runs some number of iterations, the condition held before each of them, and unless the
fuel ran out it does not hold any more. -/
theorem loop_iter (fuel : ℕ) (k : ℕ) : ∃ n, loop c ins o fuel (iter c ins firsts o k) = iter c ins firsts o (k + n) ∧ n ≤ fuel ∧
    (∀ j < n, cond c ins (iter c ins firsts o (k + j)) = true) ∧
    (n < fuel → cond c ins (iter c ins firsts o (k + n)) = false) := by
  induction fuel generalizing k with
  | zero => exact ⟨0, rfl, le_rfl, by simp, by simp⟩
  | succ f ih =>
    by_cases hcnd : cond c ins (iter c ins firsts o k) = true
    · obtain ⟨n, h1, h2, h3, h4⟩ := ih (k + 1)
      refine ⟨n + 1, ?_, by omega, ?_, ?_⟩
      · rw [loop, if_pos hcnd, show body c ins o (iter c ins firsts o k) = iter c ins firsts o (k + 1) from rfl, h1]
        congr 1; omega
      · intro j hj
        cases j with
        | zero => exact hcnd
        | succ j => have := h3 j (by omega); rwa [show k + (j + 1) = k + 1 + j by omega]
      · intro h
        have := h4 (by omega)
        rwa [show k + (n + 1) = k + 1 + n by omega]
    · refine ⟨0, ?_, by omega, by simp, fun _ => by simpa using hcnd⟩
      rw [loop, if_neg hcnd]; rfl

/-- C08, whole search: the search stops after some number n of iterations.  If it stopped because every
row was terminated, then for every row whose prompt is over and whose slots are all finished, running the
loop body any number of further times, within the maximal length of that row, would give the same beams
with the same scores. -/
theorem C08_batch (hc : Good c) (hf : firsts.length = ins.length) (ho : ∀ s, (o s).length = ins.length)
    (hv : ∀ s, ∀ m ∈ o s, ValidLogp c m.1) (fuel : ℕ) :
    ∃ n, loop c ins o fuel (init c firsts) = iter c ins firsts o n ∧
      (((iter c ins firsts o n).rows.all (rowTerminated c)) = true →
        ∀ (i : ℕ) (inp : RowIn) (r : Row K C), ins[i]? = some inp → (iter c ins firsts o n).rows[i]? = some r →
          (∀ j, n ≤ j → nextTok inp.inputs j = 0) → (∀ g ∈ r.fin, g.2.2 = true) →
          ∀ m, inp.initialIndex + (n + m) ≤ c.maxLen → ∃ r', (iter c ins firsts o (n + m)).rows[i]? = some r' ∧
            r'.fin.Perm r.fin ∧ r'.fin.map (·.1) = r.fin.map (·.1)) := by
  obtain ⟨n, h1, _⟩ := loop_iter c ins firsts o fuel 0
  rw [Nat.zero_add] at h1
  refine ⟨n, h1, ?_⟩
  intro ht i inp r hi hr hp hfull m hm
  have hlt : i < firsts.length := by rw [hf]; exact (List.getElem?_eq_some_iff.1 hi).1
  have hfi : firsts[i]? = some firsts[i] := List.getElem?_eq_getElem hlt
  have e1 := iter_row c ins firsts o hf ho i inp _ _ hi hfi n
  have e2 := iter_row c ins firsts o hf ho i inp _ _ hi hfi (n + m)
  have hrt := List.all_eq_true.1 ht r (List.mem_of_getElem? hr)
  rw [e1] at hr
  obtain rfl := Option.some.inj hr
  refine ⟨_, e2, ?_⟩
  apply C08_early_stop c hc inp _ _ _ _ n m hp hm hrt hfull
  intro k r' _
  apply hv (iter c ins firsts o k)
  unfold rowOracle
  rw [List.getD_eq_getElem?_getD, List.getElem?_eq_getElem (by rw [ho]; exact (List.getElem?_eq_some_iff.1 hi).1)]
  exact List.getElem_mem _

omit [IsStrictOrderedRing K] in
/-- C08, with one initial index for all rows (or none) the loop never leaves the maximal length, so the
length condition of the theorems above holds for every m the loop could still run. -/
theorem C08_length (fuel : ℕ) (a : ℕ) (h : ∀ inp ∈ ins, inp.initialIndex = a) (hne : ins ≠ []) :
    ∃ n, loop c ins o fuel (init c firsts) = iter c ins firsts o n ∧ (n = 0 ∨ a + n ≤ c.maxLen - 1) := by
  obtain ⟨n, h1, _, h3, _⟩ := loop_iter c ins firsts o fuel 0
  rw [Nat.zero_add] at h1
  refine ⟨n, h1, ?_⟩
  cases n with
  | zero => left; rfl
  | succ n =>
    right
    have := h3 n (by omega)
    unfold cond at this
    simp only [Bool.and_eq_true, decide_eq_true_eq, Nat.zero_add, iter_cur] at this
    have hmin : (ins.map (·.initialIndex)).min?.getD 0 = a := by
      have : ins.map (·.initialIndex) = List.replicate ins.length a := by
        rw [List.eq_replicate_iff]
        refine ⟨by simp, ?_⟩
        intro b hb
        obtain ⟨inp, hi, rfl⟩ := List.mem_map.1 hb
        exact h inp hi
      rw [this, List.min?_replicate]
      have : ins.length ≠ 0 := by simpa using hne
      simp [this]
    rw [hmin] at this
    omega
end batch

end Verif.Beam
