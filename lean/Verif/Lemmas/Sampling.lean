import Verif.Spec.Sampling
import Mathlib.Data.List.Count
/-
Single-row analysis of the sampling loop.
-/
namespace Verif.Sampling
open Spec
variable {P : Type} [AddCommMonoid P]

theorem count_gt_iff (e : Int) : ∀ (a b : List Int), a.length = b.length →
    (∀ j : Nat, a[j]? = some e → b[j]? = some e) →
    (b.count e > a.count e ↔ ∃ j : Nat, b[j]? = some e ∧ a[j]? ≠ some e) := by
  intro a
  induction a with
  | nil => intro b h _; cases b <;> simp_all
  | cons x a ih =>
    intro b h hs
    cases b with
    | nil => simp at h
    | cons y b =>
      have hl : a.length = b.length := by simpa using h
      have hs' : ∀ j : Nat, a[j]? = some e → b[j]? = some e := fun j hj => by
        have := hs (j + 1) (by simpa using hj)
        simpa using this
      have ih' := ih b hl hs'
      have hle : a.count e ≤ b.count e := by
        clear ih ih' hs h
        induction a generalizing b with
        | nil => simp
        | cons z a ih2 =>
          cases b with
          | nil => simp at hl
          | cons w b =>
            have h0 := hs' 0
            have := ih2 b (by simpa using hl) (fun j hj => by
              have := hs' (j + 1) (by simpa using hj)
              simpa using this)
            simp only [List.getElem?_cons_zero, Option.some.injEq] at h0
            simp only [List.count_cons]
            by_cases hz : z = e
            · simp [hz, h0 hz, this]
            · simp only [beq_iff_eq, hz, if_false]; omega
      have h0 := hs 0
      simp only [List.getElem?_cons_zero, Option.some.injEq] at h0
      simp only [List.count_cons, beq_iff_eq]
      constructor
      · intro hgt
        by_cases hy : y = e ∧ x ≠ e
        · exact ⟨0, by simp [hy.1], by simp [hy.2]⟩
        · have hb : b.count e > a.count e := by
            by_cases hx : x = e
            · have := h0 hx; simp [hx, this] at hgt; exact hgt
            · have hy' : y ≠ e := fun h => hy ⟨h, hx⟩
              simp [hx, hy'] at hgt; exact hgt
          obtain ⟨j, h1, h2⟩ := ih'.1 hb
          exact ⟨j + 1, by simpa using h1, by simpa using h2⟩
      · rintro ⟨j, h1, h2⟩
        cases j with
        | zero =>
          simp only [List.getElem?_cons_zero, Option.some.injEq, ne_eq] at h1 h2
          simp only [h1, h2, if_true, if_false]; omega
        | succ j =>
          have hb := ih'.2 ⟨j, by simpa using h1, by simpa using h2⟩
          by_cases hx : x = e
          · simp only [hx, h0 hx, if_true]; omega
          · simp only [hx, if_false]; omega

theorem getD_some {l : List Int} {j : Nat} (h : j < l.length) : l[j]? = some (l.getD j 0) := by
  simp [List.getD, h]

theorem getD_set (l : List Int) (a j : Nat) (v : Int) (h : a < l.length) :
    (l.set a v).getD j 0 = if j = a then v else l.getD j 0 := by
  simp only [List.getD, List.getElem?_set]
  by_cases hj : a = j
  · subst hj; simp [h]
  · have : j ≠ a := fun h => hj h.symm
    simp [hj, this]

/-- A row driven by a stream of samples. -/
def rowRun (eos : Int) (r : Inp) (s : Nat → Int × P) : Nat → Row P
  | 0 => initRow eos r
  | n + 1 => stepRow eos (rowRun eos r s n) (s n)

/-- An end marker was sampled for a position between the prompt and `j`. -/
def EosBefore (p i0 : Nat) (eos : Int) (s : Nat → Int × P) (j : Nat) : Prop :=
  ∃ k, p < i0 + k + 1 ∧ i0 + k + 1 < j ∧ (s k).1 = eos

open Classical in
structure Inv (r : Inp) (p i0 m : Nat) (eos : Int) (s : Nat → Int × P) (n : Nat) (row : Row P) : Prop where
  len : row.seq.length = r.toks.length + 2
  mx : row.maxLen = m
  e0 : row.eosCount0 = (r.toks ++ [0, 0]).count eos
  cur : row.curIndex = min (i0 + n) (m + 1)
  seq : ∀ j, j < r.toks.length + 2 → row.seq.getD j 0 =
    if i0 < j ∧ j ≤ i0 + n ∧ j ≤ m ∧ p < j ∧ ¬ EosBefore p i0 eos s j then (s (j - 1 - i0)).1
    else (r.toks ++ [0, 0]).getD j 0
  ended : row.ended = true ↔ (0 < n ∧ m ≤ i0 + n) ∨ EosBefore p i0 eos s (min (i0 + n) m + 1)
  logp : row.logProb = ∑ k ∈ Finset.range n,
    if p < i0 + k + 1 ∧ i0 + k + 1 ≤ m ∧ ¬ EosBefore p i0 eos s (i0 + k + 1) then (s k).2 else 0

theorem pad_getD {toks : List Int} {p : Nat} (hp : RightPadded toks p) (j : Nat) :
    (toks ++ [0, 0]).getD j 0 = toks.getD j 0 := by
  simp only [List.getD, List.getElem?_append]
  by_cases h : j < toks.length
  · simp [h]
  · simp only [h, if_false]
    rw [List.getElem?_eq_none (by omega : toks.length ≤ j)]
    rcases h2 : j - toks.length with _ | _ | k <;> simp

theorem maxLen_le (r : Inp) : maxDecodeLen r ≤ r.toks.length := by
  unfold maxDecodeLen; split <;> omega

theorem le_maxLen (r : Inp) {p : Nat} (hp : RightPadded r.toks p) : p ≤ maxDecodeLen r := by
  unfold maxDecodeLen
  split
  · exact hp.lt.le
  · next m _ =>
    have h1 : ((r.toks.drop 1).take p).length = p := by
      have := hp.lt
      simp; omega
    have h2 : ((r.toks.drop 1).take p).filter (fun x => decide (x ≠ 0)) = (r.toks.drop 1).take p := by
      rw [List.filter_eq_self]
      intro a ha
      rw [List.mem_take_iff_getElem] at ha
      obtain ⟨i, hi, rfl⟩ := ha
      have hi' : i < p := by omega
      have := hp.prompt (i + 1) (by omega) (by omega)
      rw [List.getElem_drop]
      have hlt : 1 + i < r.toks.length := by have := hp.lt; omega
      have h3 : r.toks.getD (i + 1) 0 = r.toks[1 + i] := by
        have : i + 1 = 1 + i := by omega
        rw [this]; simp [List.getD, hlt]
      rw [h3] at this
      simpa using this
    have h3 : (((r.toks.drop 1).take p).filter (fun x => decide (x ≠ 0))).length ≤
        (r.toks.filter (fun x => decide (x ≠ 0))).length :=
      List.Sublist.length_le (List.Sublist.filter _ ((List.take_sublist _ _).trans (List.drop_sublist _ _)))
    rw [h2, h1] at h3
    have := hp.lt
    omega

open Classical in
theorem inv_run (eos : Int) (he : eos ≠ 0) (r : Inp) (s : Nat → Int × P) (p : Nat) (hp : RightPadded r.toks p)
    (i0 m : Nat) (hi : i0 = r.initialIndex.getD 0) (hm : m = maxDecodeLen r) (him : i0 < m) (n : Nat) :
    Inv r p i0 m eos s n (rowRun eos r s n) := by
  have hmL : m ≤ r.toks.length := hm ▸ maxLen_le r
  have hpm : p ≤ m := hm ▸ le_maxLen r hp
  induction n with
  | zero =>
    refine ⟨by simp [rowRun, initRow], by simp [rowRun, initRow, hm], by simp [rowRun, initRow],
      by simp [rowRun, initRow, ← hi]; omega, ?_, ?_, by simp [rowRun, initRow]⟩
    · intro j hj
      rw [if_neg (by omega)]
      simp [rowRun, initRow]
    · simp only [rowRun, initRow, Bool.false_eq_true, false_iff, not_or]
      refine ⟨by omega, ?_⟩
      rintro ⟨k, h1, h2, h3⟩
      omega
  | succ n ih =>
    rw [rowRun]
    generalize hrow : rowRun eos r s n = row at ih
    have hcnt : ∀ v : Int, (row.seq.set (min (i0 + n) m + 1) v).length = r.toks.length + 2 := by
      intro v; rw [List.length_set, ih.len]
    have hmin : min row.curIndex row.maxLen = min (i0 + n) m := by rw [ih.cur, ih.mx]; omega
    have hseqJ := ih.seq (min (i0 + n) m + 1) (by omega)
    by_cases hA : i0 + n < m
    · -- still below the limit
      have hJ : min (i0 + n) m = i0 + n := by omega
      have hnext : row.seq.getD (i0 + n + 1) 0 = r.toks.getD (i0 + n + 1) 0 := by
        rw [hJ, if_neg (by omega), pad_getD hp] at hseqJ; exact hseqJ
      have hend : row.ended = true ↔ EosBefore p i0 eos s (i0 + n + 1) := by
        rw [ih.ended, hJ]
        constructor
        · rintro (h | h)
          · omega
          · exact h
        · exact Or.inr
      -- the emitted token
      have hseq' : ∀ v : Int, v = (if p < i0 + n + 1 ∧ ¬ EosBefore p i0 eos s (i0 + n + 1) then (s n).1
            else r.toks.getD (i0 + n + 1) 0) →
          ∀ j, j < r.toks.length + 2 → (row.seq.set (i0 + n + 1) v).getD j 0 =
          if i0 < j ∧ j ≤ i0 + (n + 1) ∧ j ≤ m ∧ p < j ∧ ¬ EosBefore p i0 eos s j then (s (j - 1 - i0)).1
          else (r.toks ++ [0, 0]).getD j 0 := by
        intro v hv j hj
        rw [getD_set _ _ _ _ (by rw [ih.len]; omega)]
        by_cases hje : j = i0 + n + 1
        · rw [if_pos hje, hv, hje, pad_getD hp]
          have : i0 + n + 1 - 1 - i0 = n := by omega
          rw [this]
          by_cases hc : p < i0 + n + 1 ∧ ¬ EosBefore p i0 eos s (i0 + n + 1)
          · rw [if_pos hc, if_pos ⟨by omega, by omega, by omega, hc.1, hc.2⟩]
          · rw [if_neg hc, if_neg (fun h => hc ⟨h.2.2.2.1, h.2.2.2.2⟩)]
        · rw [if_neg hje, ih.seq j hj]
          have h1 : (i0 < j ∧ j ≤ i0 + n ∧ j ≤ m ∧ p < j ∧ ¬ EosBefore p i0 eos s j) ↔
              (i0 < j ∧ j ≤ i0 + (n + 1) ∧ j ≤ m ∧ p < j ∧ ¬ EosBefore p i0 eos s j) := by
            constructor
            · rintro ⟨a, b, c⟩; exact ⟨a, by omega, c⟩
            · rintro ⟨a, b, c⟩; exact ⟨a, by omega, c⟩
          by_cases hc : (i0 < j ∧ j ≤ i0 + n ∧ j ≤ m ∧ p < j ∧ ¬ EosBefore p i0 eos s j)
          · rw [if_pos hc, if_pos (h1.1 hc)]
          · rw [if_neg hc, if_neg (fun h => hc (h1.2 h))]
      have hemit : (if row.ended = true then (0 : Int) else
          if row.seq.getD (i0 + n + 1) 0 = 0 then (s n).1 else row.seq.getD (i0 + n + 1) 0) =
          (if p < i0 + n + 1 ∧ ¬ EosBefore p i0 eos s (i0 + n + 1) then (s n).1
            else r.toks.getD (i0 + n + 1) 0) := by
        rw [hnext]
        by_cases hpj : p < i0 + n + 1
        · rw [hp.pad _ hpj]
          by_cases hE : EosBefore p i0 eos s (i0 + n + 1)
          · rw [if_pos (hend.2 hE), if_neg (fun h => h.2 hE)]
          · rw [if_neg (fun h => hE (hend.1 h)), if_pos rfl, if_pos ⟨hpj, hE⟩]
        · have hE : ¬ EosBefore p i0 eos s (i0 + n + 1) := by
            rintro ⟨k, h1, h2, _⟩; omega
          rw [if_neg (fun h => hE (hend.1 h)), if_neg (hp.prompt _ (by omega) (by omega)),
            if_neg (fun h => hpj h.1)]
      unfold stepRow
      simp only [hmin, hJ]
      refine ⟨by rw [List.length_set, ih.len], ih.mx, ih.e0, (by show i0 + n + 1 = _; omega), hseq' _ hemit, ?_, ?_⟩
      · -- ended
        have hcount : (row.seq.set (i0 + n + 1) (if row.ended = true then (0 : Int) else
            if row.seq.getD (i0 + n + 1) 0 = 0 then (s n).1 else row.seq.getD (i0 + n + 1) 0)).count eos >
            row.eosCount0 ↔ ∃ j, (i0 < j ∧ j ≤ i0 + (n + 1) ∧ j ≤ m ∧ p < j ∧ ¬ EosBefore p i0 eos s j) ∧
              (s (j - 1 - i0)).1 = eos := by
          rw [ih.e0]
          have hlen : (r.toks ++ [0, 0]).length = (row.seq.set (i0 + n + 1) (if row.ended = true then (0 : Int) else
            if row.seq.getD (i0 + n + 1) 0 = 0 then (s n).1 else row.seq.getD (i0 + n + 1) 0)).length := by
            rw [List.length_set, ih.len]; simp
          have hL : (r.toks ++ [0, 0]).length = r.toks.length + 2 := by simp
          have hS := hseq' _ hemit
          generalize hsq : (row.seq.set (i0 + n + 1) (if row.ended = true then (0 : Int) else
            if row.seq.getD (i0 + n + 1) 0 = 0 then (s n).1 else row.seq.getD (i0 + n + 1) 0)) = sq at *
          rw [count_gt_iff eos _ _ hlen]
          · constructor
            · rintro ⟨j, h1, h2⟩
              have hj : j < sq.length := by
                rw [List.getElem?_eq_some_iff] at h1; exact h1.1
              rw [getD_some hj, Option.some.injEq, hS j (by omega)] at h1
              rw [getD_some (by omega), ne_eq, Option.some.injEq] at h2
              by_cases hc : (i0 < j ∧ j ≤ i0 + (n + 1) ∧ j ≤ m ∧ p < j ∧ ¬ EosBefore p i0 eos s j)
              · rw [if_pos hc] at h1; exact ⟨j, hc, h1⟩
              · rw [if_neg hc] at h1; exact absurd h1 h2
            · rintro ⟨j, hc, h1⟩
              refine ⟨j, ?_, ?_⟩
              · rw [getD_some (by omega), hS j (by omega), if_pos hc, h1]
              · rw [getD_some (by omega), pad_getD hp, hp.pad j hc.2.2.2.1, ne_eq, Option.some.injEq]
                exact fun h => he h.symm
          · intro j hj
            have hjl : j < (r.toks ++ [0, 0]).length := by
              rw [List.getElem?_eq_some_iff] at hj; exact hj.1
            rw [getD_some hjl, Option.some.injEq] at hj
            rw [getD_some (by omega), hS j (by omega), Option.some.injEq]
            by_cases hc : (i0 < j ∧ j ≤ i0 + (n + 1) ∧ j ≤ m ∧ p < j ∧ ¬ EosBefore p i0 eos s j)
            · rw [pad_getD hp, hp.pad j hc.2.2.2.1] at hj
              exact absurd hj.symm he
            · rw [if_neg hc]; exact hj
        rw [Bool.or_eq_true, Bool.or_eq_true, decide_eq_true_eq, decide_eq_true_eq, hcount, ih.mx, hend]
        have hJ' : min (i0 + (n + 1)) m = i0 + n + 1 := by omega
        rw [hJ']
        constructor
        · rintro ((⟨k, h1, h2, h3⟩ | ⟨j, ⟨h1, h2, h3, h4, h5⟩, h6⟩) | h)
          · exact Or.inr ⟨k, h1, by omega, h3⟩
          · refine Or.inr ⟨j - 1 - i0, by omega, by omega, h6⟩
          · exact Or.inl ⟨by omega, by omega⟩
        · rintro (⟨_, h⟩ | ⟨k, h1, h2, h3⟩)
          · exact Or.inr (by omega)
          · refine Or.inl ?_
            by_cases hE : EosBefore p i0 eos s (i0 + n + 1)
            · exact Or.inl hE
            · refine Or.inr ⟨i0 + n + 1, ⟨by omega, by omega, by omega, ?_, hE⟩, ?_⟩
              · by_contra hc
                omega
              · have : k = n := by
                  by_contra hk
                  exact hE ⟨k, h1, by omega, h3⟩
                subst this
                have : i0 + k + 1 - 1 - i0 = k := by omega
                rw [this, h3]
      · -- log probability
        rw [Finset.sum_range_succ, ← ih.logp, hnext]
        congr 1
        have h1 : (r.toks.getD (i0 + n + 1) 0 = 0 ∧ row.ended = false) ↔
            (p < i0 + n + 1 ∧ i0 + n + 1 ≤ m ∧ ¬ EosBefore p i0 eos s (i0 + n + 1)) := by
          rw [← hend, Bool.not_eq_true]
          constructor
          · rintro ⟨a, b⟩
            refine ⟨?_, by omega, b⟩
            by_contra hc
            exact hp.prompt _ (by omega) (by omega) a
          · rintro ⟨a, _, b⟩
            exact ⟨hp.pad _ a, b⟩
        by_cases hc : (r.toks.getD (i0 + n + 1) 0 = 0 ∧ row.ended = false)
        · rw [if_pos hc, if_pos (h1.1 hc)]
        · rw [if_neg hc, if_neg (fun h => hc (h1.2 h))]
    · -- past the limit: the row has ended
      have hJ : min (i0 + n) m = m := by omega
      have hend : row.ended = true := ih.ended.2 (Or.inl ⟨by omega, by omega⟩)
      have hzero : row.seq.getD (m + 1) 0 = 0 := by
        rw [hJ, if_neg (by omega), pad_getD hp, hp.pad _ (by omega)] at hseqJ; exact hseqJ
      have hset : row.seq.set (m + 1) 0 = row.seq := by
        apply List.ext_getElem?
        intro j
        rw [List.getElem?_set]
        by_cases hj : m + 1 = j
        · subst hj
          rw [if_pos rfl, if_pos (by rw [ih.len]; omega), getD_some (by rw [ih.len]; omega), hzero]
        · rw [if_neg hj]
      unfold stepRow
      simp only [hmin, hJ, hend, if_true, hset, hzero, Bool.true_eq_false, and_false, if_false, add_zero,
        Bool.true_or]
      refine ⟨ih.len, ih.mx, ih.e0, (by show m + 1 = _; omega), ?_, ?_, ?_⟩
      · intro j hj
        rw [ih.seq j hj]
        have h1 : (i0 < j ∧ j ≤ i0 + n ∧ j ≤ m ∧ p < j ∧ ¬ EosBefore p i0 eos s j) ↔
            (i0 < j ∧ j ≤ i0 + (n + 1) ∧ j ≤ m ∧ p < j ∧ ¬ EosBefore p i0 eos s j) := by
          constructor
          · rintro ⟨a, b, c⟩; exact ⟨a, by omega, c⟩
          · rintro ⟨a, b, c, d⟩; exact ⟨a, by omega, c, d⟩
        by_cases hc : (i0 < j ∧ j ≤ i0 + n ∧ j ≤ m ∧ p < j ∧ ¬ EosBefore p i0 eos s j)
        · rw [if_pos hc, if_pos (h1.1 hc)]
        · rw [if_neg hc, if_neg (fun h => hc (h1.2 h))]
      · simp only [true_iff]
        exact Or.inl ⟨by omega, by omega⟩
      · rw [Finset.sum_range_succ, ← ih.logp, if_neg (by omega), add_zero]

end Verif.Sampling
