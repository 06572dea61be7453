import Verif.Model.Score
import Verif.Spec.Score
import Verif.Props.Sampling
import Verif.Props.KVCache
/- Sampling with a stepwise decoder whose outputs are those of a reference computation. -/
namespace Verif.Score
open Verif.Sampling Verif.Sampling.Spec Verif.KVCache Verif.Masks Spec

theorem feed_take {S Y : Type} (f : S → Int → Y × S) : ∀ (l : List Int) (s : S) (k : Nat),
    (feed f s l)[k]? = (feed f s (l.take (k + 1)))[k]? := by
  intro l
  induction l with
  | nil => intro s k; simp
  | cons t l ih =>
    intro s k
    cases k with
    | zero => simp [feed]
    | succ k =>
      simp only [List.take_succ_cons, feed, List.getElem?_cons_succ]
      exact ih _ k

/-- The state after some tokens. -/
def after {S Y : Type} (f : S → Int → Y × S) (s : S) (l : List Int) : S := l.foldl (fun s t => (f s t).2) s

theorem feed_snoc {S Y : Type} (f : S → Int → Y × S) : ∀ (l : List Int) (s : S) (t : Int),
    (feed f s (l ++ [t]))[l.length]? = some (f (after f s l) t).1 := by
  intro l
  induction l with
  | nil => intro s t; rfl
  | cons u l ih =>
    intro s t
    simp only [List.cons_append, feed, List.length_cons, List.getElem?_cons_succ]
    exact ih _ t

section
variable {S : Type} {V : Nat} (f : Nat → S → Int → (Fin V → ℝ) × S) (pick : Nat → Nat → (Fin V → ℝ) → Fin V) (eos : Int) (inps : List Inp)
  (c : Nat → S)

/-- The loop state. -/
noncomputable abbrev at' (k : Nat) : St (Nat × (Nat → S)) ℝ := stateAt eos (next f pick) (initSt eos inps (0, c)) k

/-- The token fed to row `b` in iteration `k`. -/
noncomputable def tok (b k : Nat) : Int := ((at' f pick eos inps c k).rows[b]?.map (·.curToken)).getD 0

theorem aux_at (k : Nat) : (at' f pick eos inps c k).aux =
    (k, fun b => after (f b) (c b) ((List.range k).map (tok f pick eos inps c b))) := by
  induction k with
  | zero => rfl
  | succ k ih =>
    have e : at' f pick eos inps c (k + 1) = body eos (next f pick) (at' f pick eos inps c k) := Function.iterate_succ_apply' _ _ _
    have e2 : (body eos (next f pick) (at' f pick eos inps c k)).aux = (next f pick (at' f pick eos inps c k)).1 := rfl
    rw [e, e2]
    simp only [next, ih]
    refine Prod.ext rfl (funext fun b => ?_)
    simp only [List.range_succ, List.map_append, List.map_cons, List.map_nil, after, List.foldl_append, List.foldl_cons, List.foldl_nil]
    rfl

/-- The logits of iteration `k`. -/
noncomputable def lg (b k : Nat) : Fin V → ℝ := (f b (after (f b) (c b) ((List.range k).map (tok f pick eos inps c b))) (tok f pick eos inps c b k)).1

theorem next_at (b k : Nat) : (next f pick (at' f pick eos inps c k)).2 b =
    (((pick k b (lg f pick eos inps c b k)).val : Int), logSoftmax (lg f pick eos inps c b k) (pick k b (lg f pick eos inps c b k))) := by
  have h := aux_at f pick eos inps c k
  simp only [next, h]
  rfl

theorem lg_feed (b k : Nat) : (feed (f b) (c b) ((List.range (k + 1)).map (tok f pick eos inps c b)))[k]? = some (lg f pick eos inps c b k) := by
  have := feed_snoc (f b) ((List.range k).map (tok f pick eos inps c b)) (c b) (tok f pick eos inps c b k)
  rw [List.length_map, List.length_range] at this
  rw [List.range_succ, List.map_append]
  exact this
end

/-- The current token of a row that is still within its limit is the last one written. -/
theorem curToken_run {P : Type} [AddCommMonoid P] (eos : Int) (he : eos ≠ 0) (r : Inp) (s : Nat → Int × P) (p : Nat) (hp : RightPadded r.toks p)
    (i0 m : Nat) (hi : i0 = r.initialIndex.getD 0) (hm : m = maxDecodeLen r) (him : i0 < m) (k : Nat) (hk : i0 + k < m) :
    (rowRun eos r s (k + 1)).curToken = (rowRun eos r s (k + 1)).seq.getD (i0 + k + 1) 0 := by
  have inv := inv_run eos he r s p hp i0 m hi hm him k
  have hmL : m ≤ r.toks.length := hm ▸ maxLen_le r
  have hmin : min (rowRun eos r s k).curIndex (rowRun eos r s k).maxLen = i0 + k := by rw [inv.cur, inv.mx]; omega
  show (stepRow eos (rowRun eos r s k) (s k)).curToken = (stepRow eos (rowRun eos r s k) (s k)).seq.getD (i0 + k + 1) 0
  unfold stepRow
  simp only [hmin]
  rw [getD_set _ _ _ _ (by rw [inv.len]; omega), if_pos rfl]

theorem score_term {V : Nat} (x : Fin V → ℝ) (t : Fin V) : -(Loss.crossEntropy x (oneHot (t.val : Int)) 0).1 = logSoftmax x t := by
  have : ∀ i : Fin V, (oneHot (t.val : Int) i : ℝ) * (x i - Loss.logsumexp x) = if i = t then x i - Loss.logsumexp x else 0 := by
    intro i
    unfold oneHot
    by_cases h : i = t
    · subst h; simp
    · have h' : ¬ ((i.val : Int) = t.val) := fun e => h (Fin.ext (by exact_mod_cast e))
      rw [if_neg h', if_neg h, zero_mul]
  simp only [Loss.crossEntropy, this, Finset.sum_ite_eq', Finset.mem_univ, if_true, logSoftmax]
  ring

theorem nopadding_of_pick {S : Type} {V : Nat} (f : Nat → S → Int → (Fin V → ℝ) × S) (pick : Nat → Nat → (Fin V → ℝ) → Fin V) (eos : Int)
    (inps : List Inp) (c : Nat → S) (b : Nat) {toks : List Int} {p i0 m : Nat} {out : List Int}
    (hro : RowOutput toks p i0 m eos (fun k => (next f pick (stateAt eos (next f pick) (initSt eos inps (0, c)) k)).2 b) out) (hip : i0 ≤ p)
    (hz : ∀ k b x, (pick k b x).val ≠ 0) : NoPadding p m eos out := by
  intro j hpj hjm hno
  have hne : ∀ k, i0 + k ≤ j → ∀ k' < k, p ≤ i0 + k' →
      ((next f pick (stateAt eos (next f pick) (initSt eos inps (0, c)) k')).2 b).1 ≠ eos := by
    intro k
    induction k with
    | zero => intro _ k' hk'; omega
    | succ k ih =>
      intro hk k' hk' hpk'
      by_cases h : k' < k
      · exact ih (by omega) k' h hpk'
      · have e : k' = k := by omega
        subst e
        have := hro.sampled k' hpk' (by omega) (ih (by omega))
        rw [← this]
        exact hno _ hpk' (by omega)
  have := hro.sampled (j - i0) (by omega) (by omega) (hne _ (by omega))
  have e : i0 + (j - i0) = j := by omega
  rw [e] at this
  have h2 := next_at f pick eos inps c b (j - i0)
  rw [this]
  show ((next f pick (at' f pick eos inps c (j - i0))).2 b).1 ≠ 0
  rw [h2]
  have := hz (j - i0) b (lg f pick eos inps c b (j - i0))
  simp only
  omega

/-- Sampling with a stepwise decoder `f` that agrees with the reference logits `ref`: the reported log-probability is the reference's score
of the returned sequence. -/
theorem score_generic {S : Type} {V n : Nat} (f : Nat → S → Int → (Fin V → ℝ) × S) (pick : Nat → Nat → (Fin V → ℝ) → Fin V)
    (eos : Int) (he : eos ≠ 0) (inps : List Inp) (c : Nat → S)
    (width : Nat) (hw : ∀ r ∈ inps, r.toks.length ≤ width) (fuel : Nat) (hf : max 1 width ≤ fuel)
    (b : Nat) (r : Inp) (hb : inps[b]? = some r) (hn : r.toks.length = n) (p : Nat) (hp : RightPadded r.toks p)
    (hpos : ∀ j, 1 ≤ j → j ≤ p → r.toks.getD j 0 > 0) (i0 : Nat) (hi0 : i0 = r.initialIndex.getD 0) (hip : i0 ≤ p)
    (him : i0 < maxDecodeLen r) (first : Int)
    (hfirst : (initRow (P := ℝ) eos r).curToken = if i0 = 0 then first else r.toks.getD i0 0)
    (ref : Row n → Row n → Fin n → Fin V → ℝ)
    (href : ∀ (inputs targets : Row n) (t : Fin n), i0 ≤ t.val → (∀ j : Fin n, j.val = 0 → inputs j = first) →
      (∀ j : Fin n, 1 ≤ j.val → j.val ≤ p → inputs j = r.toks.getD j.val 0) → p ≤ t.val → (∀ j, j ≤ t → targets j > 0) →
      (feed (f b) (c b) ((List.ofFn inputs).drop i0))[t.val - i0]? = some (ref inputs targets t)) :
    ∃ out lp, (sample f pick eos fuel inps c)[b]? = some (out, lp) ∧ out.length = n ∧ (∀ j, j < p → out.getD j 0 = r.toks.getD (j + 1) 0) ∧
      ((∀ k b x, (pick k b x).val ≠ 0) → NoPadding p (maxDecodeLen r) eos out) ∧
      (NoPadding p (maxDecodeLen r) eos out →
        lp = scoreRow (ref (shifted n first out) (asRow n out)) (asRow n out) (weightsFrom n p out)) := by
  obtain ⟨out, lp, hout, hro, hlp⟩ := C06_rows eos he (next f pick) inps (0, c) width hw fuel hf b r hb p hp (hi0 ▸ him)
  rw [← hi0] at hro hlp
  refine ⟨out, lp, hout, hro.length.trans hn, hro.prompt, fun hz => ?_, fun hnp => ?_⟩
  · exact nopadding_of_pick f pick eos inps c b hro hip hz
  set m := maxDecodeLen r with hm
  have hmL : m ≤ n := hn ▸ maxLen_le r
  have hpm : p ≤ m := le_maxLen r hp
  set s : Nat → Int × ℝ := fun k => (next f pick (stateAt eos (next f pick) (initSt eos inps (0, c)) k)).2 b with hs
  have hsk : ∀ k, s k = (((pick k b (lg f pick eos inps c b k)).val : Int),
      logSoftmax (lg f pick eos inps c b k) (pick k b (lg f pick eos inps c b k))) := fun k => next_at f pick eos inps c b k
  -- no end marker sampled before iteration `k`
  let NE : Nat → Prop := fun k => ∀ k' < k, p ≤ i0 + k' → (s k').1 ≠ eos
  have hNE : ∀ k k', k' ≤ k → NE k → NE k' := fun k k' h hk j hj hpj => hk j (by omega) hpj
  have hsamp : ∀ k, p ≤ i0 + k → i0 + k < m → NE k → out.getD (i0 + k) 0 = (s k).1 := fun k h1 h2 h3 => hro.sampled k h1 h2 h3
  -- outputs up to the current position are positive
  have hposout : ∀ k, i0 + k < m → NE k → ∀ j, j ≤ i0 + k → out.getD j 0 > 0 := by
    intro k hk hne j hj
    by_cases hjp : j < p
    · rw [hro.prompt j hjp]
      exact hpos _ (by omega) (by omega)
    · have e1 : i0 + (j - i0) = j := by omega
      have h1 := hsamp (j - i0) (by omega) (by omega) (hNE k _ (by omega) hne)
      rw [e1, hsk] at h1
      have h2 := hnp j (by omega) (by omega) (fun i hpi hij => by
        have h3 := hsamp (i - i0) (by omega) (by omega) (hNE k _ (by omega) hne)
        have e2 : i0 + (i - i0) = i := by omega
        rw [e2] at h3
        rw [h3]
        exact hne (i - i0) (by omega) (by omega))
      rw [h1] at h2 ⊢
      have : (0 : Int) ≤ ((pick (j - i0) b (lg f pick eos inps c b (j - i0))).val : Int) := Int.natCast_nonneg _
      simp only at h2 ⊢
      omega
  -- the tokens fed
  have htok : ∀ k, i0 + k < m → NE k → tok f pick eos inps c b k = if i0 + k = 0 then first else out.getD (i0 + k - 1) 0 := by
    intro k hk hne
    have hrow := row_stateAt eos (next f pick) inps (0, c) b r hb k
    have ht : tok f pick eos inps c b k = (rowRun eos r s k).curToken := by
      unfold tok at'
      rw [hrow]
      rfl
    rw [ht]
    cases k with
    | zero =>
      show (initRow (P := ℝ) eos r).curToken = _
      rw [hfirst]
      by_cases h0 : i0 = 0
      · rw [if_pos h0, if_pos (by omega)]
      · rw [if_neg h0, if_neg (by omega)]
        have := hro.prompt (i0 - 1) (by omega)
        have e : i0 - 1 + 1 = i0 := by omega
        rw [e] at this
        rw [Nat.add_zero, this]
    | succ k =>
      rw [curToken_run eos he r s p hp i0 m hi0 hm him k (by omega), if_neg (by omega)]
      have inv := inv_run eos he r s p hp i0 m hi0 hm him (k + 1)
      rw [inv.seq _ (by omega)]
      have e1 : i0 + (k + 1) - 1 = i0 + k := by omega
      have e2 : i0 + k + 1 - 1 - i0 = k := by omega
      rw [e1]
      by_cases hpk : p < i0 + k + 1
      · have hnE : ¬ EosBefore p i0 eos s (i0 + k + 1) := by
          rintro ⟨k', h1, h2, h3⟩
          exact hne k' (by omega) (by omega) h3
        rw [if_pos ⟨by omega, by omega, by omega, hpk, hnE⟩, e2]
        exact (hsamp k (by omega) (by omega) (hNE _ _ (by omega) hne)).symm
      · rw [if_neg (fun h => hpk h.2.2.2.1), pad_getD hp]
        exact (hro.prompt (i0 + k) (by omega)).symm
  -- the logits are the reference's
  have hlg : ∀ k, p ≤ i0 + k → (hk : i0 + k < m) → NE k →
      lg f pick eos inps c b k = ref (shifted n first out) (asRow n out) ⟨i0 + k, by omega⟩ := by
    intro k hpk hk hne
    have h1 := href (shifted n first out) (asRow n out) ⟨i0 + k, by omega⟩ (by simp only; omega) (fun j hj => by simp [shifted, hj])
      (fun j hj1 hj2 => by
        rw [shifted, if_neg (by omega), hro.prompt _ (by omega)]
        congr 1; omega) hpk (fun j hj => hposout k hk hne j.val hj)
    have h2 := lg_feed f pick eos inps c b k
    have e1 : i0 + k - i0 = k := by omega
    rw [feed_take] at h1
    simp only [e1] at h1
    have e2 : ((List.ofFn (shifted n first out)).drop i0).take (k + 1) = (List.range (k + 1)).map (tok f pick eos inps c b) := by
      apply List.ext_getElem?
      intro j
      by_cases hj : j < k + 1
      · rw [List.getElem?_take_of_lt hj, List.getElem?_drop, List.getElem?_map, List.getElem?_range hj, Option.map_some,
          htok j (by omega) (hNE k j (by omega) hne), List.getElem?_ofFn, dif_pos (by omega)]
        rfl
      · rw [List.getElem?_eq_none (by rw [List.length_take]; omega), List.getElem?_eq_none (by rw [List.length_map, List.length_range]; omega)]
    rw [e2, h2] at h1
    exact Option.some.inj h1
  -- the sums
  rw [hlp]
  unfold sampledLogProb scoreRow
  classical
  let g : Nat → ℝ := fun j => if hj : j < n then -(Loss.crossEntropy (ref (shifted n first out) (asRow n out) ⟨j, hj⟩)
    (oneHot (asRow n out ⟨j, hj⟩)) 0).1 * weightsFrom n p out ⟨j, hj⟩ else 0
  have e1 : ∑ j : Fin n, -(Loss.crossEntropy (ref (shifted n first out) (asRow n out) j) (oneHot (asRow n out j)) 0).1 * weightsFrom n p out j =
      ∑ j ∈ Finset.range n, g j := by
    rw [← Fin.sum_univ_eq_sum_range]
    exact Finset.sum_congr rfl fun j _ => by simp [g]
  have hg0 : ∀ j, (j < p ∨ out.getD j 0 = 0) → g j = 0 := by
    intro j hj
    simp only [g]
    by_cases hjn : j < n
    · rw [dif_pos hjn]
      have : weightsFrom n p out ⟨j, hjn⟩ = 0 := by
        unfold weightsFrom
        rw [if_neg]
        rintro ⟨h1, h2⟩
        rcases hj with h | h
        · simp only at h1; omega
        · exact h2 h
      rw [this, mul_zero]
    · rw [dif_neg hjn]
  have e2 : ∑ j ∈ Finset.range n, g j = ∑ j ∈ Finset.range m, g j := by
    symm
    refine Finset.sum_subset (fun j hj => by simp only [Finset.mem_range] at hj ⊢; omega) fun j hj hj' => ?_
    simp only [Finset.mem_range] at hj hj'
    exact hg0 j (Or.inr (hro.limit j (by omega) (by omega)))
  have e3 : ∑ j ∈ Finset.range m, g j = ∑ k ∈ Finset.range (m - i0), g (i0 + k) := by
    have : m = i0 + (m - i0) := by omega
    rw [this, Finset.sum_range_add, ← this]
    rw [Finset.sum_eq_zero (s := Finset.range i0) (fun j hj => hg0 j (Or.inl (by have := Finset.mem_range.1 hj; omega))), zero_add]
  rw [e1, e2, e3]
  refine Finset.sum_congr rfl fun k hk => ?_
  have hkm : i0 + k < m := by have := Finset.mem_range.1 hk; omega
  by_cases hc : p ≤ i0 + k ∧ NE k
  · rw [if_pos hc]
    have hout' := hsamp k hc.1 hkm hc.2
    have hposk := hposout k hkm hc.2 (i0 + k) le_rfl
    have hw1 : weightsFrom n p out ⟨i0 + k, by omega⟩ = 1 := by
      unfold weightsFrom
      rw [if_pos ⟨hc.1, by simp only; omega⟩]
    simp only [g]
    rw [dif_pos (by omega), hw1, mul_one, ← hlg k hc.1 hkm hc.2]
    have e4 : asRow n out ⟨i0 + k, by omega⟩ = ((pick k b (lg f pick eos inps c b k)).val : Int) := by
      unfold asRow
      rw [hout', hsk]
    rw [e4, score_term, hsk]
  · rw [if_neg hc]
    symm
    apply hg0
    by_cases hpk : p ≤ i0 + k
    · right
      have : ¬ NE k := fun h => hc ⟨hpk, h⟩
      simp only [NE, not_forall] at this
      obtain ⟨k', hk', hpk', hs'⟩ := this
      exact hro.after_eos k' (i0 + k) hpk' (by omega) (by simpa using hs') (by omega)
    · exact Or.inl (by omega)

end Verif.Score
