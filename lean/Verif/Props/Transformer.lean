import Verif.Model.Transformer
import Verif.Props.Masks
import Mathlib.Algebra.BigOperators.Fin
import Mathlib.Algebra.Order.BigOperators.Ring.Finset
import Mathlib.Order.ConditionallyCompleteLattice.Finset
/-
Property C93: what a T5 model computes for an example does not depend on the padding of its row, on the examples packed into the same
row or on where in the row it is; and masks are exact, because layer norms bound the attention logits.
-/
namespace Verif.Transformer
open Verif.Masks

namespace Spec

/-- The exponential is 0 at -θ and below (in float32 from about -104 on). -/
def Underflows (ex : ℝ → ℝ) (θ : ℝ) : Prop := ∀ x ≤ -θ, ex x = 0

/-- How large an entry of a projection of a normalised vector can be: only the parameters matter. -/
noncomputable def reach {d h e : Nat} (scale : Vec d) (kernel : Kernel d (h * e)) (hd : Fin h) (c : Fin e) : ℝ :=
  √d * ∑ i, |scale i| * |kernel i (joined hd c)|

/-- A bound for the attention logits before masking. -/
noncomputable def logitBound {d h e : Nat} (p : Attn d h e) (qScale kScale : Vec d) (relMax : ℝ) (hd : Fin h) : ℝ :=
  (∑ c : Fin e, reach qScale p.query hd c * reach kScale p.key hd c) + relMax

/-- The parameters are not so large that an attention logit could reach the order of the mask bias -1e10. -/
structure Tame {d h e f V : Nat} (net : Net d h e f V) (θ B : ℝ) : Prop where
  eps : 0 ≤ net.eps
  gap : 2 * B + θ ≤ 1e10
  enc : ∃ r, (∀ hd b, |net.encRel hd b| ≤ r) ∧ ∀ l ∈ net.enc, ∀ hd, logitBound l.attention l.preAttention l.preAttention r hd ≤ B
  dec : ∃ r, (∀ hd b, |net.decRel hd b| ≤ r) ∧ ∀ l ∈ net.dec, ∀ hd, logitBound l.self l.preSelf l.preSelf r hd ≤ B
  cross : ∀ l ∈ net.dec, ∀ hd, logitBound l.cross l.preCross net.encNorm 0 hd ≤ B

/-- Position j belongs to segment s; every position does if there are no segment ids. -/
def InSeg {n : Nat} (seg : Option (Row n)) (s : Int) (j : Fin n) : Prop := ∀ r, seg = some r → r j = s

/-- Segment s1 of one row and segment s2 of another hold the same text, moved by δ positions, at the positions p of the first row with
`W p`: tokens that are not padding in the same places, and the same inputs there.  Nothing is said about the rest of the rows. -/
structure SameText {n1 n2 : Nat} (W : ℤ → Prop) (δ : ℤ) (s1 s2 : Int) (seg1 : Option (Row n1)) (tok1 in1 : Row n1)
    (seg2 : Option (Row n2)) (tok2 in2 : Row n2) : Prop where
  fwd : ∀ i, W i.val → InSeg seg1 s1 i → tok1 i > 0 →
    ∃ j : Fin n2, (j.val : ℤ) = i.val + δ ∧ InSeg seg2 s2 j ∧ tok2 j > 0 ∧ in2 j = in1 i
  bwd : ∀ j, W (j.val - δ) → InSeg seg2 s2 j → tok2 j > 0 → ∃ i : Fin n1, (j.val : ℤ) = i.val + δ ∧ InSeg seg1 s1 i ∧ tok1 i > 0

/-- Everywhere. -/
def Everywhere : ℤ → Prop := fun _ => True

/-- Segment ids are given for both sides, for the decoder only, or not at all. -/
def SegsOk {n m : Nat} (b : Input n m) : Prop := b.encSeg.isSome → b.decSeg.isSome

end Spec
open Spec

variable {d h e f V : Nat}

/-! ### Layer norms bound the logits -/

theorem layerNorm_le (eps : ℝ) (he : 0 ≤ eps) (scale x : Vec d) (i : Fin d) : |layerNorm eps scale x i| ≤ √d * |scale i| := by
  have hd : (0 : ℝ) < d := by exact_mod_cast (Nat.pos_of_ne_zero (fun h0 => by subst h0; exact i.elim0))
  simp only [layerNorm]
  rw [abs_mul]
  apply mul_le_mul_of_nonneg_right _ (abs_nonneg _)
  set m := (∑ i, x i ^ 2) / (d : ℝ) with hm
  have h1 : x i ^ 2 ≤ ∑ i, x i ^ 2 := Finset.single_le_sum (f := fun i => x i ^ 2) (fun j _ => sq_nonneg _) (Finset.mem_univ i)
  have h2 : x i ^ 2 ≤ d * (m + eps) := by
    have : (d : ℝ) * m = ∑ i, x i ^ 2 := by rw [hm]; field_simp
    nlinarith
  have h3 : |x i| ≤ √d * √(m + eps) := by
    rw [← Real.sqrt_mul hd.le, ← Real.sqrt_sq_eq_abs]
    exact Real.sqrt_le_sqrt h2
  rw [abs_mul, abs_inv, abs_of_nonneg (Real.sqrt_nonneg _)]
  by_cases h0 : √(m + eps) = 0
  · rw [h0]; simp
  · have hp : 0 < √(m + eps) := lt_of_le_of_ne (Real.sqrt_nonneg _) (Ne.symm h0)
    rw [← div_eq_mul_inv, div_le_iff₀ hp]; exact h3

theorem project_le (eps : ℝ) (he : 0 ≤ eps) (scale x : Vec d) (k : Kernel d (h * e)) (hd : Fin h) (c : Fin e) :
    |project k (layerNorm eps scale x) hd c| ≤ reach scale k hd c := by
  unfold project reach
  refine (Finset.abs_sum_le_sum_abs _ _).trans ?_
  rw [Finset.mul_sum]
  apply Finset.sum_le_sum
  intro i _
  rw [abs_mul, ← mul_assoc]
  exact mul_le_mul_of_nonneg_right (layerNorm_le eps he scale x i) (abs_nonneg _)

/-- The logit of a pair of positions before the mask is applied. -/
noncomputable def raw {L : Nat} (q : Fin h → Fin e → ℝ) (k : Fin L → Fin h → Fin e → ℝ) (bias : Option (Fin h → Fin L → ℝ))
    (hd : Fin h) (j : Fin L) : ℝ :=
  (∑ c, q hd c * k j hd c) + bias.elim 0 fun b => b hd j

theorem raw_le {L : Nat} (eps : ℝ) (he : 0 ≤ eps) (p : Attn d h e) (qs ks xq : Vec d) (xk : Fin L → Vec d)
    (bias : Option (Fin h → Fin L → ℝ)) (r : ℝ) (hb : ∀ hd j, |bias.elim 0 fun b => b hd j| ≤ r) (hd : Fin h) (j : Fin L) :
    |raw (project p.query (layerNorm eps qs xq)) (fun j => project p.key (layerNorm eps ks (xk j))) bias hd j| ≤ logitBound p qs ks r hd := by
  unfold raw logitBound
  refine (abs_add_le _ _).trans (add_le_add ?_ (hb hd j))
  refine (Finset.abs_sum_le_sum_abs _ _).trans (Finset.sum_le_sum fun c _ => ?_)
  rw [abs_mul]
  exact mul_le_mul (project_le eps he qs xq _ hd c) (project_le eps he ks _ _ hd c) (abs_nonneg _)
    ((abs_nonneg _).trans (project_le eps he qs xq _ hd c))

theorem relBias_le (lg : ℕ → ℝ) (rel : Fin h → ℤ → ℝ) (r : ℝ) (hr : ∀ hd b, |rel hd b| ≤ r) (bi : Bool) (n : Nat) (i : Fin n)
    (hd : Fin h) (j : Fin n) : |relBias lg rel bi n i hd j| ≤ r := by
  have h0 : 0 ≤ r := (abs_nonneg _).trans (hr hd 0)
  unfold relBias RelPos.bias
  generalize RelPos.bucket lg (((j : ℕ) : ℤ) - ((i : ℕ) : ℤ)) bi 32 = t
  have gen : ∀ (l : List ℕ), l.Nodup →
      ((l.map fun b : ℕ => rel hd b * (if t = (b : ℤ) then 1 else 0)).sum = 0) ∨
      ((∃ b ∈ l, t = (b : ℤ)) ∧ (l.map fun b : ℕ => rel hd b * (if t = (b : ℤ) then 1 else 0)).sum = rel hd t) := by
    intro l
    induction l with
    | nil => intro _; left; rfl
    | cons b l ih =>
      intro hn
      rw [List.nodup_cons] at hn
      rw [List.map_cons, List.sum_cons]
      by_cases ht : t = (b : ℤ)
      · right
        refine ⟨⟨b, List.mem_cons_self .., ht⟩, ?_⟩
        rcases ih hn.2 with h1 | ⟨⟨b', hb', ht'⟩, _⟩
        · rw [h1, if_pos ht, ht]; ring
        · exact absurd hb' (by rw [show b' = b by omega]; exact hn.1)
      · rw [if_neg ht, mul_zero, zero_add]
        rcases ih hn.2 with h1 | ⟨⟨b', hb', ht'⟩, h2⟩
        · left; exact h1
        · right; exact ⟨⟨b', List.mem_cons_of_mem _ hb', ht'⟩, h2⟩
  rcases gen (List.range 32) List.nodup_range with h1 | ⟨_, h1⟩
  · rw [h1, abs_zero]; exact h0
  · rw [h1]; exact hr _ _

theorem relBias_shift (lg : ℕ → ℝ) (rel : Fin h → ℤ → ℝ) (bi : Bool) {n1 n2 : Nat} (i k : Fin n1) (j l : Fin n2) (δ : ℤ)
    (h1 : (j.val : ℤ) = i.val + δ) (h2 : (l.val : ℤ) = k.val + δ) (hd : Fin h) :
    relBias lg rel bi n1 i hd k = relBias lg rel bi n2 j hd l := by
  unfold relBias RelPos.bias
  rw [show ((l : ℕ) : ℤ) - ((j : ℕ) : ℤ) = ((k : ℕ) : ℤ) - ((i : ℕ) : ℤ) by omega]

/-! ### Attention over corresponding keys -/

theorem logitsOf_some {L : Nat} (q : Fin h → Fin e → ℝ) (k : Fin L → Fin h → Fin e → ℝ) (m : Fin L → Int)
    (bias : Option (Fin h → Fin L → ℝ)) (hd : Fin h) (j : Fin L) :
    logitsOf q k (some m) bias hd j = raw q k bias hd j + maskBias (m j) := by
  unfold logitsOf raw totalBias
  cases bias <;> simp <;> ring

theorem sum_sim {n1 n2 : Nat} (C : Fin n1 → Fin n2 → Prop) (hinj : ∀ k k' l, C k l → C k' l → k = k')
    (hfun : ∀ k l l', C k l → C k l' → l = l') (g1 : Fin n1 → ℝ) (g2 : Fin n2 → ℝ) (h1 : ∀ k, g1 k ≠ 0 → ∃ l, C k l)
    (h2 : ∀ l, g2 l ≠ 0 → ∃ k, C k l) (hg : ∀ k l, C k l → g1 k = g2 l) : ∑ k, g1 k = ∑ l, g2 l := by
  classical
  refine Finset.sum_bij_ne_zero (fun k _ hk => (h1 k hk).choose) (fun _ _ _ => Finset.mem_univ _) ?_ ?_ ?_
  · intro a _ ha b _ hb hab
    refine hinj a b _ (h1 a ha).choose_spec ?_
    rw [hab]; exact (h1 b hb).choose_spec
  · intro l _ hl
    obtain ⟨k, hk⟩ := h2 l hl
    have hk0 : g1 k ≠ 0 := by rw [hg k l hk]; exact hl
    exact ⟨k, Finset.mem_univ _, hk0, hfun k _ _ (h1 k hk0).choose_spec hk⟩
  · intro k _ hk
    exact hg k _ (h1 k hk).choose_spec

theorem sup_unmasked {n : Nat} (B : ℝ) (hB : 2 * B < 1e10) (r : Fin n → ℝ) (m : Fin n → Int) (hr : ∀ k, |r k| ≤ B) (hne : ∃ k, m k > 0) :
    ∃ k0, m k0 > 0 ∧ (⨆ k, (r k + maskBias (m k))) = r k0 ∧ ∀ k, m k > 0 → r k ≤ r k0 := by
  classical
  obtain ⟨k, hk⟩ := hne
  obtain ⟨k0, hk0, hmax⟩ := Finset.exists_max_image (Finset.univ.filter fun k => m k > 0) r ⟨k, by simp [hk]⟩
  have h0 : m k0 > 0 := (Finset.mem_filter.1 hk0).2
  have hmax' : ∀ k, m k > 0 → r k ≤ r k0 := fun k hk => hmax k (by simp [hk])
  refine ⟨k0, h0, ?_, hmax'⟩
  haveI : Nonempty (Fin n) := ⟨k0⟩
  apply le_antisymm
  · apply ciSup_le
    intro k
    unfold maskBias
    split_ifs with hk
    · simpa using hmax' k hk
    · have a := (abs_le.1 (hr k)).2; have b := (abs_le.1 (hr k0)).1
      linarith
  · refine le_ciSup_of_le (Set.finite_range _).bddAbove k0 ?_
    simp [maskBias, h0]

/-- Two rows of keys in which the unmasked keys correspond have the same softmax averages. -/
theorem average_sim {n1 n2 : Nat} (ex : ℝ → ℝ) (θ B : ℝ) (hex : Underflows ex θ) (hgap : 2 * B + θ ≤ 1e10) (hB : 2 * B < 1e10)
    (C : Fin n1 → Fin n2 → Prop) (hinj : ∀ k k' l, C k l → C k' l → k = k') (hfun : ∀ k l l', C k l → C k l' → l = l')
    (r1 v1 : Fin n1 → ℝ) (r2 v2 : Fin n2 → ℝ) (m1 : Fin n1 → Int) (m2 : Fin n2 → Int)
    (hr1 : ∀ k, |r1 k| ≤ B) (hr2 : ∀ l, |r2 l| ≤ B) (hne : ∃ k, m1 k > 0)
    (hm1 : ∀ k, m1 k > 0 → ∃ l, C k l ∧ m2 l > 0) (hm2 : ∀ l, m2 l > 0 → ∃ k, C k l ∧ m1 k > 0)
    (hr : ∀ k l, C k l → m1 k > 0 → r1 k = r2 l) (hv : ∀ k l, C k l → m1 k > 0 → v1 k = v2 l) :
    ∑ k, softmax ex (fun k => r1 k + maskBias (m1 k)) k * v1 k = ∑ l, softmax ex (fun l => r2 l + maskBias (m2 l)) l * v2 l := by
  obtain ⟨k0, hk0, hs1, hmax1⟩ := sup_unmasked B hB r1 m1 hr1 hne
  obtain ⟨l', -, hl'⟩ := hm1 k0 hk0
  obtain ⟨l0, hl0, hs2, hmax2⟩ := sup_unmasked B hB r2 m2 hr2 ⟨l', hl'⟩
  have hM : r1 k0 = r2 l0 := by
    obtain ⟨l, hc, hl⟩ := hm1 k0 hk0
    obtain ⟨k, hc', hk⟩ := hm2 l0 hl0
    apply le_antisymm
    · rw [hr k0 l hc hk0]; exact hmax2 l hl
    · rw [← hr k l0 hc' hk]; exact hmax1 k hk
  have z1 : ∀ k, ¬ m1 k > 0 → ex (r1 k + maskBias (m1 k) - r1 k0) = 0 := by
    intro k hk
    apply hex
    have a := (abs_le.1 (hr1 k)).2; have b := (abs_le.1 (hr1 k0)).1
    simp only [maskBias, if_neg hk]; linarith
  have z2 : ∀ l, ¬ m2 l > 0 → ex (r2 l + maskBias (m2 l) - r2 l0) = 0 := by
    intro k hk
    apply hex
    have a := (abs_le.1 (hr2 k)).2; have b := (abs_le.1 (hr2 l0)).1
    simp only [maskBias, if_neg hk]; linarith
  let D : Fin n1 → Fin n2 → Prop := fun k l => C k l ∧ m1 k > 0 ∧ m2 l > 0
  have corr1 : ∀ k, m1 k > 0 → ∃ l, D k l := fun k hk => by obtain ⟨l, a, b⟩ := hm1 k hk; exact ⟨l, a, hk, b⟩
  have corr2 : ∀ l, m2 l > 0 → ∃ k, D k l := fun l hl => by obtain ⟨k, a, b⟩ := hm2 l hl; exact ⟨k, a, b, hl⟩
  have eqw : ∀ k l, D k l → ex (r1 k + maskBias (m1 k) - r1 k0) = ex (r2 l + maskBias (m2 l) - r2 l0) := by
    rintro k l ⟨hc, a, b⟩
    rw [hM, hr k l hc a]; simp [maskBias, a, b]
  have hS : ∑ k, ex (r1 k + maskBias (m1 k) - r1 k0) = ∑ l, ex (r2 l + maskBias (m2 l) - r2 l0) := by
    refine sum_sim D (fun k k' l a b => hinj k k' l a.1 b.1) (fun k l l' a b => hfun k l l' a.1 b.1) _ _ ?_ ?_ eqw
    · intro k hk
      exact corr1 k (by by_contra hn; exact hk (z1 k hn))
    · intro l hl
      exact corr2 l (by by_contra hn; exact hl (z2 l hn))
  unfold softmax
  simp only [hs1, hs2]
  refine sum_sim D (fun k k' l a b => hinj k k' l a.1 b.1) (fun k l l' a b => hfun k l l' a.1 b.1) _ _ ?_ ?_ ?_
  · intro k hk
    exact corr1 k (by by_contra hn; exact hk (by rw [z1 k hn]; simp))
  · intro l hl
    exact corr2 l (by by_contra hn; exact hl (by rw [z2 l hn]; simp))
  · rintro k l hD
    rw [eqw k l hD, hS, hv k l hD.1 hD.2.1]

theorem attention_sim {n1 n2 : Nat} (ex : ℝ → ℝ) (θ B : ℝ) (hex : Underflows ex θ) (hgap : 2 * B + θ ≤ 1e10) (hB : 2 * B < 1e10)
    (p : Attn d h e) (xq : Vec d) (C : Fin n1 → Fin n2 → Prop) (hinj : ∀ k k' l, C k l → C k' l → k = k')
    (hfun : ∀ k l l', C k l → C k l' → l = l') (x1 : Fin n1 → Vec d) (x2 : Fin n2 → Vec d) (m1 : Fin n1 → Int) (m2 : Fin n2 → Int)
    (b1 : Option (Fin h → Fin n1 → ℝ)) (b2 : Option (Fin h → Fin n2 → ℝ))
    (hr1 : ∀ hd k, |raw (project p.query xq) (fun k => project p.key (x1 k)) b1 hd k| ≤ B)
    (hr2 : ∀ hd k, |raw (project p.query xq) (fun k => project p.key (x2 k)) b2 hd k| ≤ B)
    (hne : ∃ k, m1 k > 0) (hm1 : ∀ k, m1 k > 0 → ∃ l, C k l ∧ m2 l > 0) (hm2 : ∀ l, m2 l > 0 → ∃ k, C k l ∧ m1 k > 0)
    (hx : ∀ k l, C k l → m1 k > 0 → x1 k = x2 l)
    (hb : ∀ hd k l, C k l → (b1.elim 0 fun b => b hd k) = (b2.elim 0 fun b => b hd l)) :
    attention ex p xq x1 (some m1) b1 = attention ex p xq x2 (some m2) b2 := by
  unfold attention
  congr 1
  funext hd c
  have e1 : logitsOf (project p.query xq) (fun j => project p.key (x1 j)) (some m1) b1 hd =
      fun k => raw (project p.query xq) (fun k => project p.key (x1 k)) b1 hd k + maskBias (m1 k) := by
    funext k; rw [logitsOf_some]
  have e2 : logitsOf (project p.query xq) (fun j => project p.key (x2 j)) (some m2) b2 hd =
      fun k => raw (project p.query xq) (fun k => project p.key (x2 k)) b2 hd k + maskBias (m2 k) := by
    funext k; rw [logitsOf_some]
  rw [e1, e2]
  refine average_sim ex θ B hex hgap hB C hinj hfun _ _ _ _ m1 m2 (hr1 hd) (hr2 hd) hne hm1 hm2 ?_ ?_
  · intro k l hc hk
    simp only [raw]
    rw [hx k l hc hk, hb hd k l hc]
  · intro k l hc hk
    rw [hx k l hc hk]

/-! ### Stacks -/

/-- The positions of two rows correspond: moved by δ, and the unmasked keys of corresponding positions correspond. -/
structure Corr {n1 n2 : Nat} (δ : ℤ) (R : Fin n1 → Fin n2 → Prop) (M1 : Mask n1 n1) (M2 : Mask n2 n2) : Prop where
  off : ∀ i j, R i j → (j.val : ℤ) = i.val + δ
  some : ∀ i j, R i j → ∃ k, M1 i k > 0
  fwd : ∀ i j, R i j → ∀ k, M1 i k > 0 → ∃ l, R k l ∧ M2 j l > 0
  bwd : ∀ i j, R i j → ∀ l, M2 j l > 0 → ∃ k, R k l ∧ M1 i k > 0

theorem Corr.inj {n1 n2 : Nat} {δ : ℤ} {R : Fin n1 → Fin n2 → Prop} (h : ∀ i j, R i j → (j.val : ℤ) = i.val + δ) :
    (∀ k k' l, R k l → R k' l → k = k') ∧ (∀ k l l', R k l → R k l' → l = l') := by
  refine ⟨fun k k' l a b => ?_, fun k l l' a b => ?_⟩
  · have := h _ _ a; have := h _ _ b; ext; omega
  · have := h _ _ a; have := h _ _ b; ext; omega

variable {ex : ℝ → ℝ} {lg : ℕ → ℝ} {net : Net d h e f V} {θ B : ℝ}

theorem enc_sim (hex : Underflows ex θ) (hθ : 0 < θ) (ht : Tame net θ B) {n1 n2 : Nat} {δ : ℤ} {R : Fin n1 → Fin n2 → Prop}
    {M1 : Mask n1 n1} {M2 : Mask n2 n2} (hc : Corr δ R M1 M2) :
    ∀ (ls : List (EncLayer d h e f)), (∀ l ∈ ls, l ∈ net.enc) → ∀ (x1 : Fin n1 → Vec d) (x2 : Fin n2 → Vec d),
      (∀ i j, R i j → x1 i = x2 j) → ∀ i j, R i j →
      ls.foldl (encLayer ex lg net (some M1)) x1 i = ls.foldl (encLayer ex lg net (some M2)) x2 j := by
  intro ls
  induction ls with
  | nil => intro _ x1 x2 hx; exact hx
  | cons l ls ih =>
    intro hl x1 x2 hx
    rw [List.foldl_cons, List.foldl_cons]
    refine ih (fun l' h' => hl l' (List.mem_cons_of_mem _ h')) _ _ ?_
    intro i j hij
    have hgap := ht.gap
    have hlr := hl l (List.mem_cons_self ..)
    obtain ⟨r, hr, hrB⟩ := ht.enc
    simp only [encLayer, Option.map_some]
    rw [← hx i j hij]
    have ha : attention ex l.attention (layerNorm net.eps l.preAttention (x1 i)) (fun j => layerNorm net.eps l.preAttention (x1 j))
          (some (M1 i)) (some (relBias lg net.encRel true n1 i)) =
        attention ex l.attention (layerNorm net.eps l.preAttention (x1 i)) (fun j => layerNorm net.eps l.preAttention (x2 j))
          (some (M2 j)) (some (relBias lg net.encRel true n2 j)) := by
      refine attention_sim ex θ B hex hgap (by linarith) _ _ R (Corr.inj hc.off).1 (Corr.inj hc.off).2 _ _ _ _ _ _ ?_ ?_
        (hc.some i j hij) (hc.fwd i j hij) (hc.bwd i j hij) ?_ ?_
      · intro hd k
        exact (raw_le net.eps ht.eps _ _ _ _ _ (some (relBias lg net.encRel true n1 i)) r
          (fun hd k => relBias_le lg _ r hr _ _ _ _ _) hd k).trans (hrB l hlr hd)
      · intro hd k
        exact (raw_le net.eps ht.eps _ _ _ _ _ (some (relBias lg net.encRel true n2 j)) r
          (fun hd k => relBias_le lg _ r hr _ _ _ _ _) hd k).trans (hrB l hlr hd)
      · intro k l' hkl _; rw [hx k l' hkl]
      · intro hd k l' hkl
        exact relBias_shift lg net.encRel true i k j l' δ (hc.off _ _ hij) (hc.off _ _ hkl) hd
    rw [ha]

theorem dec_sim (hex : Underflows ex θ) (hθ : 0 < θ) (ht : Tame net θ B) {n1 n2 m1 m2 : Nat} {δ : ℤ} {R : Fin n1 → Fin n2 → Prop}
    {M1 : Mask n1 n1} {M2 : Mask n2 n2} (hc : Corr δ R M1 M2) {C1 : Mask n1 m1} {C2 : Mask n2 m2} {δe : ℤ} {Q : Fin m1 → Fin m2 → Prop}
    (hQ : ∀ i j, Q i j → (j.val : ℤ) = i.val + δe) (hC : ∀ i j, R i j → ∃ k, C1 i k > 0)
    (hC1 : ∀ i j, R i j → ∀ k, C1 i k > 0 → ∃ l, Q k l ∧ C2 j l > 0) (hC2 : ∀ i j, R i j → ∀ l, C2 j l > 0 → ∃ k, Q k l ∧ C1 i k > 0)
    (e1 : Fin m1 → Vec d) (e2 : Fin m2 → Vec d)
    (hee : ∀ k l, Q k l → layerNorm net.eps net.encNorm (e1 k) = layerNorm net.eps net.encNorm (e2 l)) :
    ∀ (ls : List (DecLayer d h e f)), (∀ l ∈ ls, l ∈ net.dec) → ∀ (x1 : Fin n1 → Vec d) (x2 : Fin n2 → Vec d),
      (∀ i j, R i j → x1 i = x2 j) → ∀ i j, R i j →
      ls.foldl (decLayer ex lg net (some M1) (some C1) (fun k => layerNorm net.eps net.encNorm (e1 k))) x1 i =
        ls.foldl (decLayer ex lg net (some M2) (some C2) (fun k => layerNorm net.eps net.encNorm (e2 k))) x2 j := by
  intro ls
  induction ls with
  | nil => intro _ x1 x2 hx; exact hx
  | cons l ls ih =>
    intro hl x1 x2 hx
    rw [List.foldl_cons, List.foldl_cons]
    refine ih (fun l' h' => hl l' (List.mem_cons_of_mem _ h')) _ _ ?_
    intro i j hij
    have hgap := ht.gap
    have hlr := hl l (List.mem_cons_self ..)
    obtain ⟨r, hr, hrB⟩ := ht.dec
    simp only [decLayer, Option.map_some]
    rw [← hx i j hij]
    have ha : attention ex l.self (layerNorm net.eps l.preSelf (x1 i)) (fun j => layerNorm net.eps l.preSelf (x1 j))
          (some (M1 i)) (some (relBias lg net.decRel false n1 i)) =
        attention ex l.self (layerNorm net.eps l.preSelf (x1 i)) (fun j => layerNorm net.eps l.preSelf (x2 j))
          (some (M2 j)) (some (relBias lg net.decRel false n2 j)) := by
      refine attention_sim ex θ B hex hgap (by linarith) _ _ R (Corr.inj hc.off).1 (Corr.inj hc.off).2 _ _ _ _ _ _ ?_ ?_
        (hc.some i j hij) (hc.fwd i j hij) (hc.bwd i j hij) ?_ ?_
      · intro hd k
        exact (raw_le net.eps ht.eps _ _ _ _ _ (some (relBias lg net.decRel false n1 i)) r
          (fun hd k => relBias_le lg _ r hr _ _ _ _ _) hd k).trans (hrB l hlr hd)
      · intro hd k
        exact (raw_le net.eps ht.eps _ _ _ _ _ (some (relBias lg net.decRel false n2 j)) r
          (fun hd k => relBias_le lg _ r hr _ _ _ _ _) hd k).trans (hrB l hlr hd)
      · intro k l' hkl _; rw [hx k l' hkl]
      · intro hd k l' hkl
        exact relBias_shift lg net.decRel false i k j l' δ (hc.off _ _ hij) (hc.off _ _ hkl) hd
    rw [ha]
    generalize (fun c => attention ex l.self (layerNorm net.eps l.preSelf (x1 i)) (fun j => layerNorm net.eps l.preSelf (x2 j))
          (some (M2 j)) (some (relBias lg net.decRel false n2 j)) c + x1 i c) = y
    have hb : attention ex l.cross (layerNorm net.eps l.preCross y) (fun k => layerNorm net.eps net.encNorm (e1 k)) (some (C1 i)) none =
        attention ex l.cross (layerNorm net.eps l.preCross y) (fun k => layerNorm net.eps net.encNorm (e2 k)) (some (C2 j)) none := by
      refine attention_sim ex θ B hex hgap (by linarith) _ _ Q (Corr.inj hQ).1 (Corr.inj hQ).2 _ _ _ _ _ _ ?_ ?_
        (hC i j hij) (hC1 i j hij) (hC2 i j hij) ?_ ?_
      · intro hd k
        exact (raw_le net.eps ht.eps _ _ _ _ _ none 0 (by simp) hd k).trans (ht.cross l hlr hd)
      · intro hd k
        exact (raw_le net.eps ht.eps _ _ _ _ _ none 0 (by simp) hd k).trans (ht.cross l hlr hd)
      · intro k l' hkl _; exact hee k l' hkl
      · intro hd k l' _; rfl
    rw [hb]

/-! ### Masks -/

theorem encMask {n : Nat} (tok : Row n) (seg : Option (Row n)) : ∃ M, makeEncoderMask tok seg = some M ∧
    ∀ i j, M i j > 0 ↔ tok i > 0 ∧ tok j > 0 ∧ ∀ s, seg = some s → s i = s j := by
  cases seg with
  | none =>
    refine ⟨_, rfl, fun i j => ?_⟩
    by_cases h1 : tok i > 0 <;> by_cases h2 : tok j > 0 <;> simp [makeAttentionMask, multiply, ofBool, h1, h2]
  | some s =>
    obtain ⟨M, hM, hs⟩ := encoder_mask tok s
    refine ⟨M, hM, fun i j => ?_⟩
    obtain ⟨h01, h1⟩ := hs i j
    have e1 : M i j > 0 ↔ M i j = 1 := by rcases h01 with h | h <;> rw [h] <;> simp
    rw [e1, h1]; simp

theorem decMask {n : Nat} (tok : Row n) (seg : Option (Row n)) : ∃ M, makeDecoderMask tok none seg = some M ∧
    ∀ i j, M i j > 0 ↔ tok i > 0 ∧ tok j > 0 ∧ j ≤ i ∧ ∀ s, seg = some s → s i = s j := by
  obtain ⟨M, hM, hs⟩ := C11_decoder_mask tok none seg
  refine ⟨M, hM, fun i j => ?_⟩
  obtain ⟨h01, h1⟩ := hs i j
  have e1 : M i j > 0 ↔ M i j = 1 := by rcases h01 with h | h <;> rw [h] <;> simp
  rw [e1, h1]; simp [Masks.Spec.mayAttend]

theorem crossMask {n m : Nat} (dt : Row n) (et : Row m) (ds : Option (Row n)) (es : Option (Row m)) (hok : es.isSome → ds.isSome) :
    ∃ M, makeEncoderDecoderMask dt et ds es = some M ∧
    ∀ i j, M i j > 0 ↔ dt i > 0 ∧ et j > 0 ∧ ∀ s t, ds = some s → es = some t → s i = t j := by
  cases es with
  | none =>
    refine ⟨_, rfl, fun i j => ?_⟩
    by_cases h1 : dt i > 0 <;> by_cases h2 : et j > 0 <;> simp [makeAttentionMask, multiply, ofBool, h1, h2]
  | some t =>
    cases ds with
    | none => simp at hok
    | some s =>
      obtain ⟨M, hM, hs⟩ := cross_mask dt et s t
      refine ⟨M, hM, fun i j => ?_⟩
      obtain ⟨h01, h1⟩ := hs i j
      have e1 : M i j > 0 ↔ M i j = 1 := by rcases h01 with h | h <;> rw [h] <;> simp
      rw [e1, h1]; simp

theorem apply_some {n m : Nat} (b : Input n m) (hs : SegsOk b) : ∃ y, apply ex lg net b = some y := by
  obtain ⟨A1, hA1, _⟩ := encMask b.encTokens b.encSeg
  obtain ⟨M1, hM1, _⟩ := decMask b.decTargets b.decSeg
  obtain ⟨C1, hC1, _⟩ := crossMask b.decTargets b.encTokens b.decSeg b.encSeg hs
  exact ⟨decoder ex lg net (encoder ex lg net b.encTokens (some A1)) b.decInputs (some M1) (some C1),
    by simp only [apply, encode, hA1, hM1, hC1, Option.map_some, Option.bind_some]⟩

/-- C93: the logits of an example depend only on the example, and at each position only on the targets up to it.  Two rows, of any
lengths, hold the same example (`SameText`: the whole text on the encoder side, the text up to position i on the decoder side): possibly
at different places, with other examples before and after it and with any padding.  Then the logits at the corresponding target position
are equal.  The example needs at least one encoder token. -/
theorem C93_same_logits (hex : Underflows ex θ) (hθ : 0 < θ) (ht : Tame net θ B) {n1 m1 n2 m2 : Nat} (b1 : Input n1 m1) (b2 : Input n2 m2)
    (hs1 : SegsOk b1) (hs2 : SegsOk b2) (δ δe : ℤ) (s1 s2 : Int) (i : Fin n1) (j : Fin n2) (hij : (j.val : ℤ) = i.val + δ)
    (hd : SameText (fun p => p ≤ i.val) δ s1 s2 b1.decSeg b1.decTargets b1.decInputs b2.decSeg b2.decTargets b2.decInputs)
    (he : SameText Everywhere δe s1 s2 b1.encSeg b1.encTokens b1.encTokens b2.encSeg b2.encTokens b2.encTokens)
    (hi : InSeg b1.decSeg s1 i) (hti : b1.decTargets i > 0) (hne : ∃ k, InSeg b1.encSeg s1 k ∧ b1.encTokens k > 0) :
    ∃ y1 y2, apply ex lg net b1 = some y1 ∧ apply ex lg net b2 = some y2 ∧ y1 i = y2 j := by
  obtain ⟨A1, hA1, sA1⟩ := encMask b1.encTokens b1.encSeg
  obtain ⟨A2, hA2, sA2⟩ := encMask b2.encTokens b2.encSeg
  obtain ⟨M1, hM1, sM1⟩ := decMask b1.decTargets b1.decSeg
  obtain ⟨M2, hM2, sM2⟩ := decMask b2.decTargets b2.decSeg
  obtain ⟨C1, hC1, sC1⟩ := crossMask b1.decTargets b1.encTokens b1.decSeg b1.encSeg hs1
  obtain ⟨C2, hC2, sC2⟩ := crossMask b2.decTargets b2.encTokens b2.decSeg b2.encSeg hs2
  refine ⟨decoder ex lg net (encoder ex lg net b1.encTokens (some A1)) b1.decInputs (some M1) (some C1),
    decoder ex lg net (encoder ex lg net b2.encTokens (some A2)) b2.decInputs (some M2) (some C2),
    by simp only [apply, encode, hA1, hM1, hC1, Option.map_some, Option.bind_some],
    by simp only [apply, encode, hA2, hM2, hC2, Option.map_some, Option.bind_some], ?_⟩
  -- corresponding positions
  let Q : Fin m1 → Fin m2 → Prop := fun i j => (j.val : ℤ) = i.val + δe ∧ InSeg b1.encSeg s1 i ∧ b1.encTokens i > 0 ∧
    InSeg b2.encSeg s2 j ∧ b2.encTokens j > 0
  let R : Fin n1 → Fin n2 → Prop := fun p q => (q.val : ℤ) = p.val + δ ∧ InSeg b1.decSeg s1 p ∧ b1.decTargets p > 0 ∧
    InSeg b2.decSeg s2 q ∧ b2.decTargets q > 0 ∧ p.val ≤ i.val
  have qf : ∀ i, InSeg b1.encSeg s1 i → b1.encTokens i > 0 → ∃ j, Q i j := fun i a b => by
    obtain ⟨j, h1, h2, h3, _⟩ := he.fwd i trivial a b; exact ⟨j, h1, a, b, h2, h3⟩
  have qb : ∀ j, InSeg b2.encSeg s2 j → b2.encTokens j > 0 → ∃ i, Q i j := fun j a b => by
    obtain ⟨i, h1, h2, h3⟩ := he.bwd j trivial a b; exact ⟨i, h1, h2, h3, a, b⟩
  have rf : ∀ p, p.val ≤ i.val → InSeg b1.decSeg s1 p → b1.decTargets p > 0 → ∃ q, R p q := fun p hp a b => by
    obtain ⟨j, h1, h2, h3, _⟩ := hd.fwd p (by omega) a b; exact ⟨j, h1, a, b, h2, h3, hp⟩
  have rb : ∀ q : Fin n2, (q.val : ℤ) ≤ i.val + δ → InSeg b2.decSeg s2 q → b2.decTargets q > 0 → ∃ p, R p q := fun q hq a b => by
    obtain ⟨p, h1, h2, h3⟩ := hd.bwd q (by omega) a b; exact ⟨p, h1, h2, h3, a, b, by omega⟩
  have cQ : Corr δe Q A1 A2 := by
    refine ⟨fun i j h => h.1, fun i j h => ⟨i, (sA1 i i).2 ⟨h.2.2.1, h.2.2.1, fun _ _ => rfl⟩⟩, ?_, ?_⟩
    · rintro i j ⟨h1, h2, h3, h4, h5⟩ k hk
      obtain ⟨_, hk2, hk3⟩ := (sA1 i k).1 hk
      obtain ⟨l, hl⟩ := qf k (fun r hr => by rw [← hk3 r hr]; exact h2 r hr) hk2
      exact ⟨l, hl, (sA2 j l).2 ⟨h5, hl.2.2.2.2, fun r hr => by rw [h4 r hr, hl.2.2.2.1 r hr]⟩⟩
    · rintro i j ⟨h1, h2, h3, h4, h5⟩ l hl
      obtain ⟨_, hl2, hl3⟩ := (sA2 j l).1 hl
      obtain ⟨k, hk⟩ := qb l (fun r hr => by rw [← hl3 r hr]; exact h4 r hr) hl2
      exact ⟨k, hk, (sA1 i k).2 ⟨h3, hk.2.2.1, fun r hr => by rw [h2 r hr, hk.2.1 r hr]⟩⟩
  have cR : Corr δ R M1 M2 := by
    refine ⟨fun i j h => h.1, fun i j h => ⟨i, (sM1 i i).2 ⟨h.2.2.1, h.2.2.1, le_rfl, fun _ _ => rfl⟩⟩, ?_, ?_⟩
    · rintro p q ⟨h1, h2, h3, h4, h5, h6⟩ k hk
      obtain ⟨_, hk2, hki, hk3⟩ := (sM1 p k).1 hk
      rw [Fin.le_def] at hki
      obtain ⟨l, hl⟩ := rf k (by omega) (fun r hr => by rw [← hk3 r hr]; exact h2 r hr) hk2
      refine ⟨l, hl, (sM2 q l).2 ⟨h5, hl.2.2.2.2.1, ?_, fun r hr => by rw [h4 r hr, hl.2.2.2.1 r hr]⟩⟩
      have := hl.1; rw [Fin.le_def]; omega
    · rintro p q ⟨h1, h2, h3, h4, h5, h6⟩ l hl
      obtain ⟨_, hl2, hli, hl3⟩ := (sM2 q l).1 hl
      rw [Fin.le_def] at hli
      obtain ⟨k, hk⟩ := rb l (by omega) (fun r hr => by rw [← hl3 r hr]; exact h4 r hr) hl2
      refine ⟨k, hk, (sM1 p k).2 ⟨h3, hk.2.2.1, ?_, fun r hr => by rw [h2 r hr, hk.2.1 r hr]⟩⟩
      have := hk.1; rw [Fin.le_def]; omega
  have tokQ : ∀ i j, Q i j → b1.encTokens i = b2.encTokens j := by
    rintro i j ⟨h1, h2, h3, _⟩
    obtain ⟨j', h1', _, _, h3'⟩ := he.fwd i trivial h2 h3
    have : j = j' := by ext; omega
    rw [this, h3']
  have inR : ∀ p q, R p q → b1.decInputs p = b2.decInputs q := by
    rintro p q ⟨h1, h2, h3, h4, h5, h6⟩
    obtain ⟨j', h1', _, _, h4'⟩ := hd.fwd p (by omega) h2 h3
    have : q = j' := by ext; omega
    rw [this, h4']
  have hR : R i j := by
    obtain ⟨j', hj'⟩ := rf i le_rfl hi hti
    have : j = j' := by have := hj'.1; ext; omega
    rw [this]; exact hj'
  simp only [decoder]
  congr 1
  unfold encoder
  refine dec_sim hex hθ ht cR (Q := Q) (δe := δe) (fun i j h => h.1) ?_ ?_ ?_ _ _ ?_ net.dec (fun _ h => h) _ _ ?_ i j hR
  · rintro i j ⟨_, h2, h3, _⟩
    obtain ⟨k, hk, hk'⟩ := hne
    exact ⟨k, (sC1 i k).2 ⟨h3, hk', fun s t hs ht' => by rw [h2 s hs, hk t ht']⟩⟩
  · rintro i j ⟨h1, h2, h3, h4, h5, _⟩ k hk
    obtain ⟨_, hk2, hk3⟩ := (sC1 i k).1 hk
    have hkseg : InSeg b1.encSeg s1 k := by
      intro t ht'
      obtain ⟨s, hs⟩ := Option.isSome_iff_exists.1 (hs1 (by rw [ht']; rfl))
      rw [← hk3 s t hs ht']; exact h2 s hs
    obtain ⟨l, hl⟩ := qf k hkseg hk2
    exact ⟨l, hl, (sC2 j l).2 ⟨h5, hl.2.2.2.2, fun s t hs ht' => by rw [h4 s hs, hl.2.2.2.1 t ht']⟩⟩
  · rintro i j ⟨h1, h2, h3, h4, h5, _⟩ l hl
    obtain ⟨_, hl2, hl3⟩ := (sC2 j l).1 hl
    have hlseg : InSeg b2.encSeg s2 l := by
      intro t ht'
      obtain ⟨s, hs⟩ := Option.isSome_iff_exists.1 (hs2 (by rw [ht']; rfl))
      rw [← hl3 s t hs ht']; exact h4 s hs
    obtain ⟨k, hk⟩ := qb l hlseg hl2
    exact ⟨k, hk, (sC1 i k).2 ⟨h3, hk.2.2.1, fun s t hs ht' => by rw [h2 s hs, hk.2.1 t ht']⟩⟩
  · intro k l hkl
    congr 1
    exact enc_sim hex hθ ht cQ net.enc (fun _ h => h) _ _ (fun i j hij => by rw [tokQ i j hij]) k l hkl
  · intro i j hij
    rw [inR i j hij]

/-- C93, packing: an example alone in its rows (of any length, no segment ids) and the same example as segment s of packed rows, at
positions a, a+1, … of the decoder and c, c+1, … of the encoder, have the same logits at every target token. -/
theorem C93_packed (hex : Underflows ex θ) (hθ : 0 < θ) (ht : Tame net θ B) {n0 m0 n m : Nat} (alone : Input n0 m0) (packed : Input n m)
    (h1 : alone.encSeg = none) (h2 : alone.decSeg = none) (es : Row m) (ds : Row n) (h3 : packed.encSeg = some es)
    (h4 : packed.decSeg = some ds) (s : Int) (a c : Nat)
    (hds : ∀ j, ds j = s ↔ a ≤ j.val ∧ j.val < a + n0) (hes : ∀ j, es j = s ↔ c ≤ j.val ∧ j.val < c + m0)
    (hn : a + n0 ≤ n) (hm : c + m0 ≤ m)
    (htok : ∀ (i : Fin n0) (j : Fin n), j.val = a + i.val → packed.decTargets j = alone.decTargets i ∧ packed.decInputs j = alone.decInputs i)
    (henc : ∀ (i : Fin m0) (j : Fin m), j.val = c + i.val → packed.encTokens j = alone.encTokens i)
    (hne : ∃ k, alone.encTokens k > 0) :
    ∃ y1 y2, apply ex lg net alone = some y1 ∧ apply ex lg net packed = some y2 ∧
      ∀ (i : Fin n0) (j : Fin n), j.val = a + i.val → alone.decTargets i > 0 → y1 i = y2 j := by
  have inalone : ∀ i, InSeg alone.decSeg 0 i := fun i r hr => by rw [h2] at hr; cases hr
  have inalone' : ∀ i, InSeg alone.encSeg 0 i := fun i r hr => by rw [h1] at hr; cases hr
  have o1 : SegsOk alone := by unfold SegsOk; rw [h1]; simp
  have o2 : SegsOk packed := by unfold SegsOk; rw [h4]; simp
  have he : SameText Everywhere c 0 s alone.encSeg alone.encTokens alone.encTokens packed.encSeg packed.encTokens packed.encTokens := by
    constructor
    · intro i _ _ hi
      have hi' := i.isLt
      refine ⟨⟨c + i.val, by omega⟩, by push_cast; omega, ?_, by rw [henc i ⟨c + i.val, by omega⟩ rfl]; exact hi, henc i ⟨c + i.val, by omega⟩ rfl⟩
      intro r hr
      rw [h3] at hr; cases hr
      exact (hes _).2 ⟨by simp, by simp⟩
    · intro j _ hj htj
      obtain ⟨hj1, hj2⟩ := (hes j).1 (hj es h3)
      refine ⟨⟨j.val - c, by omega⟩, by push_cast; omega, inalone' _, ?_⟩
      rw [← henc ⟨j.val - c, by omega⟩ j (by simp; omega)]; exact htj
  have hd : ∀ W, SameText W a 0 s alone.decSeg alone.decTargets alone.decInputs packed.decSeg packed.decTargets packed.decInputs := by
    intro W
    constructor
    · intro i _ _ hi
      have hi' := i.isLt
      refine ⟨⟨a + i.val, by omega⟩, by push_cast; omega, ?_, by rw [(htok i ⟨a + i.val, by omega⟩ rfl).1]; exact hi, (htok i ⟨a + i.val, by omega⟩ rfl).2⟩
      intro r hr
      rw [h4] at hr; cases hr
      exact (hds _).2 ⟨by simp, by simp⟩
    · intro j _ hj htj
      obtain ⟨hj1, hj2⟩ := (hds j).1 (hj ds h4)
      refine ⟨⟨j.val - a, by omega⟩, by push_cast; omega, inalone _, ?_⟩
      rw [← (htok ⟨j.val - a, by omega⟩ j (by simp; omega)).1]; exact htj
  obtain ⟨k, hk⟩ := hne
  have key : ∀ (i : Fin n0) (j : Fin n), j.val = a + i.val → alone.decTargets i > 0 →
      ∃ y1 y2, apply ex lg net alone = some y1 ∧ apply ex lg net packed = some y2 ∧ y1 i = y2 j := fun i j hij hti =>
    C93_same_logits hex hθ ht alone packed o1 o2 a c 0 s i j (by omega) (hd _) he (inalone i) hti ⟨k, inalone' k, hk⟩
  obtain ⟨z1, hz1⟩ := apply_some (ex := ex) (lg := lg) (net := net) alone o1
  obtain ⟨z2, hz2⟩ := apply_some (ex := ex) (lg := lg) (net := net) packed o2
  refine ⟨z1, z2, hz1, hz2, fun i j hij hti => ?_⟩
  obtain ⟨y1, y2, e1, e2, hy⟩ := key i j hij hti
  rw [hz1] at e1; rw [hz2] at e2
  cases e1; cases e2
  exact hy

/-- C93, padding: rows that are padded to different lengths have the same logits at every target token. -/
theorem C93_padding (hex : Underflows ex θ) (hθ : 0 < θ) (ht : Tame net θ B) {n1 m1 n2 m2 : Nat} (b1 : Input n1 m1) (b2 : Input n2 m2)
    (h1 : b1.encSeg = none ∧ b1.decSeg = none) (h2 : b2.encSeg = none ∧ b2.decSeg = none)
    (htok : ∀ (i : Fin n1) (j : Fin n2), i.val = j.val → b1.decTargets i = b2.decTargets j ∧ b1.decInputs i = b2.decInputs j)
    (henc : ∀ (i : Fin m1) (j : Fin m2), i.val = j.val → b1.encTokens i = b2.encTokens j)
    (hpad1 : ∀ i : Fin n1, n2 ≤ i.val → b1.decTargets i = 0) (hpad2 : ∀ i : Fin n2, n1 ≤ i.val → b2.decTargets i = 0)
    (hpad3 : ∀ i : Fin m1, m2 ≤ i.val → b1.encTokens i = 0) (hpad4 : ∀ i : Fin m2, m1 ≤ i.val → b2.encTokens i = 0)
    (hne : ∃ k, b1.encTokens k > 0) :
    ∃ y1 y2, apply ex lg net b1 = some y1 ∧ apply ex lg net b2 = some y2 ∧
      ∀ (i : Fin n1) (j : Fin n2), i.val = j.val → b1.decTargets i > 0 → y1 i = y2 j := by
  have s1 : ∀ i, InSeg b1.decSeg 0 i := fun i r hr => by rw [h1.2] at hr; cases hr
  have s1' : ∀ i, InSeg b1.encSeg 0 i := fun i r hr => by rw [h1.1] at hr; cases hr
  have s2 : ∀ i, InSeg b2.decSeg 0 i := fun i r hr => by rw [h2.2] at hr; cases hr
  have s2' : ∀ i, InSeg b2.encSeg 0 i := fun i r hr => by rw [h2.1] at hr; cases hr
  have o1 : SegsOk b1 := by unfold SegsOk; rw [h1.1]; simp
  have o2 : SegsOk b2 := by unfold SegsOk; rw [h2.1]; simp
  have he : SameText Everywhere 0 0 0 b1.encSeg b1.encTokens b1.encTokens b2.encSeg b2.encTokens b2.encTokens := by
    constructor
    · intro i _ _ hi
      have hlt : i.val < m2 := by by_contra hc; rw [hpad3 i (by omega)] at hi; omega
      exact ⟨⟨i.val, hlt⟩, by simp, s2' _, by rw [← henc i ⟨i.val, hlt⟩ rfl]; exact hi, (henc i ⟨i.val, hlt⟩ rfl).symm⟩
    · intro j _ _ hj
      have hlt : j.val < m1 := by by_contra hc; rw [hpad4 j (by omega)] at hj; omega
      exact ⟨⟨j.val, hlt⟩, by simp, s1' _, by rw [henc ⟨j.val, hlt⟩ j rfl]; exact hj⟩
  have hd : ∀ W, SameText W 0 0 0 b1.decSeg b1.decTargets b1.decInputs b2.decSeg b2.decTargets b2.decInputs := by
    intro W
    constructor
    · intro i _ _ hi
      have hlt : i.val < n2 := by by_contra hc; rw [hpad1 i (by omega)] at hi; omega
      exact ⟨⟨i.val, hlt⟩, by simp, s2 _, by rw [← (htok i ⟨i.val, hlt⟩ rfl).1]; exact hi, (htok i ⟨i.val, hlt⟩ rfl).2.symm⟩
    · intro j _ _ hj
      have hlt : j.val < n1 := by by_contra hc; rw [hpad2 j (by omega)] at hj; omega
      exact ⟨⟨j.val, hlt⟩, by simp, s1 _, by rw [(htok ⟨j.val, hlt⟩ j rfl).1]; exact hj⟩
  obtain ⟨k, hk⟩ := hne
  obtain ⟨z1, hz1⟩ := apply_some (ex := ex) (lg := lg) (net := net) b1 o1
  obtain ⟨z2, hz2⟩ := apply_some (ex := ex) (lg := lg) (net := net) b2 o2
  refine ⟨z1, z2, hz1, hz2, fun i j hij hti => ?_⟩
  obtain ⟨y1, y2, e1, e2, hy⟩ := C93_same_logits (lg := lg) hex hθ ht b1 b2 o1 o2 0 0 0 0 i j (by omega) (hd _) he (s1 i) hti ⟨k, s1' k, hk⟩
  rw [hz1] at e1; rw [hz2] at e2
  cases e1; cases e2
  exact hy

/-- C93, causality: changing decoder inputs and targets after position i does not change the logits at i; of the targets up to i only
which of them are padding matters, so the logits at i do not depend on the token to be predicted. -/
theorem C93_causal (hex : Underflows ex θ) (hθ : 0 < θ) (ht : Tame net θ B) {n m : Nat} (b : Input n m) (inputs targets : Row n)
    (hs : SegsOk b) (i : Fin n) (hti : b.decTargets i > 0)
    (hsame : ∀ j ≤ i, inputs j = b.decInputs j ∧ (targets j > 0 ↔ b.decTargets j > 0))
    (hne : ∃ k, (∀ ds es, b.decSeg = some ds → b.encSeg = some es → es k = ds i) ∧ b.encTokens k > 0) :
    ∃ y1 y2, apply ex lg net b = some y1 ∧ apply ex lg net { b with decInputs := inputs, decTargets := targets } = some y2 ∧ y1 i = y2 i := by
  obtain ⟨s, hs1, hs2⟩ : ∃ s, InSeg b.decSeg s i ∧ ∃ k, InSeg b.encSeg s k ∧ b.encTokens k > 0 := by
    obtain ⟨k, hk, hk'⟩ := hne
    cases hds : b.decSeg with
    | none =>
      refine ⟨0, (fun r hr => by cases hr), k, (fun r hr => ?_), hk'⟩
      have := hs (by rw [hr]; rfl); rw [hds] at this; simp at this
    | some ds =>
      exact ⟨ds i, (fun r hr => by cases hr; rfl), k, (fun r hr => hk ds r hds hr), hk'⟩
  refine C93_same_logits hex hθ ht b { b with decInputs := inputs, decTargets := targets } hs hs 0 0 s s i i (by simp) ?_ ?_ hs1 hti hs2
  · constructor
    · intro j hj hj1 hj2
      have hle : j ≤ i := by rw [Fin.le_def]; simpa using hj
      exact ⟨j, by simp, hj1, (hsame j hle).2.2 hj2, (hsame j hle).1⟩
    · intro j hj hj1 hj2
      have hle : j ≤ i := by rw [Fin.le_def]; simpa using hj
      exact ⟨j, by simp, hj1, (hsame j hle).2.1 hj2⟩
  · exact ⟨fun j _ hj htj => ⟨j, by simp, hj, htj, rfl⟩, fun j _ hj htj => ⟨j, by simp, hj, htj⟩⟩

/-- C93, masks are exact: in the self-attention of every encoder layer, whatever the hidden states, a masked key has weight exactly 0
as soon as one key is not masked. -/
theorem C93_mask_exact (hex : Underflows ex θ) (ht : Tame net θ B) {n : Nat} (hθ : 0 < θ) (l : EncLayer d h e f) (hl : l ∈ net.enc)
    (x : Fin n → Vec d) (i : Fin n) (mask : Fin n → Int) (hne : ∃ k, mask k > 0) (hd : Fin h) (j : Fin n) (hj : ¬ mask j > 0) :
    softmax ex (logitsOf (project l.attention.query (layerNorm net.eps l.preAttention (x i)))
      (fun k => project l.attention.key (layerNorm net.eps l.preAttention (x k))) (some mask)
      (some (relBias lg net.encRel true n i)) hd) j = 0 := by
  obtain ⟨r, hr, hrB⟩ := ht.enc
  have hgap := ht.gap
  have hB := fun k => (raw_le net.eps ht.eps l.attention l.preAttention l.preAttention (x i) x (some (relBias lg net.encRel true n i)) r
    (fun hd k => relBias_le lg _ r hr _ _ _ _ _) hd k).trans (hrB l hl hd)
  have e1 : logitsOf (project l.attention.query (layerNorm net.eps l.preAttention (x i)))
      (fun k => project l.attention.key (layerNorm net.eps l.preAttention (x k))) (some mask) (some (relBias lg net.encRel true n i)) hd =
      fun k => raw (project l.attention.query (layerNorm net.eps l.preAttention (x i)))
        (fun k => project l.attention.key (layerNorm net.eps l.preAttention (x k))) (some (relBias lg net.encRel true n i)) hd k +
        maskBias (mask k) := by
    funext k; rw [logitsOf_some]
  rw [e1]
  obtain ⟨k0, hk0, hs, _⟩ := sup_unmasked B (by linarith) _ mask hB hne
  unfold softmax
  rw [hs]
  have a := (abs_le.1 (hB j)).2; have b := (abs_le.1 (hB k0)).1
  rw [hex _ (by simp only [maskBias, if_neg hj]; linarith), zero_div]

/-- C93, a limit: a query all of whose keys are masked (padding, or a target whose encoder text is empty) attends to all keys as if
there were no mask. -/
theorem C93_fully_masked {L : Nat} (p : Attn d h e) (xq : Vec d) (xkv : Fin L → Vec d) (mask : Fin L → Int)
    (bias : Option (Fin h → Fin L → ℝ)) (hall : ∀ j, ¬ mask j > 0) :
    attention ex p xq xkv (some mask) bias = attention ex p xq xkv none bias := by
  unfold attention
  congr 1
  funext hd c
  have e1 : logitsOf (project p.query xq) (fun j => project p.key (xkv j)) (some mask) bias hd =
      fun j => logitsOf (project p.query xq) (fun j => project p.key (xkv j)) none bias hd j + -1e10 := by
    funext j
    unfold logitsOf totalBias
    cases bias <;> simp only [maskBias, if_neg (hall j)] <;> ring
  rw [e1]
  apply Finset.sum_congr rfl
  intro j _
  congr 1
  haveI : Nonempty (Fin L) := ⟨j⟩
  have e2 : (⨆ k, (logitsOf (project p.query xq) (fun j => project p.key (xkv j)) none bias hd k + -1e10)) =
      (⨆ k, logitsOf (project p.query xq) (fun j => project p.key (xkv j)) none bias hd k) + -1e10 := by
    apply le_antisymm
    · exact ciSup_le fun k => add_le_add_left (le_ciSup (f := fun k => logitsOf (project p.query xq) (fun j => project p.key (xkv j))
        none bias hd k) (Set.finite_range _).bddAbove k) _
    · rw [← le_sub_iff_add_le]
      refine ciSup_le fun k => ?_
      rw [le_sub_iff_add_le]
      exact le_ciSup (f := fun k => logitsOf (project p.query xq) (fun j => project p.key (xkv j)) none bias hd k + -1e10)
        (Set.finite_range _).bddAbove k
  simp only [softmax, e2, add_sub_add_right_eq_sub]

/-! ### The hypotheses can be met -/

/-- An exponential that underflows like that of float32. -/
noncomputable def flushed (x : ℝ) : ℝ := if x ≤ -104 then 0 else Real.exp x

example : Underflows flushed 104 ∧ flushed 0 = 1 := by
  refine ⟨fun x hx => if_pos hx, ?_⟩
  unfold flushed; norm_num

/-- A small model: one feature, one layer on each side, a gated MLP. -/
noncomputable def demoNet : Net 1 1 1 1 2 where
  eps := 1e-6
  table := fun _ _ => 1
  encRel := fun _ b => if b = 0 then 1 else 0
  enc := [⟨fun _ => 1, ⟨fun _ _ => 2, fun _ _ => 3, fun _ _ => 1, fun _ _ => 1⟩, fun _ => 1, ⟨(fun x => max x 0, fun _ _ => 1), [(id, fun _ _ => 1)], fun _ _ => 1⟩⟩]
  encNorm := fun _ => 1
  decRel := fun _ _ => 0
  dec := [⟨fun _ => 1, ⟨fun _ _ => 2, fun _ _ => 3, fun _ _ => 1, fun _ _ => 1⟩, fun _ => 1, ⟨fun _ _ => 2, fun _ _ => 3, fun _ _ => 1, fun _ _ => 1⟩, fun _ => 1, ⟨(id, fun _ _ => 1), [], fun _ _ => 1⟩⟩]
  decNorm := fun _ => 1
  head := .viaEmbedding

theorem demoNet_tame : Tame demoNet 104 7 := by
  refine ⟨by norm_num [demoNet], by norm_num, ⟨1, fun hd b => ?_, ?_⟩, ⟨1, fun hd b => ?_, ?_⟩, ?_⟩
  · simp only [demoNet]; split_ifs <;> simp
  · intro l hl hd
    simp only [demoNet, List.mem_singleton] at hl
    subst hl
    norm_num [logitBound, reach]
  · simp [demoNet]
  · intro l hl hd
    simp only [demoNet, List.mem_singleton] at hl
    subst hl
    norm_num [logitBound, reach]
  · intro l hl hd
    simp only [demoNet, List.mem_singleton] at hl
    subst hl
    norm_num [logitBound, reach, demoNet]

/-- A packed pair of rows whose second example is the one of the short row. -/
example : ∃ (alone : Input 2 1) (packed : Input 4 4) (es ds : Row 4), alone.encSeg = none ∧ packed.encSeg = some es ∧ packed.decSeg = some ds ∧
    (∀ j, ds j = 2 ↔ 1 ≤ j.val ∧ j.val < 1 + 2) ∧ (∀ j, es j = 2 ↔ 2 ≤ j.val ∧ j.val < 2 + 1) ∧
    (∀ (i : Fin 2) (j : Fin 4), j.val = 1 + i.val → packed.decTargets j = alone.decTargets i ∧ packed.decInputs j = alone.decInputs i) ∧
    (∀ (i : Fin 1) (j : Fin 4), j.val = 2 + i.val → packed.encTokens j = alone.encTokens i) ∧ (∃ k, alone.encTokens k > 0) :=
  ⟨⟨![7], ![0, 5], ![5, 1], none, none⟩, ⟨![8, 9, 7, 0], ![0, 0, 5, 0], ![4, 5, 1, 0], some ![1, 1, 2, 0], some ![1, 2, 2, 0]⟩,
    ![1, 1, 2, 0], ![1, 2, 2, 0], rfl, rfl, rfl, by decide, by decide, by decide, by decide, 0, by decide⟩

end Verif.Transformer
